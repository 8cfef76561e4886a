import Verif.Spec.TextRoundTrip
import Verif.Props.Txt2lasCases
import Verif.Props.Las2txtCases
/-
C78: what las2txt prints, txt2las reads back.
-/
namespace LibLAS
open Spec Spec.Text Point

namespace TextRoundTrip
open Txt2las Las2txt

theorem between_stop {c : Char} (h : between c = true) : stop c = true := by
  simp only [between, Bool.or_eq_true, beq_iff_eq] at h
  simp only [stop, Bool.or_eq_true, beq_iff_eq]
  tauto

theorem number_stop {c : Char} (h : numberChar c = true) : stop c = false := by
  by_contra hc
  rw [Bool.not_eq_false] at hc
  simp only [stop, Bool.or_eq_true, beq_iff_eq] at hc
  rcases hc with (((rfl | rfl) | rfl) | rfl) | rfl <;> exact absurd h (by decide)

/-- Texts with a delimiter between them are columns. -/
theorem columns_intercalate {d : Char} (hd : between d = true) : ∀ (fields : List (List Char)) (gap : List Char),
    (∀ t ∈ fields, t ≠ [] ∧ ∀ c ∈ t, stop c = false) → (∀ c ∈ gap, between c = true) →
    Columns fields (gap ++ [d].intercalate fields ++ ['\n'])
  | [], gap, _, _ => .nil _
  | [t], gap, h, hg => by
    obtain ⟨h1, h2⟩ := h t (by simp)
    have := Columns.cons hg h1 h2 (rest := ['\n']) (by intro c u e; injection e with e _; subst e; decide) (by simp) (.nil _)
    simpa using this
  | t :: u :: us, gap, h, hg => by
    obtain ⟨h1, h2⟩ := h t (by simp)
    have ih := columns_intercalate hd (u :: us) [d] (fun v hv => h v (by simp only [List.mem_cons] at hv ⊢; right; exact hv)) (by simpa using hd)
    have := Columns.cons hg h1 h2 (rest := [d] ++ [d].intercalate (u :: us) ++ ['\n'])
      (by intro c v e; injection e with e _; subst e; exact between_stop hd) (fun _ => ⟨d, _, rfl, hd⟩) ih
    rw [List.intercalate_cons_cons]
    simpa using this

theorem view_possible (b : Build) (f : PointFormat) (d : List Byte) : Possible (view b f d) := by
  have h1 : ∀ x : BitVec 8, ((x &&& 0x07#8).setWidth 16).toNat < 8 ∧ (((x >>> 3) &&& 0x07#8).setWidth 16).toNat < 8 ∧
      (((x >>> 6) &&& 0x01#8).setWidth 16).toNat < 2 ∧ (((x >>> 7) &&& 0x01#8).setWidth 16).toNat < 2 := by decide
  exact h1 _

/-- Two readings of a text as a decimal have the same nearest double. -/
theorem decimal_double {p q : Nat} {v w : ℚ} {t : List Char} (h : Decimal p v t) (k : Decimal q w t) : Fl.ofRat v = Fl.ofRat w := by
  have e : Ends [] := by intro c u h; cases h
  have h1 := decAt_ok h e
  rw [decAt_ok k e] at h1
  injection h1 with h1
  exact h1.symm

theorem showsReal_decimal {p : Nat} {v : BitVec 32} {s o : Fl} {t : List Char} (hf : FineEnough s o p)
    (h : ShowsReal p (scaled v s o) t) : ∃ w, Decimal p w t ∧ descaled (Fl.ofRat w) s o = .ok v := by
  have h0 := h
  have hf0 := hf
  obtain ⟨a, c, rfl, rfl, h1, h2, h3, -⟩ := hf
  obtain ⟨q, hq, -⟩ := scaled_close v h1 h2 h3
  rw [hq] at h
  obtain ⟨w, hw, -⟩ := h
  exact ⟨w, hw, fine_descaled hf0 h0 hw⟩

/-- The letters that both programs know. -/
def common : List Char := ['x', 'y', 'z', 't', 'i', 'a', 'n', 'r', 'c', 'u', 'p', 'e', 'd', 'R', 'G', 'B']

theorem says_nonempty {scale offset : Vec3 Fl} {c : Char} (hc : c ∈ common) {t : List Char} {a : Attrs} (h : Says scale offset c t a) : t ≠ [] := by
  have i1 : ∀ {v : ℤ}, ShowsInt v t → t ≠ [] := by
    rintro v ⟨ds, e, ⟨⟨hne, -⟩, -⟩, -⟩ rfl
    have := congrArg List.length e
    simp at this
    exact hne (List.eq_nil_of_length_eq_zero (by omega))
  have d1 : ∀ {p : Nat} {w : ℚ}, Decimal p w t → t ≠ [] := by
    rintro p w ⟨n, i, f, e, ⟨⟨hne, -⟩, -⟩, -⟩ rfl
    have := congrArg List.length e
    simp at this
    exact hne (List.eq_nil_of_length_eq_zero (by omega))
  simp only [common, List.mem_cons, List.not_mem_nil, or_false] at hc
  rcases hc with rfl | rfl | rfl | rfl | rfl | rfl | rfl | rfl | rfl | rfl | rfl | rfl | rfl | rfl | rfl | rfl
  · obtain ⟨p, w, h, -⟩ := h; exact d1 h
  · obtain ⟨p, w, h, -⟩ := h; exact d1 h
  · obtain ⟨p, w, h, -⟩ := h; exact d1 h
  · obtain ⟨p, w, h, -⟩ := h; exact d1 h
  all_goals exact i1 h

section
variable {b : Build} {h : PHeader} {px py pz pt : Nat} {p : List Byte} {index : Nat} {t : List Char}

/-- What the time must be like to be printed and read. -/
def TimeOk (a : Attrs) : Prop := ∃ q : ℚ, Fl.ofBits a.time = .fin q ∧ 0 ≤ q

theorem field_fits {c : Char} (hc : c ∈ common) (hx : FineEnough h.scale.x h.offset.x px) (hy : FineEnough h.scale.y h.offset.y py)
    (hz : FineEnough h.scale.z h.offset.z pz) (hw : (⟨p, h⟩ : Point).WF)
    (ht : c = 't' → ∀ a, observe b ⟨p, h⟩ = .ok a → TimeOk a) (hf : Field b h px py pz pt p index c t) : Fits h.scale h.offset c t := by
  obtain ⟨a, x, y, z, ho, ex, ey, ez, hs⟩ := hf
  have hpos : Possible a := by
    rw [observe_eq hw] at ho
    cases ho
    exact view_possible _ _ _
  have hx' : getX b ⟨p, h⟩ = .ok (scaled a.rawX h.scale.x h.offset.x) := by unfold getX; rw [(Point.observe_inv ho).1]; rfl
  have hy' : getY b ⟨p, h⟩ = .ok (scaled a.rawY h.scale.y h.offset.y) := by unfold getY; rw [(Point.observe_inv ho).2.1]; rfl
  have hz' : getZ b ⟨p, h⟩ = .ok (scaled a.rawZ h.scale.z h.offset.z) := by unfold getZ; rw [(Point.observe_inv ho).2.2.1]; rfl
  rw [hx'] at ex; rw [hy'] at ey; rw [hz'] at ez
  cases ex; cases ey; cases ez
  simp only [common, List.mem_cons, List.not_mem_nil, or_false] at hc
  rcases hc with rfl | rfl | rfl | rfl | rfl | rfl | rfl | rfl | rfl | rfl | rfl | rfl | rfl | rfl | rfl | rfl
  · obtain ⟨w, hw, e⟩ := showsReal_decimal hx hs; exact ⟨a, hpos, _, w, hw, e⟩
  · obtain ⟨w, hw, e⟩ := showsReal_decimal hy hs; exact ⟨a, hpos, _, w, hw, e⟩
  · obtain ⟨w, hw, e⟩ := showsReal_decimal hz hs; exact ⟨a, hpos, _, w, hw, e⟩
  · obtain ⟨q, hq, h0⟩ := ht rfl a ho
    simp only [Shows] at hs
    rw [hq] at hs
    obtain ⟨w, hw, -, hm⟩ := hs
    refine ⟨{ a with time := (Fl.ofRat w).toBits }, hpos, _, w, hw, rfl, fun _ hh => ?_⟩
    exact absurd (hm.1 hh) (by linarith)
  · exact ⟨a, hpos, hs⟩
  · exact ⟨a, hpos, hs⟩
  · exact ⟨a, hpos, hs⟩
  · exact ⟨a, hpos, hs⟩
  · refine ⟨{ a with classification := ⟨BitVec.ofNat 8 (a.classification.flags.toNat % 32)⟩ }, hpos, ?_⟩
    simp only [Says, Shows] at hs ⊢
    rw [BitVec.toNat_ofNat, Nat.mod_eq_of_lt (by omega)]
    exact hs
  all_goals exact ⟨a, hpos, hs⟩

/-- What the text of a letter tells about the attributes of the point printed and of one it is read into. -/
def Same (pt : Nat) (c : Char) (a a' : Attrs) : Prop :=
  match c with
  | 'x' => a'.rawX = a.rawX
  | 'y' => a'.rawY = a.rawY
  | 'z' => a'.rawZ = a.rawZ
  | 't' => ∃ q w : ℚ, Fl.ofBits a.time = .fin q ∧ |w - q| ≤ 1 / 2 / 10 ^ pt ∧ a'.time = (Fl.ofRat w).toBits
  | 'i' => a'.intensity = a.intensity
  | 'a' => a'.scanAngle = a.scanAngle
  | 'n' => a'.numberOfReturns = a.numberOfReturns
  | 'r' => a'.returnNumber = a.returnNumber
  | 'c' => a'.classification.flags.toNat = a.classification.flags.toNat % 32
  | 'u' => a'.userData = a.userData
  | 'p' => a'.sourceId = a.sourceId
  | 'e' => a'.edge = a.edge
  | 'd' => a'.scanDirection = a.scanDirection
  | 'R' => a'.color.c0 = a.color.c0
  | 'G' => a'.color.c1 = a.color.c1
  | 'B' => a'.color.c2 = a.color.c2
  | _ => True

theorem same_nat {w : Nat} {v u : BitVec w} {t : List Char} (h : ShowsInt (v.toNat : ℤ) t) (k : ShowsInt (u.toNat : ℤ) t) : u = v := by
  apply BitVec.eq_of_toNat_eq
  exact_mod_cast showsInt_unique k h

theorem field_says {c : Char} (hc : c ∈ common) (hx : FineEnough h.scale.x h.offset.x px) (hy : FineEnough h.scale.y h.offset.y py)
    (hz : FineEnough h.scale.z h.offset.z pz) {a : Attrs} (ho : observe b ⟨p, h⟩ = .ok a)
    (ht : c = 't' → TimeOk a) (hf : Field b h px py pz pt p index c t) {a' : Attrs} (hs' : Says h.scale h.offset c t a') :
    Same pt c a a' := by
  obtain ⟨a₁, x, y, z, ho₁, ex, ey, ez, hs⟩ := hf
  rw [ho] at ho₁
  cases ho₁
  have hx' : getX b ⟨p, h⟩ = .ok (scaled a.rawX h.scale.x h.offset.x) := by unfold getX; rw [(Point.observe_inv ho).1]; rfl
  have hy' : getY b ⟨p, h⟩ = .ok (scaled a.rawY h.scale.y h.offset.y) := by unfold getY; rw [(Point.observe_inv ho).2.1]; rfl
  have hz' : getZ b ⟨p, h⟩ = .ok (scaled a.rawZ h.scale.z h.offset.z) := by unfold getZ; rw [(Point.observe_inv ho).2.2.1]; rfl
  rw [hx'] at ex; rw [hy'] at ey; rw [hz'] at ez
  cases ex; cases ey; cases ez
  have axis : ∀ {s o : Fl} {q : Nat} {v v' : BitVec 32}, FineEnough s o q → ShowsReal q (scaled v s o) t →
      (∃ p w, Decimal p w t ∧ descaled (Fl.ofRat w) s o = .ok v') → v' = v := by
    rintro s o q v v' hf h1 ⟨p', w', d', e'⟩
    obtain ⟨w, d, e⟩ := showsReal_decimal hf h1
    rw [decimal_double d d', e'] at e
    cases e; rfl
  simp only [common, List.mem_cons, List.not_mem_nil, or_false] at hc
  rcases hc with rfl | rfl | rfl | rfl | rfl | rfl | rfl | rfl | rfl | rfl | rfl | rfl | rfl | rfl | rfl | rfl
  · exact axis hx hs hs'
  · exact axis hy hs hs'
  · exact axis hz hs hs'
  · obtain ⟨q, hq, h0⟩ := ht rfl
    simp only [Shows] at hs
    rw [hq] at hs
    obtain ⟨w, hw, hh, -⟩ := hs
    obtain ⟨p', w', d', e', -⟩ := hs'
    exact ⟨q, w, hq, hh, by rw [e', decimal_double d' hw]⟩
  · exact same_nat hs hs'
  · exact BitVec.eq_of_toInt_eq (showsInt_unique hs' hs)
  · exact Int.ofNat.inj (showsInt_unique hs' hs)
  · exact Int.ofNat.inj (showsInt_unique hs' hs)
  · exact Int.ofNat.inj (showsInt_unique hs' hs)
  · exact same_nat hs hs'
  · exact same_nat hs hs'
  · exact Int.ofNat.inj (showsInt_unique hs' hs)
  · exact Int.ofNat.inj (showsInt_unique hs' hs)
  · exact same_nat hs hs'
  · exact same_nat hs hs'
  · exact same_nat hs hs'

end

theorem rows_of {F : List Byte → Nat → Char → List Char → Prop} {parse delimiter : List Char} :
    ∀ (ps : List (List Byte)) (lines : List (List Char)) (n : Nat), lines.length = ps.length →
      (∀ (j : Nat) (p : List Byte) (line : List Char), ps[j]? = some p → lines[j]? = some line → Line (F p (n + j)) parse delimiter line) →
      ∃ rows : List (List (List Char)), lines = rows.map (fun fields => delimiter.intercalate fields ++ ['\n']) ∧
        List.Forall₂ (fun p fields => ∃ index, List.Forall₂ (F p index) parse fields) ps rows
  | [], [], _, _, _ => ⟨[], rfl, .nil⟩
  | p :: ps, line :: lines, n, hl, h => by
    obtain ⟨rows, h1, h2⟩ := rows_of ps lines (n + 1) (by simpa using hl) (by
      intro j q l hq hl
      have := h (j + 1) q l (by simpa using hq) (by simpa using hl)
      rwa [show n + (j + 1) = n + 1 + j by omega] at this)
    obtain ⟨fields, k1, k2⟩ := h 0 p line (by simp) (by simp)
    exact ⟨fields :: rows, by rw [List.map_cons, ← h1, ← k2], .cons ⟨_, k1⟩ h2⟩
  | [], _ :: _, _, hl, _ => by simp at hl
  | _ :: _, [], _, hl, _ => by simp at hl

theorem content_of {scale offset : Vec3 Fl} {parse : List Char} {d : Char} (hd : between d = true) :
    ∀ rows : List (List (List Char)), (∀ fields ∈ rows, List.Forall₂ (Fits scale offset) parse fields ∧
        (∀ t ∈ fields, t ≠ [] ∧ ∀ c ∈ t, numberChar c = true) ∧ ([d].intercalate fields).length ≤ 510) →
      Content scale offset parse (rows.map (fun fields => [d].intercalate fields ++ ['\n'])) rows
  | [], _ => .nil
  | fields :: rows, h => by
    obtain ⟨h1, h2, h3⟩ := h fields (by simp)
    have none : ∀ c : Char, between c = false → numberChar c = false → c ∉ [d].intercalate fields := by
      intro c hb hn hm
      rcases intercalate_mem fields hm with hm | ⟨t, ht, hm⟩
      · simp at hm; subst hm; rw [hd] at hb; cases hb
      · have := (h2 t ht).2 c hm
        rw [hn] at this; cases this
    refine .row ⟨_, rfl, h3, none _ (by decide) (by decide), none _ (by decide) (by decide)⟩ ⟨?_, h1⟩ (content_of hd rows (fun f hf => h f (by simp [hf])))
    have := columns_intercalate hd fields [] (fun t ht => ⟨(h2 t ht).1, fun c hc => number_stop ((h2 t ht).2 c hc)⟩) (by simp)
    simpa using this

theorem heading_chars {c : Char} {t : List Char} (h : Heading c t) : '\n' ∉ t ∧ '\x00' ∉ t := by
  have all : ∀ p ∈ headings, '\n' ∉ '"' :: p.2.toList ++ ['"'] ∧ '\x00' ∉ '"' :: p.2.toList ++ ['"'] := by decide
  unfold Heading at h
  rcases e : headings.lookup c with _ | s
  · rw [e] at h; subst h; simp
  · rw [e] at h
    subst h
    obtain ⟨l₁, l₂, hl, -⟩ := List.lookup_eq_some_iff.1 e
    exact all (c, s) (by rw [hl]; simp)

theorem heading_comment {parse : List Char} {d : Char} (hd : between d = true) {line : List Char} (h : Line Heading parse [d] line)
    {c : Char} {cs : List Char} (he : parse = c :: cs) (hc : c ∈ ['x', 'y', 'z', 'r']) :
    ∃ t, line = t ++ ['\n'] ∧ '\n' ∉ t ∧ '\x00' ∉ t ∧ Comment line := by
  obtain ⟨fields, hf, rfl⟩ := h
  have hch : ∀ t ∈ fields, '\n' ∉ t ∧ '\x00' ∉ t := by
    intro t ht
    obtain ⟨c, -, hh⟩ := forall₂_mem' hf ht
    exact heading_chars hh
  have none : ∀ c : Char, between c = false → (∀ t ∈ fields, c ∉ t) → c ∉ [d].intercalate fields := by
    intro c hb hn hm
    rcases intercalate_mem fields hm with hm | ⟨t, ht, hm⟩
    · simp at hm; subst hm; rw [hd] at hb; cases hb
    · exact hn t ht hm
  refine ⟨_, rfl, none _ (by decide) (fun t ht => (hch t ht).1), none _ (by decide) (fun t ht => (hch t ht).2), [], _, rfl, by simp, ?_⟩
  intro k u e
  subst he
  cases hf with | cons h1 h2 =>
  rename_i t ts
  have : ∃ v, t = '"' :: v := by
    simp only [List.mem_cons, List.not_mem_nil, or_false] at hc
    rcases hc with rfl | rfl | rfl | rfl <;> exact ⟨_, h1⟩
  obtain ⟨v, rfl⟩ := this
  right
  cases ts with
  | nil => simp at e; exact e.1.symm
  | cons w ws => simp at e; exact e.1.symm

theorem kept {b : Build} {h : PHeader} {px py pz pt : Nat} {p : List Byte} {index : Nat} {o : Txt2las.Opts} {fields : List (List Char)}
    (hc : ∀ c ∈ o.parse, c ∈ common) (ha : Asked o) (hs : numbers o.scale = h.scale) (ho : numbers o.offset = h.offset)
    (hx : FineEnough h.scale.x h.offset.x px) (hy : FineEnough h.scale.y h.offset.y py) (hz : FineEnough h.scale.z h.offset.z pz)
    {a a' : Attrs} (hob : observe b ⟨p, h⟩ = .ok a) (ht : 't' ∈ o.parse → TimeOk a)
    (hf : List.Forall₂ (Field b h px py pz pt p index) o.parse fields) (hr : RowIs o fields a') : Kept o.parse pt a a' := by
  obtain ⟨r1, r2⟩ := hr
  rw [hs, ho] at r1 r2
  have yes : ∀ c ∈ o.parse, Same pt c a a' := by
    intro c hcc
    obtain ⟨t, -, k1, k2⟩ := forall₂_pair hf r1 hcc
    exact field_says (hc c hcc) hx hy hz hob (by rintro rfl; exact ht hcc) k1 k2
  have nat0 : ∀ {n : Nat}, ShowsInt (n : ℤ) ['0'] → n = 0 := fun h => Int.ofNat.inj (showsInt_unique h showsInt_zero)
  have bv0 : ∀ {w : Nat} {n : BitVec w}, ShowsInt (n.toNat : ℤ) ['0'] → n = 0 := fun h => BitVec.eq_of_toNat_eq (by simpa using nat0 h)
  have no : ∀ c ∈ "ianrcupedtRGB".toList, c ∉ o.parse → Says h.scale h.offset c ['0'] a' := r2
  refine ⟨yes 'x' ha.x, yes 'y' ha.y, yes 'z' ha.z, ?_, ?_, ?_, ?_, ?_, ?_, ?_, ?_, ?_, ?_, ?_, ?_, ?_⟩ <;> split_ifs with hm
  · exact yes 'i' hm
  · exact bv0 (no 'i' (by decide) hm)
  · exact yes 'r' hm
  · exact nat0 (no 'r' (by decide) hm)
  · exact yes 'n' hm
  · exact nat0 (no 'n' (by decide) hm)
  · exact yes 'd' hm
  · exact nat0 (no 'd' (by decide) hm)
  · exact yes 'e' hm
  · exact nat0 (no 'e' (by decide) hm)
  · exact yes 'c' hm
  · exact nat0 (no 'c' (by decide) hm)
  · exact yes 'a' hm
  · have := no 'a' (by decide) hm
    exact BitVec.eq_of_toInt_eq (by simpa using showsInt_unique this showsInt_zero)
  · exact yes 'u' hm
  · exact bv0 (no 'u' (by decide) hm)
  · exact yes 'p' hm
  · exact bv0 (no 'p' (by decide) hm)
  · exact yes 't' hm
  · obtain ⟨q, w, hd, e, -⟩ := no 't' (by decide) hm
    rw [e, decimal_double hd decimal_zero]
    decide +kernel
  · exact yes 'R' hm
  · exact bv0 (no 'R' (by decide) hm)
  · exact yes 'G' hm
  · exact bv0 (no 'G' (by decide) hm)
  · exact yes 'B' hm
  · exact bv0 (no 'B' (by decide) hm)

/-- **C78.** The points of a file printed by las2txt with letters that both programs know, x, y and z among them, and read by
txt2las with the same letters and the scale and offset of the original: a file with the same points in the same order, whose attributes
are the printed ones. The decimals must be fine enough for the scales, times finite and not negative, and lines not longer
than the buffer of txt2las. -/
theorem round_trip_partial {env : Env} {today today₂ today₃ : BitVec 16 × BitVec 16} {b : Build} {log10 : Fl → Fl} (hlog : ExactLog10 log10)
    {sc : Scan} (hsc : Scans sc) {o : Las2txt.Opts} {o₂ : Txt2las.Opts} (junk : Vars) {input : List Byte} {r₀ : Reader}
    {ps : List (List Byte)} (hi : Input env today o.filters input r₀ ps) (hne : ps ≠ []) (hlen : ps.length < 2 ^ 32)
    (hletters : ∀ c ∈ o.parse, c ∈ "xyztianrcupedRGB".toList) (hasked : Asked o₂) (hparse : o₂.parse = o.parse)
    (hscale : o₂.scale = r₀.hdr.scale) (hoffset : o₂.offset = r₀.hdr.offset) {px py pz pt : Nat}
    (hd : Decimals r₀.hdr.toP.scale.x r₀.hdr.toP.scale.y r₀.hdr.toP.scale.z px py pz pt o.precision)
    (hx : FineEnough r₀.hdr.toP.scale.x r₀.hdr.toP.offset.x px) (hy : FineEnough r₀.hdr.toP.scale.y r₀.hdr.toP.offset.y py)
    (hz : FineEnough r₀.hdr.toP.scale.z r₀.hdr.toP.offset.z pz) {d : Char}
    (hdel : Delimiter o.delimiter [d]) (hbetween : between d = true)
    (hlabels : o.labels = true → ∃ c cs, o.parse = c :: cs ∧ c ∈ ['x', 'y', 'z', 'r'])
    (htime : 't' ∈ o.parse → ∀ p ∈ ps, ∀ a, observe b ⟨p, r₀.hdr.toP⟩ = .ok a → ∃ q : ℚ, Fl.ofBits a.time = .fin q ∧ 0 ≤ q)
    (hshort : ∀ text, Las2txt.main env today b log10 o input = .ok text → ∀ l ∈ text.splitOn '\n', l.length ≤ 510) :
    ∃ text file r ds, Las2txt.main env today b log10 o input = .ok text ∧ Txt2las.main env today₂ sc b junk o₂ text = .ok file ∧
      Reader.make env today₃ (IStream.onFile file) = .ok r ∧ delivers r ds ∧
      r.hdr.scale = r₀.hdr.scale ∧ r.hdr.offset = r₀.hdr.offset ∧ r.hdr.schema.fmt = formatOf o.parse ∧
      List.Forall₂ (fun p q => ∃ a a', observe b ⟨p, r₀.hdr.toP⟩ = .ok a ∧ observe b ⟨q, r.hdr.toP⟩ = .ok a' ∧ Kept o.parse pt a a') ps ds := by
  have hs : numbers o₂.scale = r₀.hdr.toP.scale := by rw [hscale]; rfl
  have hof : numbers o₂.offset = r₀.hdr.toP.offset := by rw [hoffset]; rfl
  have hcom : ∀ c ∈ o.parse, c ∈ common := hletters
  have hpne : o.parse ≠ [] := by
    intro e
    have := hasked.x
    rw [hparse, e] at this
    cases this
  obtain ⟨head, lines, e, hh, hl, hls⟩ := text_partial (b := b) hlog hi hpne hd hdel
  obtain ⟨rows, hrows, hfields⟩ := rows_of (F := fun p j => Field b r₀.hdr.toP px py pz pt p j) ps lines 0 hl (by simpa using hls)
  have hsh := hshort _ e
  have fits : ∀ fields ∈ rows, List.Forall₂ (Fits (numbers o₂.scale) (numbers o₂.offset)) o.parse fields ∧
      (∀ t ∈ fields, t ≠ [] ∧ ∀ c ∈ t, numberChar c = true) := by
    intro fields hf
    obtain ⟨p, hp, index, hff⟩ := forall₂_mem' hfields hf
    rw [hs, hof]
    have one : ∀ {c t}, c ∈ o.parse → Field b r₀.hdr.toP px py pz pt p index c t → Fits r₀.hdr.toP.scale r₀.hdr.toP.offset c t := by
      intro c t hcc hct
      exact field_fits (hcom c hcc) hx hy hz (hi.wf p hp) (by rintro rfl a ha; exact htime hcc p hp a ha) hct
    have all : List.Forall₂ (fun c t => c ∈ o.parse ∧ Field b r₀.hdr.toP px py pz pt p index c t) o.parse fields := by
      have : ∀ {l : List Char} {m : List (List Char)}, List.Forall₂ (Field b r₀.hdr.toP px py pz pt p index) l m → (∀ c ∈ l, c ∈ o.parse) →
          List.Forall₂ (fun c t => c ∈ o.parse ∧ Field b r₀.hdr.toP px py pz pt p index c t) l m := by
        intro l m hlm
        induction hlm with
        | nil => intro _; exact .nil
        | cons h1 _ ih => intro hm; exact .cons ⟨hm _ (by simp), h1⟩ (ih fun c hc => hm c (by simp [hc]))
      exact this hff fun c hc => hc
    refine ⟨all.imp fun _ _ h => one h.1 h.2, ?_⟩
    intro t ht
    obtain ⟨c, -, hcc, hct⟩ := forall₂_mem' all ht
    obtain ⟨a, -, hsays⟩ := one hcc hct
    refine ⟨says_nonempty (hcom c hcc) hsays, field_chars ?_ hct⟩
    rintro rfl
    exact absurd (hcom _ hcc) (by decide)
  have body : ∀ fields ∈ rows, '\n' ∉ [d].intercalate fields := by
    intro fields hf hm
    rcases intercalate_mem fields hm with hm | ⟨t, ht, hm⟩
    · simp at hm; subst hm; exact absurd hbetween (by decide)
    · exact absurd (((fits fields hf).2 t ht).2 _ hm) (by decide)
  have hl2 : lines = (rows.map fun fields => [d].intercalate fields).map (· ++ ['\n']) := by rw [hrows, List.map_map]; rfl
  have hrne : rows ≠ [] := by rintro rfl; cases hfields; exact hne rfl
  have hrl : rows.length < 2 ^ 32 := by rw [← hfields.length_eq]; exact hlen
  obtain ⟨ls, hcontent, hflat⟩ : ∃ ls, Content (numbers o₂.scale) (numbers o₂.offset) o₂.parse ls rows ∧ ls.flatten = head ++ lines.flatten := by
    rw [hparse]
    by_cases hb : o.labels = true
    · rw [if_pos hb] at hh
      obtain ⟨c, cs, he, hc⟩ := hlabels hb
      obtain ⟨t, ht, hn, hz, hcomm⟩ := heading_comment hbetween hh he hc
      have hsp : (head ++ lines.flatten).splitOn '\n' = (t :: rows.map fun fields => [d].intercalate fields) ++ [[]] := by
        rw [ht, hl2, ← splitOn_lines]
        · rw [List.map_cons, List.flatten_cons]
        · intro l hl
          rw [List.mem_cons] at hl
          rcases hl with rfl | hl
          · exact hn
          · obtain ⟨f, hf, rfl⟩ := List.mem_map.1 hl
            exact body f hf
      rw [hsp] at hsh
      refine ⟨head :: lines, .comment ⟨t, ht, hsh t (by simp), hn, hz⟩ hcomm ⟨c, cs, he, hc⟩ ?_, by simp⟩
      rw [hrows]
      refine content_of hbetween rows fun f hf => ⟨(fits f hf).1, (fits f hf).2, hsh _ ?_⟩
      simp only [List.mem_append, List.mem_cons, List.mem_map]
      exact .inl (.inr ⟨f, hf, rfl⟩)
    · rw [if_neg hb] at hh
      subst hh
      have hsp : ([] ++ lines.flatten).splitOn '\n' = (rows.map fun fields => [d].intercalate fields) ++ [[]] := by
        rw [List.nil_append, hl2, ← splitOn_lines]
        intro l hl
        obtain ⟨f, hf, rfl⟩ := List.mem_map.1 hl
        exact body f hf
      rw [hsp] at hsh
      refine ⟨lines, ?_, by simp⟩
      rw [hrows]
      refine content_of hbetween rows fun f hf => ⟨(fits f hf).1, (fits f hf).2, hsh _ ?_⟩
      simp only [List.mem_append, List.mem_map]
      exact .inl ⟨f, hf, rfl⟩
  obtain ⟨file, r, ds, as, m1, m2, m3, m4, m5, m6⟩ := text_to_points env today₂ today₃ hsc b junk hasked hcontent hrne hrl
  rw [hflat] at m1
  refine ⟨_, file, r, ds, e, m1, m2, m3, by rw [m6.scale, hscale], by rw [m6.offset, hoffset], by rw [m6.fmt, hparse], ?_⟩
  have j1 : List.Forall₂ (fun p a' => ∃ a, observe b ⟨p, r₀.hdr.toP⟩ = .ok a ∧ Kept o.parse pt a a') ps as := by
    have hf' : List.Forall₂ (fun p fields => p ∈ ps ∧ ∃ index, List.Forall₂ (Field b r₀.hdr.toP px py pz pt p index) o.parse fields) ps rows := by
      have : ∀ {l : List (List Byte)} {m : List (List (List Char))},
          List.Forall₂ (fun p fields => ∃ index, List.Forall₂ (Field b r₀.hdr.toP px py pz pt p index) o.parse fields) l m → (∀ c ∈ l, c ∈ ps) →
          List.Forall₂ (fun p fields => p ∈ ps ∧ ∃ index, List.Forall₂ (Field b r₀.hdr.toP px py pz pt p index) o.parse fields) l m := by
        intro l m hlm
        induction hlm with
        | nil => intro _; exact .nil
        | cons h1 _ ih => intro hm; exact .cons ⟨hm _ (by simp), h1⟩ (ih fun c hc => hm c (by simp [hc]))
      exact this hfields fun c hc => hc
    refine forall₂_join (R := fun fields p => p ∈ ps ∧ ∃ index, List.Forall₂ (Field b r₀.hdr.toP px py pz pt p index) o.parse fields)
      (S := RowIs o₂) ?_ hf'.flip m5
    rintro fields p a' ⟨hp, index, hff⟩ hrow
    have ho := observe_eq (b := b) (hi.wf p hp)
    refine ⟨_, ho, ?_⟩
    rw [← hparse] at hff ⊢
    refine kept ?_ hasked hs hof hx hy hz ho ?_ hff hrow
    · rw [hparse]; exact hcom
    · rw [hparse]; intro hm; exact htime hm p hp _ ho
  refine forall₂_join (R := fun a' p => ∃ a, observe b ⟨p, r₀.hdr.toP⟩ = .ok a ∧ Kept o.parse pt a a')
    (S := fun a' q => observe b ⟨q, r.hdr.toP⟩ = .ok a') ?_ j1.flip m4.flip
  rintro a' p q ⟨a, h1, h2⟩ h3
  exact ⟨a, a', h1, h3, h2⟩

/-! ## A case -/

def caseOpts : Las2txt.Opts := ⟨"xrtyzi".toList, some ['\\', 't'], true, some [1, 1, 2], [fun p => p.take 1 != [1]]⟩

def caseOpts₂ : Txt2las.Opts := ⟨"xrtyzi".toList, sampleHeader.scale, sampleHeader.offset, 2, some (lit "me"), none, 5, 2020⟩

def caseText : Outcome (List Char) := Las2txt.main plainEnv (1, 2000) ⟨.little, false⟩ sampleLog10 caseOpts (sampleFile Las2las.casePoints)

/-- A file of five points, four of which are printed and read back. -/
example : ∃ text file r ds, caseText = .ok text ∧ Txt2las.main plainEnv (1, 2000) plainScan ⟨.little, false⟩ sampleVars caseOpts₂ text = .ok file ∧
    Reader.make plainEnv (1, 2000) (IStream.onFile file) = .ok r ∧ delivers r ds ∧ ds.length = 4 := by
  obtain ⟨r, e, h1, h2, h3, h4, h5, h6, h7⟩ : ∃ r, Reader.make plainEnv (1, 2000) (IStream.onFile (sampleFile Las2las.casePoints)) = .ok r ∧
      (delivers ((r.setFilters [fun p => p.take 1 != [1]]).setTransforms []) (Las2las.casePoints.filter fun p => p.take 1 != [1]) ∧
      227 ≤ (sampleFile Las2las.casePoints).length ∧ r.hdr.vlrs.find? VLR.isSchema = none ∧
      formatSize r.hdr.schema.fmt ≤ r.hdr.dataRecordLength ∧ (r.hdr.scale = ⟨4607182418800017408, 4607182418800017408, 4607182418800017408⟩ ∧
      r.hdr.offset = ⟨0, 0, 0⟩) ∧ r.hdr.schema.fmt = .f1 ∧ sampleHeader.scale = r.hdr.scale ∧ sampleHeader.offset = r.hdr.offset) := Outcome.exists_of_check (by decide +kernel)
  have hlog : ExactLog10 sampleLog10 := by
    intro k h1 h2
    have : ∀ k : Fin 301, 1 ≤ k.1 → sampleLog10 (Fl.ofRat (1 / 10 ^ k.1)) = .fin (-(k.1 : ℚ)) := by decide +kernel
    exact this ⟨k, by omega⟩ h1
  have hi : Input plainEnv (1, 2000) caseOpts.filters (sampleFile Las2las.casePoints) r (Las2las.casePoints.filter fun p => p.take 1 != [1]) :=
    ⟨e, h1, h2, noSchema_none h3, h4⟩
  obtain ⟨hs, ho⟩ := h5
  have one : Fl.ofBits 4607182418800017408 = .fin 1 := by decide +kernel
  have zero : Fl.ofBits 0 = .fin 0 := by decide +kernel
  have fx : r.hdr.toP.scale.x = .fin 1 ∧ r.hdr.toP.scale.y = .fin 1 ∧ r.hdr.toP.scale.z = .fin 1 ∧ r.hdr.toP.offset.x = .fin 0 ∧
      r.hdr.toP.offset.y = .fin 0 ∧ r.hdr.toP.offset.z = .fin 0 := by
    refine ⟨?_, ?_, ?_, ?_, ?_, ?_⟩ <;> simp only [Header.toP, hs, ho, one, zero]
  obtain ⟨f1, f2, f3, f4, f5, f6⟩ := fx
  have fine : ∀ p : Nat, (1 : ℚ) / 10 ^ p ≤ 4 / 5 → FineEnough (.fin 1) (.fin 0) p := fun p hp =>
    ⟨1, 0, rfl, rfl, by decide +kernel, by decide +kernel, by decide +kernel, .inl (by simpa using hp)⟩
  obtain ⟨text, file, r', ds, k1, k2, k3, k4, -, -, -, k5⟩ := round_trip_partial (today₂ := (1, 2000)) (today₃ := (1, 2000)) (b := ⟨.little, false⟩) (px := 1) (py := 1) (pz := 2) (pt := 8) (d := '\t') hlog plainScan_scans (o₂ := caseOpts₂) sampleVars hi (by decide) (by decide)
    (by decide) ⟨by decide, by decide, by decide, by decide, by rintro t ⟨⟩; decide, by rintro t ⟨⟩⟩ rfl h7.1 h7.2 (.inr ⟨rfl, rfl⟩)
    (by rw [f1, f4]; exact fine _ (by norm_num)) (by rw [f2, f5]; exact fine _ (by norm_num)) (by rw [f3, f6]; exact fine _ (by norm_num))
    (.inr (.inl ⟨rfl, rfl⟩)) rfl (fun _ => ⟨'x', _, rfl, by decide⟩)
    (by
      intro _ p hp a ha
      rw [observe_eq (hi.wf p hp)] at ha
      cases ha
      refine ⟨0, ?_, le_refl _⟩
      show Fl.ofBits (view _ r.hdr.schema.fmt p).time = _
      rw [h6]
      have : ∀ p ∈ Las2las.casePoints.filter (fun p => p.take 1 != [1]), Fl.ofBits (view ⟨.little, false⟩ .f1 p).time = .fin 0 := by decide +kernel
      exact this p hp)
    (by
      intro text ht l hl
      obtain ⟨text', ht', hh⟩ : ∃ t, caseText = .ok t ∧ (∀ l ∈ t.splitOn '\n', l.length ≤ 510) := Outcome.exists_of_check (by decide +kernel)
      unfold caseText at ht'
      rw [ht'] at ht
      cases ht
      exact hh l hl)
  exact ⟨text, file, r', ds, k1, k2, k3, k4, by rw [← k5.length_eq]; decide⟩

end TextRoundTrip
end LibLAS
