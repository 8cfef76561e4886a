import Verif.Lemmas.Txt2lasPasses
import Verif.Props.WriteRead
import Verif.Props.MakeNew
import Verif.Lemmas.FloatBits
/-
C77: txt2las turns every line of numbers into a point.
-/
namespace LibLAS
open Spec Spec.Text Point

namespace Txt2las

/-- What the header made for the points is like. -/
structure Hdr (o : Opts) (s : Seen) (mn mx : Vec3 Fl) (h : Header) : Prop where
  storable : StorableHeader h
  plain : h.compressed = false
  returns : 5 ≤ h.byReturn.length
  custom : h.schema.isCustom = false
  vlrs : h.vlrs = []
  srs : h.srs = []
  size : h.headerSize = 227
  off : h.dataOffset = 227
  padding : h.padding = 0
  fmt : h.schema.fmt = formatOf o.parse
  recLen : h.dataRecordLength = formatSize (formatOf o.parse)
  scale : h.scale = o.scale
  offset : h.offset = o.offset
  min : h.min = ⟨mn.x.toBits, mn.y.toBits, mn.z.toBits⟩
  max : h.max = ⟨mx.x.toBits, mx.y.toBits, mx.z.toBits⟩
  hist : h.byReturn.take 5 = [s.byReturn.getD 1 0, s.byReturn.getD 2 0, s.byReturn.getD 3 0, s.byReturn.getD 4 0, s.byReturn.getD 5 0]
  system : h.getSystemId false = idOr (lit "libLAS") o.systemId
  software : h.getSoftwareId false = idOr (lit "libLAS 1.8.2") o.softwareId
  day : h.doy = o.doy
  year : h.year = o.year

theorem std_schema (f : PointFormat) (hf : f ∈ [PointFormat.f0, .f1, .f2, .f3]) :
    ((Header.new 0 0).schema.setDataFormatId f).1.fmt = f ∧ ((Header.new 0 0).schema.setDataFormatId f).1.dataRecordLength = formatSize f ∧
      ((Header.new 0 0).schema.setDataFormatId f).1.isCustom = false := by
  simp only [List.mem_cons, List.not_mem_nil, or_false] at hf
  rcases hf with rfl | rfl | rfl | rfl <;> decide +kernel

theorem cstr_short {t : List Byte} (h : (cstr t).length ≤ 30) : (padTo 32 ((cstr (cstr t)).take 32)).length = 32 ∧
    cstr (padTo 32 ((cstr (cstr t)).take 32)) = cstr t := by
  have e : (cstr (cstr t)).take 32 = cstr t := by rw [cstr_cstr, List.take_of_length_le (by omega)]
  rw [e]
  refine ⟨by simp [padTo]; omega, ?_⟩
  rw [cstr_padTo, cstr_cstr]

/-- The fields of the header that the first pass does not decide. -/
structure Base (o : Opts) (h : Header) : Prop where
  rest : ∃ sid wid vm sch, h = { Header.new o.doy o.year with systemId := sid, softwareId := wid, verMinor := vm, schema := sch } ∧
    sid.length = 32 ∧ wid.length = 32 ∧ vm.toNat ≤ 3 ∧ cstr sid = idOr (lit "libLAS") o.systemId ∧
    cstr wid = idOr (lit "libLAS 1.8.2") o.softwareId ∧ sch.fmt = formatOf o.parse ∧
    sch.dataRecordLength = formatSize (formatOf o.parse) ∧ sch.isCustom = false

theorem contains_mem {c : Char} {l : List Char} : l.contains c = decide (c ∈ l) := by
  rw [Bool.eq_iff_iff]; simp

theorem new_schema (a c : BitVec 16) : (Header.new a c).schema = (Header.new 0 0).schema := rfl

theorem format_1 (h : Header) (f : PointFormat) : (h.setDataFormatId f).1 = { h with schema := (h.schema.setDataFormatId f).1 } := rfl

theorem version_2 (h : Header) : (h.setVersionMinor 2).1 = { h with verMinor := 2 } := by
  unfold Header.setVersionMinor
  rw [if_neg (by decide)]

theorem formatFor_base {o : Opts} {h0 : Header} {sid wid : List Byte} {vm : BitVec 8}
    (e0 : h0 = { Header.new o.doy o.year with systemId := sid, softwareId := wid, verMinor := vm })
    (h1 : sid.length = 32) (h2 : wid.length = 32) (h3 : vm.toNat ≤ 3)
    (h4 : cstr sid = idOr (lit "libLAS") o.systemId) (h5 : cstr wid = idOr (lit "libLAS 1.8.2") o.softwareId) :
    Base o (formatFor o.parse h0) := by
  have hs : h0.schema = (Header.new 0 0).schema := by rw [e0]; exact new_schema o.doy o.year
  have std : ∀ f, f ∈ [PointFormat.f0, .f1, .f2, .f3] → (h0.schema.setDataFormatId f).1.fmt = f ∧
      (h0.schema.setDataFormatId f).1.dataRecordLength = formatSize f ∧ (h0.schema.setDataFormatId f).1.isCustom = false := by
    intro f hf; rw [hs]; exact std_schema f hf
  have s0 := std .f0 (by simp)
  have s1 := std .f1 (by simp)
  have s2 := std .f2 (by simp)
  have s3 := std .f3 (by simp)
  constructor
  unfold formatFor
  simp only [contains_mem, version_2, format_1]
  generalize (h0.schema.setDataFormatId .f0).1 = g0 at *
  generalize (h0.schema.setDataFormatId .f1).1 = g1 at *
  generalize (h0.schema.setDataFormatId .f2).1 = g2 at *
  generalize (h0.schema.setDataFormatId .f3).1 = g3 at *
  by_cases ht : 't' ∈ o.parse <;> by_cases hc : 'R' ∈ o.parse ∨ 'G' ∈ o.parse ∨ 'B' ∈ o.parse
  · have hcb : (decide ('R' ∈ o.parse) || decide ('G' ∈ o.parse) || decide ('B' ∈ o.parse)) = true := by simpa [or_assoc] using hc
    have hf : formatOf o.parse = .f3 := by unfold formatOf; rw [if_pos hc, if_pos ht]
    rw [hf]
    simp only [hcb, ht, decide_true, Bool.and_self, if_true]
    exact ⟨sid, wid, 2, g3, by simp only [e0], h1, h2, by decide, h4, h5, s3⟩
  · have hcb : (decide ('R' ∈ o.parse) || decide ('G' ∈ o.parse) || decide ('B' ∈ o.parse)) = false := by
      rw [← Bool.not_eq_true]; simpa [or_assoc] using hc
    have hf : formatOf o.parse = .f1 := by unfold formatOf; rw [if_neg hc, if_pos ht]
    rw [hf]
    simp only [hcb, ht, decide_true, Bool.and_false, Bool.false_eq_true, if_false, if_true]
    exact ⟨sid, wid, vm, g1, by simp only [e0], h1, h2, h3, h4, h5, s1⟩
  · have hcb : (decide ('R' ∈ o.parse) || decide ('G' ∈ o.parse) || decide ('B' ∈ o.parse)) = true := by simpa [or_assoc] using hc
    have hf : formatOf o.parse = .f2 := by unfold formatOf; rw [if_pos hc, if_neg ht]
    rw [hf]
    simp only [hcb, ht, decide_false, Bool.false_and, Bool.false_eq_true, if_false, if_true]
    exact ⟨sid, wid, 2, g2, by simp only [e0], h1, h2, by decide, h4, h5, s2⟩
  · have hcb : (decide ('R' ∈ o.parse) || decide ('G' ∈ o.parse) || decide ('B' ∈ o.parse)) = false := by
      rw [← Bool.not_eq_true]; simpa [or_assoc] using hc
    have hf : formatOf o.parse = .f0 := by unfold formatOf; rw [if_neg hc, if_neg ht]
    rw [hf]
    simp only [hcb, ht, decide_false, Bool.and_false, Bool.false_eq_true, if_false]
    exact ⟨sid, wid, vm, g0, by simp only [e0], h1, h2, h3, h4, h5, s0⟩

/-- The header of the file from what the first pass does not decide and what it does. -/
def finish (h : Header) (o : Opts) (s : Seen) (mn mx : Vec3 Fl) : Header :=
  { h with pointCount := s.count, scale := o.scale, offset := o.offset, min := ⟨mn.x.toBits, mn.y.toBits, mn.z.toBits⟩,
           max := ⟨mx.x.toBits, mx.y.toBits, mx.z.toBits⟩,
           byReturn := [s.byReturn.getD 1 0, s.byReturn.getD 2 0, s.byReturn.getD 3 0, s.byReturn.getD 4 0, s.byReturn.getD 5 0, 0, 0] }

theorem named_ok {today : BitVec 16 × BitVec 16} {o : Opts} (ho : Asked o) : ∃ u u' sid wid, copied o.systemId = .ok u ∧
    copied o.softwareId = .ok u' ∧ named today u u' = { Header.new today.1 today.2 with systemId := sid, softwareId := wid } ∧
    sid.length = 32 ∧ wid.length = 32 ∧ cstr sid = idOr (lit "libLAS") o.systemId ∧ cstr wid = idOr (lit "libLAS 1.8.2") o.softwareId := by
  have one : ∀ {t : List Byte}, (cstr t).length ≤ 30 → ∀ h : Header,
      (h.setSystemId (cstr t)).1 = { h with systemId := padTo 32 ((cstr (cstr t)).take 32) } ∧
      (h.setSoftwareId (cstr t)).1 = { h with softwareId := padTo 32 ((cstr (cstr t)).take 32) } := by
    intro t ht h
    constructor
    · unfold Header.setSystemId; rw [if_neg (by omega)]
    · unfold Header.setSoftwareId; rw [if_neg (by omega)]
  have cp : ∀ {t : List Byte}, (cstr t).length ≤ 30 → copied (some t) = .ok (some (cstr t)) := by
    intro t ht; simp only [copied]; rw [if_pos (by omega)]
  have d1 : (padTo 32 (lit "libLAS")).length = 32 ∧ cstr (padTo 32 (lit "libLAS")) = lit "libLAS" := by decide +kernel
  have d2 : (padTo 32 (lit "libLAS 1.8.2")).length = 32 ∧ cstr (padTo 32 (lit "libLAS 1.8.2")) = lit "libLAS 1.8.2" := by decide +kernel
  have h1 := ho.system
  have h2 := ho.software
  generalize o.systemId = sy at *
  generalize o.softwareId = so at *
  rcases sy with _ | t <;> rcases so with _ | t'
  · exact ⟨none, none, _, _, rfl, rfl, rfl, d1.1, d2.1, d1.2, d2.2⟩
  · obtain ⟨k1, k2⟩ := cstr_short (h2 t' rfl)
    exact ⟨none, some (cstr t'), _, _, rfl, cp (h2 t' rfl), (one (h2 t' rfl) _).2, d1.1, k1, d1.2, k2⟩
  · obtain ⟨k1, k2⟩ := cstr_short (h1 t rfl)
    exact ⟨some (cstr t), none, _, _, cp (h1 t rfl), rfl, (one (h1 t rfl) _).1, k1, d2.1, k2, d2.2⟩
  · obtain ⟨k1, k2⟩ := cstr_short (h1 t rfl)
    obtain ⟨k3, k4⟩ := cstr_short (h2 t' rfl)
    refine ⟨some (cstr t), some (cstr t'), _, _, cp (h1 t rfl), cp (h2 t' rfl), ?_, k1, k3, k2, k4⟩
    show (Header.setSoftwareId (Header.setSystemId _ _).1 _).1 = _
    rw [(one (h1 t rfl) _).1, (one (h2 t' rfl) _).2]

theorem makeHeader_ok {today : BitVec 16 × BitVec 16} {o : Opts} (ho : Asked o) {s : Seen} {mn mx : Vec3 Fl}
    (a1 : quantized s.min.x (numbers o.scale).x (numbers o.offset).x = .ok mn.x)
    (a2 : quantized s.min.y (numbers o.scale).y (numbers o.offset).y = .ok mn.y)
    (a3 : quantized s.min.z (numbers o.scale).z (numbers o.offset).z = .ok mn.z)
    (b1 : quantized s.max.x (numbers o.scale).x (numbers o.offset).x = .ok mx.x)
    (b2 : quantized s.max.y (numbers o.scale).y (numbers o.offset).y = .ok mx.y)
    (b3 : quantized s.max.z (numbers o.scale).z (numbers o.offset).z = .ok mx.z) :
    ∃ h, makeHeader today o s = .ok h ∧ Hdr o s mn mx h := by
  simp only [numbers] at a1 a2 a3 b1 b2 b3
  obtain ⟨u, u', sid, wid, e1, e3, e2, l1, l2, c1, c2⟩ := named_ok (today := today) ho
  have cv : ∃ vm : BitVec 8, dated o (named today u u') =
      { Header.new o.doy o.year with systemId := sid, softwareId := wid, verMinor := vm } ∧ vm.toNat ≤ 3 := by
    rw [e2]
    unfold dated Header.setVersionMinor
    by_cases h : o.minor.toNat > 3
    · rw [if_pos h]; exact ⟨2, rfl, by decide⟩
    · rw [if_neg h]; exact ⟨o.minor, rfl, by omega⟩
  obtain ⟨vm, e5, c3⟩ := cv
  obtain ⟨⟨sid', wid', vm', sch, e6, k1, k2, k3, k4, k5, k6, k7, k8⟩⟩ := formatFor_base (o := o) e5 l1 l2 c3 c1 c2
  refine ⟨finish { Header.new o.doy o.year with systemId := sid', softwareId := wid', verMinor := vm', schema := sch } o s mn mx, ?_, ?_⟩
  · unfold makeHeader
    simp only [a1, a2, a3, b1, b2, b3, Outcome.bind_ok, e1, e3, pure]
    rw [e6]
    simp [finish, Header.setByReturn, Header.new, List.replicate]
  · have hfmt : formatOf o.parse ∈ [PointFormat.f0, .f1, .f2, .f3] := by unfold formatOf; split <;> split <;> simp
    constructor
    · exact ⟨rfl, rfl, k1, k2, rfl, k3, by show 227 ≤ (227 : BitVec 16).toNat; decide, by show sch.fmt ∈ _; rw [k6]; exact hfmt, by intro v hv; cases hv⟩
    · rfl
    · simp [finish]
    · exact k8
    · rfl
    · rfl
    · rfl
    · rfl
    · rfl
    · exact k6
    · exact k7
    · rfl
    · rfl
    · rfl
    · rfl
    · simp [finish]
    · show cstr sid' = _; exact k4
    · show cstr wid' = _; exact k5
    · rfl
    · rfl

theorem showsInt_unique {v w : Int} {t : List Char} (h : ShowsInt v t) (k : ShowsInt w t) : v = w := by
  have minus : ∀ {ds ds' : List Char}, Plain ds → ds = '-' :: ds' → False := by
    rintro ds ds' ⟨⟨-, hd⟩, -⟩ rfl
    have := (hd '-' (by simp)).1
    exact absurd this (by decide)
  obtain ⟨d1, e1, p1, n1⟩ := h
  obtain ⟨d2, e2, p2, n2⟩ := k
  by_cases hv : v < 0 <;> by_cases hw : w < 0 <;> simp only [hv, hw, if_true, if_false, List.nil_append, List.singleton_append] at e1 e2
  · rw [e1] at e2; injection e2 with _ e2; subst e2; omega
  · exact (minus p2 (e2.symm.trans e1)).elim
  · exact (minus p1 (e1.symm.trans e2)).elim
  · rw [e1] at e2; subst e2; omega

theorem forall₂_pair {α β : Type} {R S : α → β → Prop} {l : List α} {m : List β} (h : List.Forall₂ R l m) (k : List.Forall₂ S l m)
    {a : α} (ha : a ∈ l) : ∃ c ∈ m, R a c ∧ S a c := by
  have := forall₂_both h k
  exact forall₂_mem this ha

/-- Both passes see the same numbers. -/
theorem agree {o : Opts} (ho : Asked o) {fields : List (List Char)} {i : Info} {a : Attrs} (hi : InfoOf o.parse fields i)
    (ha : RowIs o fields a) :
    descaled i.x (numbers o.scale).x (numbers o.offset).x = .ok a.rawX ∧
    descaled i.y (numbers o.scale).y (numbers o.offset).y = .ok a.rawY ∧
    descaled i.z (numbers o.scale).z (numbers o.offset).z = .ok a.rawZ ∧ i.r = a.returnNumber := by
  obtain ⟨h1, h2⟩ := ha
  refine ⟨?_, ?_, ?_, ?_⟩
  · obtain ⟨t, -, hs, ⟨p, w, hd, e⟩⟩ := forall₂_pair hi.shown h1 ho.x
    have e2 : i.x = Fl.ofRat w := hs (by decide) p w hd
    rw [e2]; exact e
  · obtain ⟨t, -, hs, ⟨p, w, hd, e⟩⟩ := forall₂_pair hi.shown h1 ho.y
    have e2 : i.y = Fl.ofRat w := hs (by decide) p w hd
    rw [e2]; exact e
  · obtain ⟨t, -, hs, ⟨p, w, hd, e⟩⟩ := forall₂_pair hi.shown h1 ho.z
    have e2 : i.z = Fl.ofRat w := hs (by decide) p w hd
    rw [e2]; exact e
  · by_cases hr : 'r' ∈ o.parse
    · obtain ⟨t, -, hs, hh⟩ := forall₂_pair hi.shown h1 hr
      have e1 : ShowsInt (i.r : ℤ) t := hs (by decide)
      have e2 : ShowsInt (a.returnNumber : ℤ) t := hh
      exact_mod_cast showsInt_unique e1 e2
    · have e1 := hi.none hr
      have e2 : ShowsInt (a.returnNumber : ℤ) ['0'] := h2 'r' (by decide) hr
      have := showsInt_unique e2 showsInt_zero
      omega

theorem forall₂_mem' {α β : Type} {R : α → β → Prop} {l : List α} {m : List β} (h : List.Forall₂ R l m) {c : β} (hc : c ∈ m) :
    ∃ a ∈ l, R a c := by
  induction h with
  | nil => simp at hc
  | cons h1 _ ih =>
    rw [List.mem_cons] at hc
    rcases hc with rfl | hc
    · exact ⟨_, by simp, h1⟩
    · obtain ⟨a, ha, hr⟩ := ih hc
      exact ⟨a, by simp [ha], hr⟩

theorem ofBits_scaled {s o : Fl} (h : OrdinaryAxis s o) (r : BitVec 32) : Fl.ofBits (scaled r s o).toBits = scaled r s o := by
  obtain ⟨p, q, rfl, rfl, h0, h1, h2⟩ := h
  have hp : |p| ≤ 2 ^ 900 := by rw [abs_of_pos h0]; exact h1
  obtain ⟨e, hb⟩ := scaled_fin r hp h2
  rw [e]
  apply Fl.ofBits_toBits
  apply Fl.rnd_rep_of
  refine lt_of_le_of_lt hb ?_
  have : (2 : ℚ) ^ (1022 : ℕ) = 2 ^ (1022 : ℤ) := (zpow_natCast 2 1022).symm
  rw [this]
  exact zpow_lt_zpow_right₀ (by norm_num) (by norm_num)

theorem axis_bounds {s o : Fl} {l : List Fl} {raws : List (BitVec 32)} (h : List.Forall₂ (fun v r => descaled v s o = .ok r) l raws)
    {mn mx : Fl} (hb : Bounds1 l mn mx) :
    ∃ lo hi, quantized mn s o = .ok lo ∧ quantized mx s o = .ok hi ∧ (OrdinaryAxis s o → BoundsAt s o raws lo.toBits hi.toBits) := by
  obtain ⟨hfin, ⟨hm1, hl⟩, ⟨hm2, hh⟩⟩ := hb
  obtain ⟨r1, hr1, e1⟩ := forall₂_mem h hm1
  obtain ⟨r2, hr2, e2⟩ := forall₂_mem h hm2
  refine ⟨_, _, quantized_exact e1, quantized_exact e2, ?_⟩
  intro ho
  have mono : ∀ {v w : Fl} {r r' : BitVec 32}, v ∈ l → w ∈ l → Fl.le v w = true → descaled v s o = .ok r → descaled w s o = .ok r' →
      r.toInt ≤ r'.toInt := by
    intro v w r r' hv hw hle a1 a2
    obtain ⟨q1, rfl⟩ := hfin v hv
    obtain ⟨q2, rfl⟩ := hfin w hw
    obtain ⟨p, q, rfl, rfl, h0, -⟩ := ho
    exact descaled_mono h0 a1 a2 (by simpa [Fl.le] using hle)
  refine ⟨⟨r1, hr1, ?_, ofBits_scaled ho _⟩, ⟨r2, hr2, ?_, ofBits_scaled ho _⟩⟩
  · intro r hr
    obtain ⟨v, hv, e⟩ := forall₂_mem' h hr
    exact mono hm1 hv (hl v hv) e1 e
  · intro r hr
    obtain ⟨v, hv, e⟩ := forall₂_mem' h hr
    exact mono hv hm2 (hh v hv) e e2

theorem forall₂_join {α β γ : Type} {R : α → β → Prop} {S : α → γ → Prop} {T : β → γ → Prop} (hT : ∀ a b c, R a b → S a c → T b c)
    {l : List α} {m : List β} {n : List γ} (h : List.Forall₂ R l m) (k : List.Forall₂ S l n) : List.Forall₂ T m n := by
  induction h generalizing n with
  | nil => cases k; exact .nil
  | cons h1 _ ih => cases k with | cons k1 k2 => exact .cons (hT _ _ _ h1 k1) (ih k2)

theorem forall₂_choose {α β γ : Type} {R : α → β → Prop} {S : β → γ → α → Prop} {l : List α} {m : List β} (h : List.Forall₂ R l m)
    (hS : ∀ a b, R a b → ∃ c, S b c a) : ∃ n : List γ, List.Forall₂ (fun b c => ∃ a, S b c a) m n ∧ List.Forall₂ (fun a c => ∃ b, S b c a) l n := by
  induction h with
  | nil => exact ⟨[], .nil, .nil⟩
  | cons h1 _ ih =>
    obtain ⟨n, k1, k2⟩ := ih
    obtain ⟨c, hc⟩ := hS _ _ h1
    exact ⟨c :: n, .cons ⟨_, hc⟩ k1, .cons ⟨_, hc⟩ k2⟩

/-- C77: a text of rows and comments becomes a file with one point for each row, in order. Every column of the row is the attribute
of its letter, attributes without a letter are zero. The header has the format the letters need, scale, offset, identifiers and date
of the options, the counts by return, and the bounds of the stored coordinates (which are exact where they are not negative). -/
theorem text_to_points (env : Env) (today today' : BitVec 16 × BitVec 16) {sc : Scan} (hsc : Scans sc) (b : Build) (junk : Vars) {o : Opts}
    (ho : Asked o) {ls : List (List Char)} {rows : List (List (List Char))}
    (hc : Content (numbers o.scale) (numbers o.offset) o.parse ls rows) (hne : rows ≠ []) (hlen : rows.length < 2 ^ 32) :
    ∃ file r ds as, main env today sc b junk o ls.flatten = .ok file ∧ Reader.make env today' (IStream.onFile file) = .ok r ∧
      delivers r ds ∧ List.Forall₂ (fun d a => observe b ⟨d, r.hdr.toP⟩ = .ok a) ds as ∧ List.Forall₂ (RowIs o) rows as ∧
      Tells o as r.hdr := by
  obtain ⟨n, hless, htail⟩ := parseLess_ok ho.x
  obtain ⟨s, infos, e1, hk, hinf⟩ := firstPass_ok hsc (b := b) ho.x ho.y ho.z ho.once htail hc []
    ⟨false, junk, 0, ⟨.fin 0, .fin 0, .fin 0⟩, ⟨.fin 0, .fin 0, .fin 0⟩, List.replicate 8 0⟩
    ⟨by simp, by simp, by simp, by simp, by simp, by intro k hk; interval_cases k <;> rfl, rfl⟩
  rw [List.nil_append] at hk
  have hine : infos ≠ [] := by
    rintro rfl
    cases hinf
    exact hne rfl
  -- a header for the second pass is known once the bounds are; the second pass does not depend on them
  have pre : ∀ h : PHeader, Suits o.parse (numbers o.scale) (numbers o.offset) h →
      ∃ ds, secondPass sc b o.parse h ls s.vars = .ok ds ∧ List.Forall₂ (Made b o.parse (numbers o.scale) (numbers o.offset) h) rows ds :=
    fun h hh => secondPass_ok hsc hh ho.x ho.y ho.z ho.once hc s.vars
  have mapped : ∀ {infos : List Info} {as : List Attrs} (f : Info → Fl) (g : Attrs → BitVec 32) (sv ov : Fl),
      (List.Forall₂ (fun i a => descaled (f i) sv ov = .ok (g a)) infos as) →
      List.Forall₂ (fun v r => descaled v sv ov = .ok r) (infos.map f) (as.map g) := by
    intro infos as f g sv ov h
    rw [List.forall₂_map_left_iff, List.forall₂_map_right_iff]
    exact h
  -- the attributes for a header
  have attrs : ∀ h : PHeader, Suits o.parse (numbers o.scale) (numbers o.offset) h →
      ∃ ds as, secondPass sc b o.parse h ls s.vars = .ok ds ∧ List.Forall₂ (fun d a => d.length = h.recLen ∧ observe b ⟨d, h⟩ = .ok a) ds as ∧
        List.Forall₂ (RowIs o) rows as ∧
        List.Forall₂ (fun i a => descaled i.x (numbers o.scale).x (numbers o.offset).x = .ok a.rawX ∧
          descaled i.y (numbers o.scale).y (numbers o.offset).y = .ok a.rawY ∧
          descaled i.z (numbers o.scale).z (numbers o.offset).z = .ok a.rawZ ∧ i.r = a.returnNumber) infos as := by
    intro h hh
    obtain ⟨ds, e2, hds⟩ := pre h hh
    obtain ⟨as, k1, k2⟩ := forall₂_choose (S := fun d a fields => d.length = h.recLen ∧ observe b ⟨d, h⟩ = .ok a ∧ RowIs o fields a)
      hds (by rintro fields d ⟨hl, a, w1, w2, w3⟩; exact ⟨a, hl, w1, w2, w3⟩)
    have hrow : List.Forall₂ (RowIs o) rows as := k2.imp (by rintro _ _ ⟨_, -, -, h⟩; exact h)
    exact ⟨ds, as, e2, k1.imp (by rintro _ _ ⟨_, h1, h2, -⟩; exact ⟨h1, h2⟩), hrow, by
      refine forall₂_join (R := InfoOf o.parse) (S := RowIs o) ?_ hinf hrow
      intro _ _ _ p q
      exact agree ho p q⟩
  obtain ⟨-, as₀, -, -, -, hag₀⟩ := attrs ⟨formatOf o.parse, formatSize (formatOf o.parse), false, false, numbers o.scale, numbers o.offset⟩
    ⟨rfl, rfl, rfl, rfl⟩
  obtain ⟨x1, x2, qx1, qx2, -⟩ := axis_bounds (mapped (·.x) (·.rawX) _ _ (hag₀.imp fun _ _ h => h.1)) (hk.x hine)
  obtain ⟨y1, y2, qy1, qy2, -⟩ := axis_bounds (mapped (·.y) (·.rawY) _ _ (hag₀.imp fun _ _ h => h.2.1)) (hk.y hine)
  obtain ⟨z1, z2, qz1, qz2, -⟩ := axis_bounds (mapped (·.z) (·.rawZ) _ _ (hag₀.imp fun _ _ h => h.2.2.1)) (hk.z hine)
  obtain ⟨h, eh, hh⟩ := makeHeader_ok (today := today) ho (mn := ⟨x1, y1, z1⟩) (mx := ⟨x2, y2, z2⟩) qx1 qy1 qz1 qx2 qy2 qz2
  clear hag₀ as₀
  obtain ⟨ds, as, e2, hobs, hrow, hag⟩ := attrs h.toP
    ⟨hh.fmt, by show h.dataRecordLength = formatSize h.schema.fmt; rw [hh.fmt, hh.recLen],
      by show numbers h.scale = _; rw [hh.scale], by show numbers h.offset = _; rw [hh.offset]⟩
  obtain ⟨x1', x2', qx1', qx2', bx⟩ := axis_bounds (mapped (·.x) (·.rawX) _ _ (hag.imp fun _ _ h => h.1)) (hk.x hine)
  obtain ⟨y1', y2', qy1', qy2', byy⟩ := axis_bounds (mapped (·.y) (·.rawY) _ _ (hag.imp fun _ _ h => h.2.1)) (hk.y hine)
  obtain ⟨z1', z2', qz1', qz2', bz⟩ := axis_bounds (mapped (·.z) (·.rawZ) _ _ (hag.imp fun _ _ h => h.2.2.1)) (hk.z hine)
  rw [qx1] at qx1'; rw [qx2] at qx2'; rw [qy1] at qy1'; rw [qy2] at qy2'; rw [qz1] at qz1'; rw [qz2] at qz2'
  injection qx1' with j1; injection qx2' with j2; injection qy1' with j3; injection qy2' with j4; injection qz1' with j5; injection qz2' with j6
  subst j1 j2 j3 j4 j5 j6
  -- the writer
  have hrec : outputRecords env h = [] := by
    simp [outputRecords, callersRecords, referenceRecords, schemaRecords, hh.vlrs, hh.srs, hh.custom]
  have hw : Writable env h := ⟨hh.storable, hh.plain, hh.returns, by rw [hh.custom]; simp⟩
  obtain ⟨w, ew, ev⟩ := (new_writer_exactly env hw (by rw [hrec, hh.size]; decide) (by rw [hh.off]; decide)
    (by rw [hh.padding]; intro _; decide)).1 (by rw [hrec, fillerBytes, hh.size, hh.off, hh.padding]; decide)
  rw [hrec] at ev
  have hsmall : h.headerSize.toNat + recordBytes w.hdr.vlrs + 4 < 2 ^ 31 := by rw [ev, hh.size]; decide
  have hns : NoSchema env w.hdr.vlrs := by rw [ev]; exact noSchema_none rfl
  have hlp : 0 < h.dataRecordLength := by rw [hh.recLen]; unfold formatOf; split <;> split <;> decide
  have hdl : ∀ d ∈ ds, d.length = h.dataRecordLength := by
    intro d hd
    obtain ⟨a, -, h1, -⟩ := forall₂_mem hobs hd
    exact h1
  have hdslen : ds.length = rows.length := by rw [hobs.length_eq, hrow.length_eq]
  obtain ⟨w', r, f1, f2, f3, f4⟩ := written_is_read env today' hh.storable ew hsmall hns hlp ds (fun d hd => (hdl d hd).ge) (by omega)
  have hrt := header_round_trip_partial env today' hh.storable ew hsmall hns hlp ds (fun d hd => (hdl d hd).ge) (by omega) f1 f2
  obtain ⟨-, -, -, t1, t2, t3, t4, -, -, t5, -, t6, t7, t8, t9, t10, t11, t12, -⟩ := hrt
  have hcut : ds.map (fun p => p.take h.dataRecordLength) = ds := by
    conv_rhs => rw [← List.map_id ds]
    apply List.map_congr_left
    intro d hd
    rw [List.take_of_length_le (hdl d hd).le]; rfl
  rw [hcut] at f4
  refine ⟨w'.close.buf, r, ds, as, ?_, f2, f4, ?_, hrow, ?_⟩
  · unfold main
    rw [hless]
    simp only [Outcome.bind_ok, lines_content hc, e1]
    rw [if_neg (by rw [(hk.started).mpr hine]; simp)]
    rw [eh, Outcome.bind_ok, ew, Outcome.bind_ok, e2, Outcome.bind_ok]
    rw [if_neg (by rintro ⟨rfl, -⟩; simp at hdslen; exact hne (List.eq_nil_of_length_eq_zero hdslen.symm)), f1]
    rfl
  · refine hobs.imp ?_
    rintro d a ⟨hl, ha⟩
    have std : h.schema.fmt.std = true := by rw [hh.fmt]; exact formatOf_std _
    have hl' : formatSize h.schema.fmt ≤ d.length := by
      rw [hl]; show _ ≤ h.dataRecordLength; rw [hh.recLen, hh.fmt]
    have w1 : (⟨d, h.toP⟩ : Point).WF := ⟨std, hl'⟩
    have w2 : (⟨d, r.hdr.toP⟩ : Point).WF := ⟨by show r.hdr.schema.fmt.std = true; rw [t5]; exact std,
      by show formatSize r.hdr.schema.fmt ≤ _; rw [t5]; exact hl'⟩
    rw [observe_eq w1] at ha
    rw [observe_eq w2, ← ha]
    show Outcome.ok (view b r.hdr.schema.fmt d) = .ok (view b h.schema.fmt d)
    rw [t5]
  · have hal : as.length = rows.length := hrow.length_eq.symm
    have cnt : ∀ k < 8, s.byReturn.getD k 0 = tally as fun a => a.returnNumber == k := by
      intro k hk8
      rw [hk.hist k hk8, tally]
      congr 1
      have : ∀ {l : List Info} {m : List Attrs}, List.Forall₂ (fun i a => i.r = a.returnNumber) l m →
          l.countP (fun i => i.r == k) = m.countP fun a => a.returnNumber == k := by
        intro l m hlm
        induction hlm with
        | nil => rfl
        | cons h1 _ ih => rw [List.countP_cons, List.countP_cons, ih, h1]
      exact this (hag.imp fun _ _ h => h.2.2.2)
    refine ⟨by rw [t5, hh.fmt], by rw [t6, hh.recLen], by rw [t9, hh.scale], by rw [t10, hh.offset], by rw [t7, hdslen, hal], ?_, ?_, ?_, ?_,
      by rw [t1, hh.system], by rw [t2, hh.software], by rw [t3, hh.day], by rw [t4, hh.year]⟩
    · rw [t8, hh.hist, cnt 1 (by decide), cnt 2 (by decide), cnt 3 (by decide), cnt 4 (by decide), cnt 5 (by decide)]
      rfl
    · intro hax
      rw [t11, t12, hh.min, hh.max]
      exact bx hax
    · intro hax
      rw [t11, t12, hh.min, hh.max]
      exact byy hax
    · intro hax
      rw [t11, t12, hh.min, hh.max]
      exact bz hax

end Txt2las
end LibLAS
