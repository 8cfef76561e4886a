import Verif.Props.Las2txt
import Verif.Lemmas.TextColumns
import Verif.Lemmas.TextCoord
/-
C73, C74: the text as a table, and reading the text back.
-/
namespace LibLAS
open Spec Spec.Text Point

namespace Las2txt

section
variable {env : Env} {today : BitVec 16 × BitVec 16} {filters : List (List Byte → Bool)} {input : List Byte} {r₀ : Reader}
  {ps : List (List Byte)}

theorem intercalate_mem {c : Char} {d : List Char} : ∀ fields : List (List Char), c ∈ d.intercalate fields → c ∈ d ∨ ∃ t ∈ fields, c ∈ t
  | [], h => by simp at h
  | [t], h => by simp at h; exact .inr ⟨t, by simp, h⟩
  | t :: u :: us, h => by
    rw [List.intercalate_cons_cons, List.mem_append, List.mem_append] at h
    rcases h with (h | h) | h
    · exact .inr ⟨t, by simp, h⟩
    · exact .inl h
    · rcases intercalate_mem (u :: us) h with h | ⟨v, hv, hc⟩
      · exact .inl h
      · exact .inr ⟨v, by simp [hv], hc⟩

theorem field_chars {b : Build} {h : PHeader} {px py pz pt : Nat} {p : List Byte} {index : Nat} {c : Char} {t : List Char} (hc : c ≠ 'C')
    (hf : Field b h px py pz pt p index c t) : ∀ k ∈ t, numberChar k = true := by
  obtain ⟨a, x, y, z, -, -, -, -, hs⟩ := hf
  exact shows_chars hc hs

theorem line_row {b : Build} {h : PHeader} {px py pz pt : Nat} {p : List Byte} {index : Nat} {d : Char}
    (hd1 : numberChar d = false) (hd2 : d ≠ '\n') {parse line : List Char} (hC : 'C' ∉ parse) (hne : parse ≠ [])
    (hl : Line (Field b h px py pz pt p index) parse [d] line) :
    ∃ body, line = body ++ ['\n'] ∧ '\n' ∉ body ∧ List.Forall₂ (Field b h px py pz pt p index) parse (body.splitOn d) := by
  obtain ⟨fields, hf, rfl⟩ := hl
  have hch : ∀ t ∈ fields, ∀ k ∈ t, numberChar k = true := by
    intro t ht
    obtain ⟨c, hc, hct⟩ : ∃ c ∈ parse, Field b h px py pz pt p index c t := by
      clear hC hne
      induction hf with
      | nil => simp at ht
      | cons h1 _ ih =>
        rcases List.mem_cons.1 ht with rfl | ht
        · exact ⟨_, by simp, h1⟩
        · obtain ⟨c, hc, h2⟩ := ih ht
          exact ⟨c, by simp [hc], h2⟩
    exact field_chars (by rintro rfl; exact hC hc) hct
  refine ⟨_, rfl, ?_, ?_⟩
  · intro hm
    rcases intercalate_mem fields hm with hm | ⟨t, ht, hm⟩
    · simp at hm; exact hd2 hm.symm
    · have := hch t ht _ hm
      exact absurd this (by decide)
  · rw [List.splitOn_intercalate]
    · exact hf
    · intro t ht hm
      have := hch t ht _ hm
      rw [hd1] at this; cases this
    · rintro rfl
      cases hf
      exact hne rfl

/-- **C73.** Without the letter `C` and the headings, with a delimiter of one character that no number contains: the text,
cut at its line ends and delimiters, is a table with one row per point and one column per letter. -/
theorem columns_partial {b : Build} {log10 : Fl → Fl} (hlog : ExactLog10 log10) {o : Opts} (hi : Input env today o.filters input r₀ ps)
    (hparse : o.parse ≠ []) (hC : 'C' ∉ o.parse) (hlab : o.labels = false) {px py pz pt : Nat}
    (hd : Decimals r₀.hdr.toP.scale.x r₀.hdr.toP.scale.y r₀.hdr.toP.scale.z px py pz pt o.precision) {d : Char}
    (hdel : Delimiter o.delimiter [d]) (hd1 : numberChar d = false) (hd2 : d ≠ '\n') :
    ∃ text, main env today b log10 o input = .ok text ∧ (table d text).length = ps.length ∧
      ∀ (j : Nat) (p : List Byte) (row : List (List Char)), ps[j]? = some p → (table d text)[j]? = some row →
        List.Forall₂ (Field b r₀.hdr.toP px py pz pt p j) o.parse row := by
  obtain ⟨head, lines, e, hh, hl, hls⟩ := text_partial (b := b) hlog hi hparse hd hdel
  rw [hlab] at hh
  simp at hh
  subst hh
  have hrow : ∀ j (hj : j < lines.length), ∃ body, lines[j] = body ++ ['\n'] ∧ '\n' ∉ body ∧
      ∀ p, ps[j]? = some p → List.Forall₂ (Field b r₀.hdr.toP px py pz pt p j) o.parse (body.splitOn d) := by
    intro j hj
    have hp : ps[j]? = some (ps[j]'(by omega)) := List.getElem?_eq_getElem _
    obtain ⟨body, h1, h2, h3⟩ := line_row hd1 hd2 hC hparse (hls j _ _ hp (List.getElem?_eq_getElem hj))
    refine ⟨body, h1, h2, fun p hp' => ?_⟩
    rw [hp] at hp'
    cases hp'
    exact h3
  choose body hb1 hb2 hb3 using hrow
  let bodies : List (List Char) := List.ofFn fun j : Fin lines.length => body j.1 j.2
  have hbl : lines = bodies.map (· ++ ['\n']) := by
    apply List.ext_getElem
    · simp [bodies]
    · intro j h1 h2
      simp [bodies, hb1 j h1]
  have hbn : ∀ l ∈ bodies, '\n' ∉ l := by
    intro l hl'
    obtain ⟨j, rfl⟩ := (List.mem_ofFn' _ _).1 hl'
    exact hb2 j.1 j.2
  have ht : table d (lines.flatten) = bodies.map fun l => l.splitOn d := by
    unfold table
    rw [hbl, splitOn_lines bodies hbn]
    simp
  refine ⟨_, e, ?_, ?_⟩
  · rw [List.nil_append, ht]; simp [bodies, hl]
  · intro j p row hp hr
    rw [List.nil_append, ht] at hr
    have hj : j < lines.length := by
      have := (List.getElem?_eq_some_iff.1 hp).1
      omega
    rw [List.getElem?_map, List.getElem?_eq_getElem (by simpa [bodies] using hj)] at hr
    simp [bodies] at hr
    subst hr
    exact hb3 j hj p hp

/-- A complete file: every record that the header counts is there, and they are delivered. -/
theorem complete_input (hr : Reader.make env today (IStream.onFile input) = .ok r₀) (hlong : 227 ≤ input.length)
    (hs : NoSchema env r₀.hdr.vlrs) (hrec : formatSize r₀.hdr.schema.fmt ≤ r₀.hdr.dataRecordLength)
    (hfull : r₀.hdr.dataOffset.toNat + r₀.hdr.pointCount.toNat * r₀.hdr.dataRecordLength ≤ input.length) :
    Input env today [] input r₀ (recordsFrom input r₀.hdr.dataOffset.toNat r₀.hdr.dataRecordLength 0 r₀.hdr.pointCount.toNat) := by
  have hopen := open_file hlong hr hs
  have hm := make_made hr
  have hpos : 0 < r₀.hdr.dataRecordLength := by
    have : 0 < formatSize r₀.hdr.schema.fmt := by cases r₀.hdr.schema.fmt <;> simp [formatSize]
    omega
  have hlt : r₀.hdr.schema.byteSize < 2 ^ 16 := by
    have e : r₀.hdr.schema.byteSize = (got 16 (slice input 105 2)).toNat := by rw [← hm.recordSize, hopen.recordSize]
    rw [e]; exact BitVec.isLt _
  have hb0 : 0 < r₀.hdr.schema.byteSize := by
    unfold Header.dataRecordLength Schema.dataRecordLength at hpos
    rcases Nat.eq_zero_or_pos r₀.hdr.schema.byteSize with h0 | h0
    · rw [h0] at hpos; simp at hpos
    · exact h0
  obtain ⟨h1, h2, -⟩ := hm.on hb0 hlt
  have hxf : ((r₀.setFilters []).setTransforms []).xf = id := by
    funext p; unfold Reader.xf Reader.setTransforms; simp
  have hd := Reader.delivers_all hfull r₀.hdr.pointCount.toNat ((r₀.setFilters []).setTransforms []) 0
    ⟨h1.buf, h1.dataOffset, h1.recordSize, h1.recordLength, h1.point, h1.size, h1.count, h1.pos⟩ ⟨h2.1, h2.2⟩ (by omega) rfl
    (fun p hp => by rw [hxf]; exact hp)
  rw [hxf, List.map_id] at hd
  exact ⟨hr, hd, hlong, hs, hrec⟩

end

/-! ## Reading the text back -/

private def nearPower (p : Nat) : Bool :=
  match Fl.ofRat (1 / 10 ^ p) with
  | .fin q => decide (|1 / 10 ^ p - q| * 2 ^ 40 ≤ |q|)
  | _ => false

theorem near_power {p : Nat} (hp : p ≤ 300) {s : ℚ} (hs : Fl.fin s = Fl.ofRat (1 / 10 ^ p)) : |1 / 10 ^ p - s| * 2 ^ 40 ≤ |s| := by
  have : ∀ k : Fin 301, nearPower k.1 = true := by decide +kernel
  have h := this ⟨p, by omega⟩
  unfold nearPower at h
  dsimp only at h
  rw [← hs] at h
  simpa using h

/-- A multiple of the last decimal that is close to the coordinate. -/
theorem near_multiple (v : BitVec 32) {s o : ℚ} {p : Nat}
    (h : 1 / 10 ^ p ≤ 4 / 5 * |s| ∨ (p ≤ 300 ∧ Fl.fin s = Fl.ofRat (1 / 10 ^ p) ∧ ∃ k : ℤ, |o - k / 10 ^ p| ≤ 3 / 10 * |s|)) :
    ∃ m : ℤ, |(m : ℚ) / 10 ^ p - (v.toInt * s + o)| ≤ 2 / 5 * |s| := by
  have h10 : (0 : ℚ) < 10 ^ p := by positivity
  rcases h with h | ⟨hp, hs, k, hk⟩
  · refine ⟨round ((v.toInt * s + o) * 10 ^ p), ?_⟩
    have hr := abs_sub_round ((v.toInt * s + o) * (10 : ℚ) ^ p)
    have e : (round ((v.toInt * s + o) * (10 : ℚ) ^ p) : ℚ) / 10 ^ p - (v.toInt * s + o) =
        -(((v.toInt * s + o) * 10 ^ p - round ((v.toInt * s + o) * (10 : ℚ) ^ p)) / 10 ^ p) := by
      field_simp; ring
    rw [e, abs_neg, abs_div, abs_of_pos h10]
    have : |(v.toInt * s + o) * 10 ^ p - round ((v.toInt * s + o) * (10 : ℚ) ^ p)| / 10 ^ p ≤ 1 / 2 / 10 ^ p :=
      div_le_div_of_nonneg_right hr h10.le
    have e2 : (1 : ℚ) / 2 / 10 ^ p = 1 / 2 * (1 / 10 ^ p) := by ring
    rw [e2] at this
    linarith
  · refine ⟨v.toInt + k, ?_⟩
    have hn := near_power hp hs
    have hv1 := BitVec.le_toInt v
    have hv2 := BitVec.toInt_lt (x := v)
    have hvq : |(v.toInt : ℚ)| ≤ 2 ^ 31 := by
      rw [abs_le]
      constructor
      · have : ((-2 ^ 31 : ℤ) : ℚ) ≤ v.toInt := by exact_mod_cast hv1
        push_cast at this; exact this
      · have : (v.toInt : ℚ) ≤ ((2 ^ 31 : ℤ) : ℚ) := by exact_mod_cast hv2.le
        push_cast at this; exact this
    have e : ((v.toInt + k : ℤ) : ℚ) / 10 ^ p - (v.toInt * s + o) = v.toInt * (1 / 10 ^ p - s) - (o - k / 10 ^ p) := by
      push_cast; ring
    rw [e]
    have h1 : |(v.toInt : ℚ) * (1 / 10 ^ p - s)| ≤ 2 ^ 31 * |1 / 10 ^ p - s| := by
      rw [abs_mul]; exact mul_le_mul_of_nonneg_right hvq (abs_nonneg _)
    have h2 := abs_sub ((v.toInt : ℚ) * (1 / 10 ^ p - s)) (o - k / 10 ^ p)
    have h3 : 0 ≤ |s| := abs_nonneg s
    generalize |1 / 10 ^ p - s| = e1 at *
    generalize |(v.toInt : ℚ) * (1 / 10 ^ p - s)| = e2 at *
    generalize |o - k / 10 ^ p| = e3 at *
    generalize |s| = e4 at *
    have : (2 : ℚ) ^ 31 * e1 ≤ 1 / 10 * e4 := by nlinarith
    linarith

theorem fine_descaled {v : BitVec 32} {scale offset : Fl} {p : Nat} (h : FineEnough scale offset p) {t : List Char} {w : ℚ}
    (ht : ShowsReal p (scaled v scale offset) t) (hw : Decimal p w t) : descaled (Fl.ofRat w) scale offset = .ok v := by
  obtain ⟨s, o, rfl, rfl, h1, h2, h3, h4⟩ := h
  obtain ⟨m, hm⟩ := near_multiple v h4
  exact text_axis v h1 h2 h3 hm ht hw

section
variable {b : Build} {h : PHeader} {px py pz pt : Nat} {p : List Byte} {index : Nat} {t : List Char} {w : ℚ} {q : Point}

/-- **C74.** The decimal printed for x, read as the nearest double and set on any point with the same header, gives that point
the raw x coordinate of the printed point and changes nothing else. -/
theorem lossless_x (hfine : FineEnough h.scale.x h.offset.x px) (hf : Field b h px py pz pt p index 'x' t) (hw : Decimal px w t)
    (hq : q.WF) (hqh : q.hdr = h) :
    ∃ a a' q', observe b ⟨p, h⟩ = .ok a ∧ observe b q = .ok a' ∧ setX b q (Fl.ofRat w) = .ok q' ∧
      observe b q' = .ok { a' with rawX := a.rawX } ∧ q'.WF ∧ q'.hdr = h := by
  obtain ⟨a, x, y, z, ho, hx, -, -, hs⟩ := hf
  have e1 := (Point.observe_inv ho).1
  have ex : getX b ⟨p, h⟩ = .ok (scaled a.rawX h.scale.x h.offset.x) := by unfold getX; rw [e1]; rfl
  rw [ex] at hx; cases hx
  have hd := fine_descaled hfine hs hw
  obtain ⟨q', a', h1, h2, h3, h4, h5, -⟩ := set_then_get b q (.rawX a.rawX) hq rfl
  refine ⟨a, a', q', ho, h2, ?_, h3, h4, h5.trans hqh⟩
  unfold setX
  rw [hqh, hd]
  exact h1

/-- **C74.** The same for y. -/
theorem lossless_y (hfine : FineEnough h.scale.y h.offset.y py) (hf : Field b h px py pz pt p index 'y' t) (hw : Decimal py w t)
    (hq : q.WF) (hqh : q.hdr = h) :
    ∃ a a' q', observe b ⟨p, h⟩ = .ok a ∧ observe b q = .ok a' ∧ setY b q (Fl.ofRat w) = .ok q' ∧
      observe b q' = .ok { a' with rawY := a.rawY } ∧ q'.WF ∧ q'.hdr = h := by
  obtain ⟨a, x, y, z, ho, -, hy, -, hs⟩ := hf
  have e1 := (Point.observe_inv ho).2.1
  have ey : getY b ⟨p, h⟩ = .ok (scaled a.rawY h.scale.y h.offset.y) := by unfold getY; rw [e1]; rfl
  rw [ey] at hy; cases hy
  have hd := fine_descaled hfine hs hw
  obtain ⟨q', a', h1, h2, h3, h4, h5, -⟩ := set_then_get b q (.rawY a.rawY) hq rfl
  refine ⟨a, a', q', ho, h2, ?_, h3, h4, h5.trans hqh⟩
  unfold setY
  rw [hqh, hd]
  exact h1

/-- **C74.** The same for z. -/
theorem lossless_z (hfine : FineEnough h.scale.z h.offset.z pz) (hf : Field b h px py pz pt p index 'z' t) (hw : Decimal pz w t)
    (hq : q.WF) (hqh : q.hdr = h) :
    ∃ a a' q', observe b ⟨p, h⟩ = .ok a ∧ observe b q = .ok a' ∧ setZ b q (Fl.ofRat w) = .ok q' ∧
      observe b q' = .ok { a' with rawZ := a.rawZ } ∧ q'.WF ∧ q'.hdr = h := by
  obtain ⟨a, x, y, z, ho, -, -, hz, hs⟩ := hf
  have e1 := (Point.observe_inv ho).2.2.1
  have ez : getZ b ⟨p, h⟩ = .ok (scaled a.rawZ h.scale.z h.offset.z) := by unfold getZ; rw [e1]; rfl
  rw [ez] at hz; cases hz
  have hd := fine_descaled hfine hs hw
  obtain ⟨q', a', h1, h2, h3, h4, h5, -⟩ := set_then_get b q (.rawZ a.rawZ) hq rfl
  refine ⟨a, a', q', ho, h2, ?_, h3, h4, h5.trans hqh⟩
  unfold setZ
  rw [hqh, hd]
  exact h1

end

section
variable {env : Env} {today : BitVec 16 × BitVec 16} {input : List Byte} {r₀ : Reader}

/-- **C74.** `las2txt --parse xyz` on a complete file, with decimals fine enough on every axis: the text has a row for each
record of the file, of three decimals, and setting a point's coordinates to the numbers of row `j` gives it the raw
coordinates of record `j`. -/
theorem lossless_partial {b : Build} {log10 : Fl → Fl} (hlog : ExactLog10 log10) {o : Opts} (hparse : o.parse = ['x', 'y', 'z'])
    (hfilt : o.filters = []) (hlab : o.labels = false) {px py pz pt : Nat}
    (hr : Reader.make env today (IStream.onFile input) = .ok r₀) (hlong : 227 ≤ input.length)
    (hs : NoSchema env r₀.hdr.vlrs) (hrec : formatSize r₀.hdr.schema.fmt ≤ r₀.hdr.dataRecordLength)
    (hfull : r₀.hdr.dataOffset.toNat + r₀.hdr.pointCount.toNat * r₀.hdr.dataRecordLength ≤ input.length)
    (hd : Decimals r₀.hdr.toP.scale.x r₀.hdr.toP.scale.y r₀.hdr.toP.scale.z px py pz pt o.precision)
    (hx : FineEnough r₀.hdr.toP.scale.x r₀.hdr.toP.offset.x px) (hy : FineEnough r₀.hdr.toP.scale.y r₀.hdr.toP.offset.y py)
    (hz : FineEnough r₀.hdr.toP.scale.z r₀.hdr.toP.offset.z pz) {d : Char}
    (hdel : Delimiter o.delimiter [d]) (hd1 : numberChar d = false) (hd2 : d ≠ '\n') :
    ∃ text, main env today b log10 o input = .ok text ∧ (table d text).length = r₀.hdr.pointCount.toNat ∧
      ∀ j < r₀.hdr.pointCount.toNat, ∃ tx ty tz wx wy wz, (table d text)[j]? = some [tx, ty, tz] ∧
        Decimal px wx tx ∧ Decimal py wy ty ∧ Decimal pz wz tz ∧
        ∀ q : Point, q.WF → q.hdr = r₀.hdr.toP → ∃ a aq q1 q2 q3,
          observe b ⟨record input r₀.hdr.dataOffset.toNat r₀.hdr.dataRecordLength j, r₀.hdr.toP⟩ = .ok a ∧ observe b q = .ok aq ∧
          setX b q (Fl.ofRat wx) = .ok q1 ∧ setY b q1 (Fl.ofRat wy) = .ok q2 ∧ setZ b q2 (Fl.ofRat wz) = .ok q3 ∧
          observe b q3 = .ok { aq with rawX := a.rawX, rawY := a.rawY, rawZ := a.rawZ } := by
  have hi := complete_input hr hlong hs hrec hfull
  rw [← hfilt] at hi
  obtain ⟨text, e, hl, hrows⟩ := columns_partial (b := b) hlog hi (by simp [hparse]) (by simp [hparse]) hlab hd hdel hd1 hd2
  have hl' : (table d text).length = r₀.hdr.pointCount.toNat := by rw [hl]; simp [recordsFrom]
  refine ⟨text, e, hl', ?_⟩
  intro j hj
  have hp : (recordsFrom input r₀.hdr.dataOffset.toNat r₀.hdr.dataRecordLength 0 r₀.hdr.pointCount.toNat)[j]? =
      some (record input r₀.hdr.dataOffset.toNat r₀.hdr.dataRecordLength j) := by
    simp [recordsFrom, hj]
  have hrow := hrows j _ _ hp (List.getElem?_eq_getElem (by omega))
  have hget := List.getElem?_eq_getElem (l := table d text) (i := j) (by omega)
  generalize (table d text)[j]'(by omega) = row at hrow hget
  rw [hparse] at hrow
  cases hrow with | cons fx hrow => cases hrow with | cons fy hrow => cases hrow with | cons fz hrow =>
  cases hrow
  rename_i tx ty tz
  have dec : ∀ {scale offset : Fl} {p : Nat} {v : BitVec 32} {t : List Char}, FineEnough scale offset p →
      ShowsReal p (scaled v scale offset) t → ∃ w, Decimal p w t := by
    rintro scale offset p v t ⟨s, o, rfl, rfl, h1, h2, h3, -⟩ ht
    obtain ⟨c, hc, -⟩ := scaled_close v h1 h2 h3
    rw [hc] at ht
    obtain ⟨w, hw, -⟩ := ht
    exact ⟨w, hw⟩
  obtain ⟨wx, hwx⟩ : ∃ w, Decimal px w tx := by
    obtain ⟨a, x, y, z, ho, h1, -, -, hs⟩ := fx
    have ex : getX b ⟨record input r₀.hdr.dataOffset.toNat r₀.hdr.dataRecordLength j, r₀.hdr.toP⟩ =
      .ok (scaled a.rawX r₀.hdr.toP.scale.x r₀.hdr.toP.offset.x) := by unfold getX; rw [(Point.observe_inv ho).1]; rfl
    rw [ex] at h1; cases h1
    exact dec hx hs
  obtain ⟨wy, hwy⟩ : ∃ w, Decimal py w ty := by
    obtain ⟨a, x, y, z, ho, -, h1, -, hs⟩ := fy
    have ex : getY b ⟨record input r₀.hdr.dataOffset.toNat r₀.hdr.dataRecordLength j, r₀.hdr.toP⟩ =
      .ok (scaled a.rawY r₀.hdr.toP.scale.y r₀.hdr.toP.offset.y) := by unfold getY; rw [(Point.observe_inv ho).2.1]; rfl
    rw [ex] at h1; cases h1
    exact dec hy hs
  obtain ⟨wz, hwz⟩ : ∃ w, Decimal pz w tz := by
    obtain ⟨a, x, y, z, ho, -, -, h1, hs⟩ := fz
    have ex : getZ b ⟨record input r₀.hdr.dataOffset.toNat r₀.hdr.dataRecordLength j, r₀.hdr.toP⟩ =
      .ok (scaled a.rawZ r₀.hdr.toP.scale.z r₀.hdr.toP.offset.z) := by unfold getZ; rw [(Point.observe_inv ho).2.2.1]; rfl
    rw [ex] at h1; cases h1
    exact dec hz hs
  refine ⟨tx, ty, tz, wx, wy, wz, hget, hwx, hwy, hwz, ?_⟩
  intro q hq hqh
  obtain ⟨a, aq, q1, ea, eq, e1, o1, w1, k1⟩ := lossless_x hx fx hwx hq hqh
  obtain ⟨a', aq1, q2, ea', eq1, e2, o2, w2, k2⟩ := lossless_y hy fy hwy w1 k1
  obtain ⟨a'', aq2, q3, ea'', eq2, e3, o3, -, -⟩ := lossless_z hz fz hwz w2 k2
  rw [ea] at ea' ea''
  cases ea'; cases ea''
  rw [o1] at eq1; cases eq1
  rw [o2] at eq2; cases eq2
  exact ⟨a, aq, q1, q2, q3, ea, eq, e1, e2, e3, o3⟩

end

/-! ## Cases, and what does not hold -/

/-- A logarithm for examples: exact at the doubles nearest to powers of ten, minus infinity at zero. -/
def sampleLog10 (x : Fl) : Fl :=
  if x = .fin 0 then .inf true
  else match (List.range 301).find? fun k => 1 ≤ k ∧ x = Fl.ofRat (1 / 10 ^ k) with
    | some k => .fin (-(k : ℚ))
    | none => .nan

/-- The hypothesis about the logarithm can be met. -/
example : ExactLog10 sampleLog10 := by
  intro k h1 h2
  have : ∀ k : Fin 301, 1 ≤ k.1 → sampleLog10 (Fl.ofRat (1 / 10 ^ k.1)) = .fin (-(k.1 : ℚ)) := by decide +kernel
  exact this ⟨k, by omega⟩ h1

/-- The hypotheses about the input are met by a file of five points, with a filter. -/
example : ∃ r, Input plainEnv (1, 2000) [fun p => p.take 1 != [1]] (sampleFile Las2las.casePoints) r
    (Las2las.casePoints.filter fun p => p.take 1 != [1]) := by
  obtain ⟨r, e, h1, h2, h3, h4⟩ : ∃ r, Reader.make plainEnv (1, 2000) (IStream.onFile (sampleFile Las2las.casePoints)) = .ok r ∧
      (delivers ((r.setFilters [fun p => p.take 1 != [1]]).setTransforms []) (Las2las.casePoints.filter fun p => p.take 1 != [1]) ∧
      227 ≤ (sampleFile Las2las.casePoints).length ∧ r.hdr.vlrs.find? VLR.isSchema = none ∧
      formatSize r.hdr.schema.fmt ≤ r.hdr.dataRecordLength) := Outcome.exists_of_check (by decide +kernel)
  exact ⟨r, e, h1, h2, noSchema_none h3, h4⟩

/-- What is printed for that file, three letters, two points of it accepted. -/
theorem text_run : main plainEnv (1, 2000) ⟨.little, false⟩ sampleLog10
    ⟨"XyM".toList, some "\\t".toList, true, some [1, 2, 0], [fun p => p.take 1 == [35] || p.take 1 == [100]]⟩
    (sampleFile Las2las.casePoints) = .ok "\"Raw X\"\t\"Y\"\t\"ID\"\n35\t-20.00\t0\n100\t50.00\t1\n".toList := by
  decide +kernel

/-- **C73, not valid:** when a scale is a whole number (here 1), the default decimals are the cast of an infinite double
to an unsigned integer. -/
theorem whole_scale_undefined : main plainEnv (1, 2000) ⟨.little, false⟩ sampleLog10 ⟨"xyz".toList, none, false, none, []⟩
    (sampleFile Las2las.casePoints) = .ub := by
  decide +kernel

/-- **C73, not valid:** an empty `--parse` reads past the end of the string. -/
theorem empty_parse_undefined {env : Env} {today : BitVec 16 × BitVec 16} {b : Build} {log10 : Fl → Fl} {o : Opts} {input : List Byte}
    {r₀ : Reader} {p : List Byte} {ps : List (List Byte)} (hi : Input env today o.filters input r₀ (p :: ps)) (hparse : o.parse = [])
    {pr : Precisions} (hpr : choosePrecisions log10 r₀.hdr.toP o.precision = .ok pr) : main env today b log10 o input = .ub := by
  unfold main
  rw [hi.opens, Outcome.bind_ok, hpr, Outcome.bind_ok]
  dsimp only
  rw [Outcome.bind_ok]
  by_cases hb : o.labels = true
  · rw [if_pos hb]
    unfold getLabels
    rw [hparse]
    rfl
  · rw [if_neg hb, Outcome.bind_ok]
    obtain ⟨h1, h2, -⟩ := hi.points
    unfold pointLoop
    have hfw := (Reader.readNext_forward ((r₀.setFilters o.filters).setTransforms [])).1
    have hp := hi.wf p List.mem_cons_self
    have hcol := (Point.observe_inv (observe_eq (b := b) hp)).2.2.2.2.2.2.2.2.2.2.2.2.2
    rcases hx : ((r₀.setFilters o.filters).setTransforms []).readNext with ⟨r', out⟩
    rw [hx] at h1 h2 hfw
    dsimp only at h1 h2 hfw
    subst h1
    dsimp only
    have hh : r'.hdr.toP = r₀.hdr.toP := by rw [hfw.hdr]; rfl
    unfold getPointString
    rw [h2, hh, hcol, hparse]
    rfl

/-- **C73, not valid:** the name of class 0 contains a comma, the default delimiter: two letters, three columns. -/
theorem class_name_extra_column : ∃ text, main plainEnv (1, 2000) ⟨.little, false⟩ sampleLog10
    ⟨"CX".toList, none, false, some [0, 0, 0], [fun p => p.take 1 == [35]]⟩ (sampleFile Las2las.casePoints) = .ok text ∧
    table ',' text = [["Created".toList, " never classified".toList, "35".toList]] :=
  Outcome.exists_of_check (by decide +kernel)

/-- Scale 0.01 and two decimals are fine enough without an offset, or with one of 500000; scale 1/4 and two decimals with
any ordinary offset. -/
example : FineEnough (Fl.ofRat (1 / 10 ^ 2)) (.fin 0) 2 ∧ FineEnough (Fl.ofRat (1 / 10 ^ 2)) (.fin 500000) 2 ∧
    FineEnough (.fin (1 / 4)) (.fin (1 / 3)) 2 := by
  refine ⟨⟨5764607523034235 / 2 ^ 59, 0, by decide +kernel, rfl, by decide +kernel, by decide +kernel, by decide +kernel,
      .inr ⟨by decide, rfl, 0, by decide +kernel⟩⟩,
    ⟨5764607523034235 / 2 ^ 59, 500000, by decide +kernel, rfl, by decide +kernel, by decide +kernel, by decide +kernel,
      .inr ⟨by decide, rfl, 50000000, by decide +kernel⟩⟩,
    ⟨1 / 4, 1 / 3, rfl, rfl, by decide +kernel, by decide +kernel, by decide +kernel, .inl (by decide +kernel)⟩⟩

/-- **C74, not valid** without the condition on the offset: with scale 0.01, offset 0.005 and two decimals, the points with
raw coordinates 0 and 1 are printed as 0.01 and 0.01. -/
theorem half_unit_offset_lossy :
    fixedText 2 (scaled 0 (Fl.ofRat (1 / 100)) (Fl.ofRat (5 / 1000))) = "0.01".toList ∧
    fixedText 2 (scaled 1 (Fl.ofRat (1 / 100)) (Fl.ofRat (5 / 1000))) = "0.01".toList := by
  decide +kernel

end Las2txt
end LibLAS
