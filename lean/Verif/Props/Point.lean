import Verif.Lemmas.Point
/-
C02 (point fields are independent), C03 (packed scan flags), C04 (time and colour per format), C06 (validity).
-/
set_option linter.unusedSimpArgs false
namespace LibLAS
open Spec

namespace Point

private theorem splice_tail {d bs : List Byte} {q m : Nat} (h : q + bs.length ≤ d.length)
    (hm : q + bs.length ≤ m) (i : Nat) (hi : m ≤ i) : (splice d q bs)[i]? = d[i]? := by
  rw [splice_getElem? h]
  have h1 : ¬ i < q := by omega
  have h2 : ¬ i < q + bs.length := by omega
  simp [h1, h2]

/-- What `exec` guarantees, as one statement about bytes. -/
private theorem exec_view {b : Build} {p : Point} {op : SetOp} (hwf : p.WF)
    (hop : supported p.hdr.fmt op = true) :
    ∃ d', exec b p op = .ok { p with data := d' } ∧ d'.length = p.data.length ∧
      view b p.hdr.fmt d' = apply (view b p.hdr.fmt p.data) op ∧
      ∀ i, formatSize p.hdr.fmt ≤ i → d'[i]? = p.data[i]? := by
  obtain ⟨hs, hl⟩ := hwf
  have h20 : 20 ≤ formatSize p.hdr.fmt := by cases p.hdr.fmt <;> simp [formatSize]
  have intCase : ∀ (pos n : Nat) (s : Bool) (v : BitVec (8 * n)), pos + n ≤ formatSize p.hdr.fmt →
      setInt b p pos n s v = .ok { p with data := splice p.data pos (intToBits b.host s n v) } ∧
      (splice p.data pos (intToBits b.host s n v)).length = p.data.length ∧
      ∀ i, formatSize p.hdr.fmt ≤ i → (splice p.data pos (intToBits b.host s n v))[i]? = p.data[i]? := by
    intro pos n s v hp
    have hlen := intToBits_length b.host s n v
    exact ⟨setInt_eq (by omega), splice_length (by omega), splice_tail (by omega) (by omega)⟩
  have byteCase : ∀ (pos : Nat) (v : Byte), pos + 1 ≤ formatSize p.hdr.fmt →
      setByte p pos v = .ok { p with data := splice p.data pos [v] } ∧
      (splice p.data pos [v]).length = p.data.length ∧
      ∀ i, formatSize p.hdr.fmt ≤ i → (splice p.data pos [v])[i]? = p.data[i]? := by
    intro pos v hp
    exact ⟨setByte_eq (by omega), splice_length (by simp; omega), splice_tail (by simp; omega) (by simp; omega)⟩
  have ftab := flags_tab (rdByte p.data 14)
  have colorCase : ∀ (pos : Nat) (c : Color), 20 ≤ pos → pos + 6 ≤ formatSize p.hdr.fmt →
      ∃ d', (do
        let q ← setInt b p pos 2 false c.getRed
        let q ← setInt b q (pos + 2) 2 false c.getGreen
        setInt b q (pos + 4) 2 false c.getBlue) = .ok { p with data := d' } ∧
      d'.length = p.data.length ∧
      (rdInt b d' pos 2 false = c.c0 ∧ rdInt b d' (pos + 2) 2 false = c.c1 ∧ rdInt b d' (pos + 4) 2 false = c.c2) ∧
      (∀ q n s, q + n ≤ pos → rdInt b d' q n s = rdInt b p.data q n s) ∧
      (∀ q, q < pos → rdByte d' q = rdByte p.data q) ∧
      (∀ i, formatSize p.hdr.fmt ≤ i → d'[i]? = p.data[i]?) := by
    intro pos c hpos hsz
    have l0 : (intToBits b.host false 2 c.c0).length = 2 := intToBits_length _ _ 2 _
    have l1 : (intToBits b.host false 2 c.c1).length = 2 := intToBits_length _ _ 2 _
    have l2 : (intToBits b.host false 2 c.c2).length = 2 := intToBits_length _ _ 2 _
    have s0 : (splice p.data pos (intToBits b.host false 2 c.c0)).length = p.data.length :=
      splice_length (by omega)
    have s1 : (splice (splice p.data pos (intToBits b.host false 2 c.c0)) (pos + 2)
        (intToBits b.host false 2 c.c1)).length = p.data.length := by
      rw [splice_length (by omega), s0]
    refine ⟨splice (splice (splice p.data pos (intToBits b.host false 2 c.c0)) (pos + 2)
      (intToBits b.host false 2 c.c1)) (pos + 4) (intToBits b.host false 2 c.c2), ?_, ?_, ⟨?_, ?_, ?_⟩, ?_, ?_, ?_⟩
    · simp only [Color.getRed, Color.getGreen, Color.getBlue]
      rw [setInt_eq (by omega)]
      simp only [Outcome.bind_ok]
      rw [setInt_eq (by simp only; omega)]
      simp only [Outcome.bind_ok]
      rw [setInt_eq (by simp only; omega)]
    · rw [splice_length (by omega), s1]
    · rw [rdInt_splice_other (by omega) (by omega), rdInt_splice_other (by omega) (by omega),
        rdInt_splice_same (by omega)]
    · rw [rdInt_splice_other (by omega) (by omega), rdInt_splice_same (by omega)]
    · rw [rdInt_splice_same (by omega)]
    · intro q n s hq
      rw [rdInt_splice_other (by omega) (by omega), rdInt_splice_other (by omega) (by omega),
        rdInt_splice_other (by omega) (by omega)]
    · intro q hq
      rw [rdByte_splice_other (by omega) (by omega), rdByte_splice_other (by omega) (by omega),
        rdByte_splice_other (by omega) (by omega)]
    · intro i hi
      rw [splice_tail (m := formatSize p.hdr.fmt) (by omega) (by omega) i hi,
        splice_tail (m := formatSize p.hdr.fmt) (by omega) (by omega) i hi,
        splice_tail (m := formatSize p.hdr.fmt) (by omega) (by omega) i hi]
  cases op with
  | rawX v =>
    obtain ⟨h1, h2, h3⟩ := intCase 0 4 true v (by omega)
    refine ⟨_, h1, h2, ?_, h3⟩
    have hlen := intToBits_length b.host true 4 v
    simp (disch := omega) only [view, apply, rdInt_splice_same, rdInt_splice_other, rdByte_splice_other]
    cases hf : p.hdr.fmt <;> simp (disch := omega) [hf, rdInt_splice_other]
  | rawY v =>
    obtain ⟨h1, h2, h3⟩ := intCase 4 4 true v (by omega)
    refine ⟨_, h1, h2, ?_, h3⟩
    have hlen := intToBits_length b.host true 4 v
    simp (disch := omega) only [view, apply, rdInt_splice_same, rdInt_splice_other, rdByte_splice_other]
    cases hf : p.hdr.fmt <;> simp (disch := omega) [hf, rdInt_splice_other]
  | rawZ v =>
    obtain ⟨h1, h2, h3⟩ := intCase 8 4 true v (by omega)
    refine ⟨_, h1, h2, ?_, h3⟩
    have hlen := intToBits_length b.host true 4 v
    simp (disch := omega) only [view, apply, rdInt_splice_same, rdInt_splice_other, rdByte_splice_other]
    cases hf : p.hdr.fmt <;> simp (disch := omega) [hf, rdInt_splice_other]
  | intensity v =>
    obtain ⟨h1, h2, h3⟩ := intCase 12 2 false v (by omega)
    refine ⟨_, h1, h2, ?_, h3⟩
    have hlen := intToBits_length b.host false 2 v
    simp (disch := omega) only [view, apply, rdInt_splice_same, rdInt_splice_other, rdByte_splice_other]
    cases hf : p.hdr.fmt <;> simp (disch := omega) [hf, rdInt_splice_other]
  | sourceId v =>
    obtain ⟨h1, h2, h3⟩ := intCase 18 2 false v (by omega)
    refine ⟨_, h1, h2, ?_, h3⟩
    have hlen := intToBits_length b.host false 2 v
    simp (disch := omega) only [view, apply, rdInt_splice_same, rdInt_splice_other, rdByte_splice_other]
    cases hf : p.hdr.fmt <;> simp (disch := omega) [hf, rdInt_splice_other]
  | returnNumber v =>
    obtain ⟨h1, h2, h3⟩ := byteCase 14 ((rdByte p.data 14 &&& ~~~0x07#8) ||| (0x07#8 &&& (v.setWidth 8 <<< 0))) (by omega)
    refine ⟨_, ?_, h2, ?_, h3⟩
    · simp only [exec, setReturnNumber, setFlagBits]; rw [getByte_eq (by omega)]; exact h1
    · obtain ⟨e1, e2, e3, e4⟩ := (ftab v).1
      have hb := rdByte_splice_same (d := p.data) (pos := 14) (v := ((rdByte p.data 14 &&& ~~~0x07#8) ||| (0x07#8 &&& (v.setWidth 8 <<< 0)))) (by omega)
      simp (disch := simp only [List.length_singleton]; omega) only [view, apply, hb, e1, e2, e3, e4, rdInt_splice_other, rdByte_splice_other]
      cases hf : p.hdr.fmt <;> simp (disch := simp only [List.length_singleton]; omega) [hf, rdInt_splice_other]
  | numberOfReturns v =>
    obtain ⟨h1, h2, h3⟩ := byteCase 14 ((rdByte p.data 14 &&& ~~~0x38#8) ||| (0x38#8 &&& (v.setWidth 8 <<< 3))) (by omega)
    refine ⟨_, ?_, h2, ?_, h3⟩
    · simp only [exec, setNumberOfReturns, setFlagBits]; rw [getByte_eq (by omega)]; exact h1
    · obtain ⟨e1, e2, e3, e4⟩ := (ftab v).2.1
      have hb := rdByte_splice_same (d := p.data) (pos := 14) (v := ((rdByte p.data 14 &&& ~~~0x38#8) ||| (0x38#8 &&& (v.setWidth 8 <<< 3)))) (by omega)
      simp (disch := simp only [List.length_singleton]; omega) only [view, apply, hb, e1, e2, e3, e4, rdInt_splice_other, rdByte_splice_other]
      cases hf : p.hdr.fmt <;> simp (disch := simp only [List.length_singleton]; omega) [hf, rdInt_splice_other]
  | scanDirection v =>
    obtain ⟨h1, h2, h3⟩ := byteCase 14 ((rdByte p.data 14 &&& ~~~0x40#8) ||| (0x40#8 &&& (v.setWidth 8 <<< 6))) (by omega)
    refine ⟨_, ?_, h2, ?_, h3⟩
    · simp only [exec, setScanDirection, setFlagBits]; rw [getByte_eq (by omega)]; exact h1
    · obtain ⟨e1, e2, e3, e4⟩ := (ftab v).2.2.1
      have hb := rdByte_splice_same (d := p.data) (pos := 14) (v := ((rdByte p.data 14 &&& ~~~0x40#8) ||| (0x40#8 &&& (v.setWidth 8 <<< 6)))) (by omega)
      simp (disch := simp only [List.length_singleton]; omega) only [view, apply, hb, e1, e2, e3, e4, rdInt_splice_other, rdByte_splice_other]
      cases hf : p.hdr.fmt <;> simp (disch := simp only [List.length_singleton]; omega) [hf, rdInt_splice_other]
  | edge v =>
    obtain ⟨h1, h2, h3⟩ := byteCase 14 ((rdByte p.data 14 &&& ~~~0x80#8) ||| (0x80#8 &&& (v.setWidth 8 <<< 7))) (by omega)
    refine ⟨_, ?_, h2, ?_, h3⟩
    · simp only [exec, setFlightLineEdge, setFlagBits]; rw [getByte_eq (by omega)]; exact h1
    · obtain ⟨e1, e2, e3, e4⟩ := (ftab v).2.2.2
      have hb := rdByte_splice_same (d := p.data) (pos := 14) (v := ((rdByte p.data 14 &&& ~~~0x80#8) ||| (0x80#8 &&& (v.setWidth 8 <<< 7)))) (by omega)
      simp (disch := simp only [List.length_singleton]; omega) only [view, apply, hb, e1, e2, e3, e4, rdInt_splice_other, rdByte_splice_other]
      cases hf : p.hdr.fmt <;> simp (disch := simp only [List.length_singleton]; omega) [hf, rdInt_splice_other]
  | classification c =>
    obtain ⟨h1, h2, h3⟩ := byteCase 15 c.flags (by omega)
    refine ⟨_, h1, h2, ?_, h3⟩
    have hb := rdByte_splice_same (d := p.data) (pos := 15) (v := c.flags) (by omega)
    simp (disch := simp only [List.length_singleton]; omega) only [view, apply, hb, rdInt_splice_other, rdByte_splice_other]
    cases hf : p.hdr.fmt <;> simp (disch := simp only [List.length_singleton]; omega) [hf, rdInt_splice_other]
  | scanAngle v =>
    obtain ⟨h1, h2, h3⟩ := byteCase 16 v (by omega)
    refine ⟨_, h1, h2, ?_, h3⟩
    have hb := rdByte_splice_same (d := p.data) (pos := 16) (v := v) (by omega)
    simp (disch := simp only [List.length_singleton]; omega) only [view, apply, hb, rdInt_splice_other, rdByte_splice_other]
    cases hf : p.hdr.fmt <;> simp (disch := simp only [List.length_singleton]; omega) [hf, rdInt_splice_other]
  | userData v =>
    obtain ⟨h1, h2, h3⟩ := byteCase 17 v (by omega)
    refine ⟨_, h1, h2, ?_, h3⟩
    have hb := rdByte_splice_same (d := p.data) (pos := 17) (v := v) (by omega)
    simp (disch := simp only [List.length_singleton]; omega) only [view, apply, hb, rdInt_splice_other, rdByte_splice_other]
    cases hf : p.hdr.fmt <;> simp (disch := simp only [List.length_singleton]; omega) [hf, rdInt_splice_other]
  | time v =>
    have hlen := intToBits_length b.host false 8 v
    cases hf : p.hdr.fmt <;> simp [supported, hasTime, hf] at hop
    · have hsz : formatSize p.hdr.fmt = 28 := by simp [hf, formatSize]
      obtain ⟨h1, h2, h3⟩ := intCase 20 8 false v (by omega)
      rw [hf] at h3
      refine ⟨_, by simp only [exec, setTime, hf]; simpa using h1, h2, ?_, h3⟩
      simp (disch := omega) only [view, apply, rdInt_splice_same, rdInt_splice_other, rdByte_splice_other]
      simp
    · have hsz : formatSize p.hdr.fmt = 34 := by simp [hf, formatSize]
      obtain ⟨h1, h2, h3⟩ := intCase 20 8 false v (by omega)
      rw [hf] at h3
      refine ⟨_, by simp only [exec, setTime, hf]; simpa using h1, h2, ?_, h3⟩
      simp (disch := omega) only [view, apply, rdInt_splice_same, rdInt_splice_other, rdByte_splice_other]
      simp (disch := omega) [rdInt_splice_other]
  | color c =>
    have hne : ¬ p.data.length = 0 := by omega
    have hne' : p.data ≠ [] := by intro h; rw [h] at hne; simp at hne
    cases hf : p.hdr.fmt <;> simp [supported, hasColor, hf] at hop
    · have hsz : formatSize p.hdr.fmt = 26 := by simp [hf, formatSize]
      obtain ⟨d', h1, h2, ⟨c0, c1, c2⟩, h3, h4, h5⟩ := colorCase 20 c (by omega) (by omega)
      rw [hf] at h5
      refine ⟨d', by simp only [exec, setColor, hf]; simpa [hne'] using h1, h2, ?_, h5⟩
      simp at c1 c2
      simp (disch := omega) [view, apply, h3, h4, c0, c1, c2]
    · have hsz : formatSize p.hdr.fmt = 34 := by simp [hf, formatSize]
      obtain ⟨d', h1, h2, ⟨c0, c1, c2⟩, h3, h4, h5⟩ := colorCase 28 c (by omega) (by omega)
      rw [hf] at h5
      refine ⟨d', by simp only [exec, setColor, hf]; simpa [hne'] using h1, h2, ?_, h5⟩
      simp at c1 c2
      simp (disch := omega) [view, apply, h3, h4, c0, c1, c2]

/-- C02, C03, C04: a setter the format supports succeeds on every build and host, and the getters afterwards show
exactly the record update: the attribute set reads back (packed attributes modulo their width), every other
attribute reads as before. The record keeps its length, its header and all bytes after the standard attributes
(user dimensions). -/
theorem set_then_get (b : Build) (p : Point) (op : SetOp) (hwf : p.WF) (hop : supported p.hdr.fmt op = true) :
    ∃ p' a, exec b p op = .ok p' ∧ observe b p = .ok a ∧ observe b p' = .ok (apply a op) ∧
      p'.WF ∧ p'.hdr = p.hdr ∧ p'.data.length = p.data.length ∧
      ∀ i, formatSize p.hdr.fmt ≤ i → p'.data[i]? = p.data[i]? := by
  obtain ⟨d', h1, h2, h3, h4⟩ := exec_view (b := b) hwf hop
  have hwf' : ({ p with data := d' } : Point).WF := ⟨hwf.1, by simpa [h2] using hwf.2⟩
  exact ⟨_, _, h1, observe_eq hwf, by rw [observe_eq hwf']; simp only [h3], hwf', rfl, h2, h4⟩

/-- A format 3 header with 2 extra bytes per record. -/
def exHeader : PHeader := ⟨.f3, 36, true, true, ⟨.fin (1/100), .fin (1/100), .fin (1/100)⟩, ⟨.fin 0, .fin 0, .fin 0⟩⟩

example : (Point.new exHeader).WF := by simp [WF, Point.new, exHeader, PointFormat.std, formatSize]
example : supported .f3 (.color ⟨1, 2, 3⟩) = true ∧ supported .f1 (.time 5) = true := by decide

/-- C03: an in-range packed attribute reads back exactly. -/
theorem packed_flags_exact (b : Build) (p : Point) (hwf : p.WF) (v : BitVec 16) :
    (v.toNat ≤ 7 → ∃ p' a, exec b p (.returnNumber v) = .ok p' ∧ observe b p = .ok a ∧
      observe b p' = .ok { a with returnNumber := v.toNat }) ∧
    (v.toNat ≤ 7 → ∃ p' a, exec b p (.numberOfReturns v) = .ok p' ∧ observe b p = .ok a ∧
      observe b p' = .ok { a with numberOfReturns := v.toNat }) ∧
    (v.toNat ≤ 1 → ∃ p' a, exec b p (.scanDirection v) = .ok p' ∧ observe b p = .ok a ∧
      observe b p' = .ok { a with scanDirection := v.toNat }) ∧
    (v.toNat ≤ 1 → ∃ p' a, exec b p (.edge v) = .ok p' ∧ observe b p = .ok a ∧
      observe b p' = .ok { a with edge := v.toNat }) := by
  refine ⟨fun h => ?_, fun h => ?_, fun h => ?_, fun h => ?_⟩
  · obtain ⟨p', a, h1, h2, h3, _⟩ := set_then_get b p (.returnNumber v) hwf rfl
    exact ⟨p', a, h1, h2, by rw [h3, apply, Nat.mod_eq_of_lt (by omega)]⟩
  · obtain ⟨p', a, h1, h2, h3, _⟩ := set_then_get b p (.numberOfReturns v) hwf rfl
    exact ⟨p', a, h1, h2, by rw [h3, apply, Nat.mod_eq_of_lt (by omega)]⟩
  · obtain ⟨p', a, h1, h2, h3, _⟩ := set_then_get b p (.scanDirection v) hwf rfl
    exact ⟨p', a, h1, h2, by rw [h3, apply, Nat.mod_eq_of_lt (by omega)]⟩
  · obtain ⟨p', a, h1, h2, h3, _⟩ := set_then_get b p (.edge v) hwf rfl
    exact ⟨p', a, h1, h2, by rw [h3, apply, Nat.mod_eq_of_lt (by omega)]⟩

/-- C04: on a format without the attribute the setter throws `invalid_format` (the outcome carries no new point: the
object is as before) and the getters give 0 and black. -/
theorem unsupported_attribute (b : Build) (p : Point) (hwf : p.WF) :
    (hasTime p.hdr.fmt = false →
      (∀ t, exec b p (.time t) = .throw .invalidFormat) ∧ ∀ a, observe b p = .ok a → a.time = 0) ∧
    (hasColor p.hdr.fmt = false →
      (∀ c, exec b p (.color c) = .throw .invalidFormat) ∧ ∀ a, observe b p = .ok a → a.color = ⟨0, 0, 0⟩) := by
  have ho := observe_eq (b := b) hwf
  obtain ⟨hs, _⟩ := hwf
  constructor
  · intro h
    refine ⟨fun t => ?_, fun a ha => ?_⟩
    · cases hf : p.hdr.fmt <;> simp [hf, hasTime, PointFormat.std] at h hs <;> simp [exec, setTime, hf]
    · rw [ho] at ha; cases ha
      cases hf : p.hdr.fmt <;> simp [hf, hasTime, PointFormat.std] at h hs <;> simp [view]
  · intro h
    refine ⟨fun t => ?_, fun a ha => ?_⟩
    · cases hf : p.hdr.fmt <;> simp [hf, hasColor, PointFormat.std] at h hs <;> simp [exec, setColor, hf]
    · rw [ho] at ha; cases ha
      cases hf : p.hdr.fmt <;> simp [hf, hasColor, PointFormat.std] at h hs <;> simp [view, Color.black]

example : hasTime .f2 = false ∧ hasColor .f1 = false := by decide

/-- One call of a history: a throwing setter leaves the point as it was. -/
def step (b : Build) (p : Point) (op : SetOp) : Point :=
  match exec b p op with
  | .ok p' => p'
  | _ => p

/-- C02, C03, C04 over every history of setter calls: the attributes read at the end are those of the plain record
updated call by call, unsupported calls having no effect. -/
theorem setter_history (b : Build) (p : Point) (hwf : p.WF) (ops : List SetOp) :
    ∃ a, observe b p = .ok a ∧
      observe b (ops.foldl (step b) p) = .ok (ops.foldl (applyIf p.hdr.fmt) a) := by
  refine ⟨_, observe_eq hwf, ?_⟩
  have key : ∀ (ops : List SetOp) (p : Point) (a : Attrs), p.WF → observe b p = .ok a →
      observe b (ops.foldl (step b) p) = .ok (ops.foldl (applyIf p.hdr.fmt) a) := by
    intro ops
    induction ops with
    | nil => intro p a _ h; exact h
    | cons op ops ih =>
      intro p a hw ha
      simp only [List.foldl_cons]
      by_cases hop : supported p.hdr.fmt op = true
      · obtain ⟨p', a', h1, h2, h3, h4, h5, _⟩ := set_then_get b p op hw hop
        rw [ha] at h2; cases h2
        have hst : step b p op = p' := by simp [step, h1]
        rw [hst]
        have := ih p' (apply a op) h4 h3
        rw [h5] at this
        simpa [applyIf, hop] using this
      · have hst : step b p op = p := by
          have hu := unsupported_attribute b p hw
          cases op <;> simp [supported] at hop
          · simp [step, (hu.1 hop).1]
          · simp [step, (hu.2 hop).1]
        rw [hst]
        have := ih p a hw ha
        simpa [applyIf, hop] using this
  exact key ops p _ hwf (observe_eq hwf)

/-- C01/C02: on a little-endian host the getters read the LAS 1.2 record layout, on either build option. -/
theorem observe_is_las_layout (aware : Bool) (p : Point) (hwf : p.WF) :
    observe ⟨.little, aware⟩ p = .ok (decodeRecord p.hdr.fmt p.data) := by
  rw [observe_eq hwf]
  obtain ⟨hs, hl⟩ := hwf
  have h20 : 20 ≤ p.data.length := by cases hf : p.hdr.fmt <;> simp_all [formatSize, PointFormat.std] <;> omega
  have hint : ∀ pos n s, pos + n ≤ p.data.length → rdInt ⟨.little, aware⟩ p.data pos n s = fieldAt p.data pos n := by
    intro pos n s h
    have hlen : ((p.data.drop pos).take n).length = n := by simp; omega
    have := loadForward_eq (8 * n) s ((p.data.drop pos).take n) (by rw [hlen])
    unfold rdInt fieldAt
    simp only [bitsToInt, endianLoad, if_true, this, memValue_little]
    split <;> rfl
  have hbyte : ∀ pos, pos < p.data.length → rdByte p.data pos = fieldAt p.data pos 1 := by
    intro pos h
    have : (p.data.drop pos).take 1 = [p.data[pos]] := by
      rw [List.drop_eq_getElem_cons h]; rfl
    unfold rdByte fieldAt
    rw [this, List.getElem?_eq_getElem h]
    simp [leNat]
  have hb14 := hbyte 14 (by omega)
  have hflag : ∀ f : Byte, ((f &&& 0x07#8).setWidth 16).toNat = f.toNat % 8 ∧
      (((f >>> 3) &&& 0x07#8).setWidth 16).toNat = f.toNat / 8 % 8 ∧
      (((f >>> 6) &&& 0x01#8).setWidth 16).toNat = f.toNat / 64 % 2 ∧
      (((f >>> 7) &&& 0x01#8).setWidth 16).toNat = f.toNat / 128 := by
    have : ∀ f : Fin 256, let f : Byte := BitVec.ofFin f
      ((f &&& 0x07#8).setWidth 16).toNat = f.toNat % 8 ∧
      (((f >>> 3) &&& 0x07#8).setWidth 16).toNat = f.toNat / 8 % 8 ∧
      (((f >>> 6) &&& 0x01#8).setWidth 16).toNat = f.toNat / 64 % 2 ∧
      (((f >>> 7) &&& 0x01#8).setWidth 16).toNat = f.toNat / 128 := by decide +kernel
    intro f; simpa using this f.toFin
  obtain ⟨f1, f2, f3, f4⟩ := hflag (rdByte p.data 14)
  congr 1
  unfold view decodeRecord
  rw [f1, f2, f3, f4, hb14, hint 0 4 _ (by omega), hint 4 4 _ (by omega), hint 8 4 _ (by omega),
    hint 12 2 _ (by omega), hint 18 2 _ (by omega), hbyte 15 (by omega), hbyte 16 (by omega), hbyte 17 (by omega)]
  cases hf : p.hdr.fmt <;> simp [hf, formatSize, PointFormat.std] at hl hs <;>
    simp (disch := omega) [hasTime, hint, Color.black]

/-- C06: `Validate` succeeds exactly when the scan angle rank is within [-90, 90] (the packed members cannot be out
of range) and otherwise throws `invalid_point_data`; `IsValid` returns the same answer. -/
theorem valid_iff (p : Point) (hwf : p.WF) :
    ∃ ar : BitVec 8, getScanAngleRank p = .ok ar ∧
      isValid p = .ok (decide (-90 ≤ ar.toInt ∧ ar.toInt ≤ 90)) ∧
      validate p = (if -90 ≤ ar.toInt ∧ ar.toInt ≤ 90 then .ok true else .throw .invalidPointData) := by
  obtain ⟨hs, hl⟩ := hwf
  have h20 : 20 ≤ p.data.length := by cases hf : p.hdr.fmt <;> simp_all [formatSize, PointFormat.std] <;> omega
  have hflag : ∀ f : Byte, ((f &&& 0x07#8).setWidth 16).toNat ≤ 7 ∧
      (((f >>> 3) &&& 0x07#8).setWidth 16).toNat ≤ 7 ∧
      (((f >>> 6) &&& 0x01#8).setWidth 16).toNat ≤ 1 ∧
      (((f >>> 7) &&& 0x01#8).setWidth 16).toNat ≤ 1 := by
    have : ∀ f : Fin 256, let f : Byte := BitVec.ofFin f
      ((f &&& 0x07#8).setWidth 16).toNat ≤ 7 ∧
      (((f >>> 3) &&& 0x07#8).setWidth 16).toNat ≤ 7 ∧
      (((f >>> 6) &&& 0x01#8).setWidth 16).toNat ≤ 1 ∧
      (((f >>> 7) &&& 0x01#8).setWidth 16).toNat ≤ 1 := by decide +kernel
    intro f; exact this f.toFin
  obtain ⟨f1, f2, f3, f4⟩ := hflag (rdByte p.data 14)
  have g1 := Nat.not_lt.mpr f1
  have g2 := Nat.not_lt.mpr f2
  have g3 := Nat.not_lt.mpr f3
  have g4 := Nat.not_lt.mpr f4
  refine ⟨rdByte p.data 16, by rw [getScanAngleRank, getByte_eq (by omega)], ?_, ?_⟩
  · unfold isValid getReturnNumber getNumberOfReturns getScanDirection getFlightLineEdge getScanAngleRank
    rw [getByte_eq (by omega), getByte_eq (by omega)]
    simp only [Outcome.bind_ok, Outcome.pure_eq, gt_iff_lt, g1, g2, g3, g4, if_false, Bool.or_eq_true, decide_eq_true_eq]
    split <;> (congr 1; symm; first | (apply decide_eq_true; omega) | (apply decide_eq_false; omega))
  · unfold validate getReturnNumber getNumberOfReturns getScanDirection getFlightLineEdge getScanAngleRank
    rw [getByte_eq (by omega), getByte_eq (by omega)]
    simp only [Outcome.bind_ok, Outcome.pure_eq, gt_iff_lt, g1, g2, g3, g4, decide_false, Bool.false_or,
      Bool.or_eq_true, decide_eq_true_eq, Bool.false_eq_true, false_or]
    by_cases h1 : -90 ≤ (rdByte p.data 16).toInt ∧ (rdByte p.data 16).toInt ≤ 90
    · rw [if_neg (by omega), if_pos h1]
    · rw [if_pos (by omega), if_neg h1]

example : isValid (Point.step ⟨.little, false⟩ (Point.new exHeader) (.scanAngle 91)) = .ok false ∧
    isValid (Point.step ⟨.little, false⟩ (Point.new exHeader) (.scanAngle (-90))) = .ok true := by decide

end Point
end LibLAS
