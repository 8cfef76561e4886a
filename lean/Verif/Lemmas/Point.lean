import Verif.Spec.Point
import Verif.Lemmas.Bytes
import Verif.Props.Bytes
/-
Lemmas about the point accessors: every getter is a pure function of a slice of the record, every setter a splice.
-/
set_option linter.unusedSimpArgs false
namespace LibLAS
open Spec

/-- The format is one of the four the library can create headers for. -/
def PointFormat.std : PointFormat → Bool
  | .f4 | .f5 => false
  | _ => true

namespace Point

/-- All getters of the API, in one go. -/
def observe (b : Build) (p : Point) : Outcome Attrs := do
  let x ← getRawX b p
  let y ← getRawY b p
  let z ← getRawZ b p
  let i ← getIntensity b p
  let rn ← getReturnNumber p
  let nr ← getNumberOfReturns p
  let sd ← getScanDirection p
  let fe ← getFlightLineEdge p
  let c ← getClassification p
  let a ← getScanAngleRank p
  let u ← getUserData p
  let s ← getPointSourceID b p
  let t ← getTime b p
  let col ← getColor b p
  pure ⟨x, y, z, i, rn.toNat, nr.toNat, sd.toNat, fe.toNat, c, a, u, s, t, col⟩

/-- Run the setter of the API. -/
def exec (b : Build) (p : Point) : SetOp → Outcome Point
  | .rawX v => setRawX b p v
  | .rawY v => setRawY b p v
  | .rawZ v => setRawZ b p v
  | .intensity v => setIntensity b p v
  | .returnNumber v => setReturnNumber p v
  | .numberOfReturns v => setNumberOfReturns p v
  | .scanDirection v => setScanDirection p v
  | .edge v => setFlightLineEdge p v
  | .classification c => setClassification p c
  | .scanAngle v => setScanAngleRank p v
  | .userData v => setUserData p v
  | .sourceId v => setPointSourceID b p v
  | .time v => setTime b p v
  | .color c => setColor b p c

/-- A point whose record is long enough for its (supported) format. -/
def WF (p : Point) : Prop := p.hdr.fmt.std = true ∧ formatSize p.hdr.fmt ≤ p.data.length

/-- The pure value of an integer getter. -/
def rdInt (b : Build) (d : List Byte) (pos n : Nat) (signed : Bool) : BitVec (8 * n) :=
  if b.endianAware then bitsToInt b.host (8 * n) signed ((d.drop pos).take n)
  else memValue b.host (8 * n) ((d.drop pos).take n)

/-- The pure value of a byte getter. -/
def rdByte (d : List Byte) (pos : Nat) : Byte := d[pos]?.getD 0

theorem intToBits_length (h : Host) (s : Bool) (n : Nat) (v : BitVec (8 * n)) :
    (intToBits h s n v).length = n := by
  have := storeForward_eq s n v (Nat.le_refl _)
  cases h <;> simp [intToBits, endianStore, storeBackward, this]

theorem getInt_eq {b : Build} {p : Point} {pos n : Nat} {s : Bool} (h : pos + n ≤ p.data.length) :
    getInt b p pos n s = .ok (rdInt b p.data pos n s) := by
  unfold getInt rdInt
  rw [readAt_ok h]
  cases hb : b.endianAware <;> simp

theorem setInt_eq {b : Build} {p : Point} {pos n : Nat} {s : Bool} {v : BitVec (8 * n)}
    (h : pos + n ≤ p.data.length) :
    setInt b p pos n s v = .ok { p with data := splice p.data pos (intToBits b.host s n v) } := by
  unfold setInt
  rw [writeAt_ok (by rw [intToBits_length]; exact h)]
  rfl

theorem getByte_eq {p : Point} {pos : Nat} (h : pos < p.data.length) :
    getByte p pos = .ok (rdByte p.data pos) := by
  unfold getByte rdByte
  rw [List.getElem?_eq_getElem h]; rfl

theorem setByte_eq {p : Point} {pos : Nat} {v : Byte} (h : pos < p.data.length) :
    setByte p pos v = .ok { p with data := splice p.data pos [v] } := by
  unfold setByte
  rw [writeAt_ok (by simp; omega)]
  rfl

theorem rdInt_splice_same {b : Build} {d : List Byte} {pos n : Nat} {s : Bool} {v : BitVec (8 * n)}
    (h : pos + n ≤ d.length) : rdInt b (splice d pos (intToBits b.host s n v)) pos n s = v := by
  have hl := intToBits_length b.host s n v
  have hr := splice_read_same (buf := d) (pos := pos) (bs := intToBits b.host s n v) (by omega)
  rw [hl] at hr
  have := attribute_load_store b.host s n v
  unfold rdInt
  rw [hr, this.1, this.2]
  simp

theorem rdInt_splice_other {b : Build} {d : List Byte} {p q n : Nat} {s : Bool} {bs : List Byte}
    (h : q + bs.length ≤ d.length) (hd : p + n ≤ q ∨ q + bs.length ≤ p) :
    rdInt b (splice d q bs) p n s = rdInt b d p n s := by
  unfold rdInt
  rw [splice_read_other h hd]

theorem rdByte_splice_same {d : List Byte} {pos : Nat} {v : Byte} (h : pos < d.length) :
    rdByte (splice d pos [v]) pos = v := by
  unfold rdByte
  rw [splice_getElem? (by simp; omega)]
  simp

theorem rdByte_splice_other {d : List Byte} {p q : Nat} {bs : List Byte}
    (h : q + bs.length ≤ d.length) (hd : p < q ∨ q + bs.length ≤ p) :
    rdByte (splice d q bs) p = rdByte d p := by
  unfold rdByte
  rw [splice_getElem? h]
  by_cases h1 : p < q
  · simp [h1]
  · have h2 : ¬ (p < q + bs.length) := by omega
    simp [h1, h2]

/-- The record the getters return, as a pure function of the bytes. -/
def view (b : Build) (f : PointFormat) (d : List Byte) : Attrs where
  rawX := rdInt b d 0 4 true
  rawY := rdInt b d 4 4 true
  rawZ := rdInt b d 8 4 true
  intensity := rdInt b d 12 2 false
  returnNumber := ((rdByte d 14 &&& 0x07#8).setWidth 16).toNat
  numberOfReturns := (((rdByte d 14 >>> 3) &&& 0x07#8).setWidth 16).toNat
  scanDirection := (((rdByte d 14 >>> 6) &&& 0x01#8).setWidth 16).toNat
  edge := (((rdByte d 14 >>> 7) &&& 0x01#8).setWidth 16).toNat
  classification := ⟨rdByte d 15⟩
  scanAngle := rdByte d 16
  userData := rdByte d 17
  sourceId := rdInt b d 18 2 false
  time := if f = .f0 ∨ f = .f2 then 0 else rdInt b d 20 8 false
  color := if f = .f0 ∨ f = .f1 then Color.black else
    let pos := if f = .f3 then 28 else 20
    ⟨rdInt b d pos 2 false, rdInt b d (pos + 2) 2 false, rdInt b d (pos + 4) 2 false⟩

theorem observe_eq {b : Build} {p : Point} (h : p.WF) : observe b p = .ok (view b p.hdr.fmt p.data) := by
  obtain ⟨hs, hl⟩ := h
  have h20 : 20 ≤ p.data.length := by cases hf : p.hdr.fmt <;> simp_all [formatSize, PointFormat.std] <;> omega
  unfold observe getRawX getRawY getRawZ getIntensity getReturnNumber getNumberOfReturns getScanDirection
    getFlightLineEdge getClassification getScanAngleRank getUserData getPointSourceID getTime getColor
  rw [getInt_eq (by omega), getInt_eq (by omega), getInt_eq (by omega), getInt_eq (by omega),
    getByte_eq (by omega), getByte_eq (by omega), getByte_eq (by omega), getByte_eq (by omega),
    getInt_eq (by omega)]
  cases hf : p.hdr.fmt <;> simp [hf, formatSize, PointFormat.std] at hl hs ⊢
  · simp [view]
  · rw [getInt_eq (by omega)]; simp [view]
  · rw [getInt_eq (by omega), getInt_eq (by omega), getInt_eq (by omega)]; simp [view]
  · rw [getInt_eq (by omega), getInt_eq (by omega), getInt_eq (by omega), getInt_eq (by omega)]; simp [view]

/-- The packed flags byte: each of the four read-modify-writes acts on its own bits. -/
theorem flags_tab (f : Byte) (num : BitVec 16) :
    let n : Byte := num.setWidth 8
    let w : Byte → Nat → Byte := fun mask sh => (f &&& ~~~mask) ||| (mask &&& (n <<< sh))
    let rn : Byte → Nat := fun g => ((g &&& 0x07#8).setWidth 16).toNat
    let nr : Byte → Nat := fun g => (((g >>> 3) &&& 0x07#8).setWidth 16).toNat
    let sd : Byte → Nat := fun g => (((g >>> 6) &&& 0x01#8).setWidth 16).toNat
    let fe : Byte → Nat := fun g => (((g >>> 7) &&& 0x01#8).setWidth 16).toNat
    (rn (w 0x07#8 0) = num.toNat % 8 ∧ nr (w 0x07#8 0) = nr f ∧ sd (w 0x07#8 0) = sd f ∧ fe (w 0x07#8 0) = fe f) ∧
    (rn (w 0x38#8 3) = rn f ∧ nr (w 0x38#8 3) = num.toNat % 8 ∧ sd (w 0x38#8 3) = sd f ∧ fe (w 0x38#8 3) = fe f) ∧
    (rn (w 0x40#8 6) = rn f ∧ nr (w 0x40#8 6) = nr f ∧ sd (w 0x40#8 6) = num.toNat % 2 ∧ fe (w 0x40#8 6) = fe f) ∧
    (rn (w 0x80#8 7) = rn f ∧ nr (w 0x80#8 7) = nr f ∧ sd (w 0x80#8 7) = sd f ∧ fe (w 0x80#8 7) = num.toNat % 2) := by
  have hn : ∀ n : Fin 256, let m : Byte := BitVec.ofNat 8 (n.val % 8)
      0x07#8 &&& (BitVec.ofFin n <<< 0) = 0x07#8 &&& (m <<< 0) ∧ 0x38#8 &&& (BitVec.ofFin n <<< 3) = 0x38#8 &&& (m <<< 3) ∧
      0x40#8 &&& (BitVec.ofFin n <<< 6) = 0x40#8 &&& (m <<< 6) ∧
      0x80#8 &&& (BitVec.ofFin n <<< 7) = 0x80#8 &&& (m <<< 7) := by
    decide +kernel
  have key : ∀ (f : Fin 256) (m : Fin 8),
    let f : Byte := BitVec.ofFin f
    let n : Byte := BitVec.ofNat 8 m.val
    let w : Byte → Nat → Byte := fun mask sh => (f &&& ~~~mask) ||| (mask &&& (n <<< sh))
    let rn : Byte → Nat := fun g => ((g &&& 0x07#8).setWidth 16).toNat
    let nr : Byte → Nat := fun g => (((g >>> 3) &&& 0x07#8).setWidth 16).toNat
    let sd : Byte → Nat := fun g => (((g >>> 6) &&& 0x01#8).setWidth 16).toNat
    let fe : Byte → Nat := fun g => (((g >>> 7) &&& 0x01#8).setWidth 16).toNat
    (rn (w 0x07#8 0) = m.val % 8 ∧ nr (w 0x07#8 0) = nr f ∧ sd (w 0x07#8 0) = sd f ∧ fe (w 0x07#8 0) = fe f) ∧
    (rn (w 0x38#8 3) = rn f ∧ nr (w 0x38#8 3) = m.val % 8 ∧ sd (w 0x38#8 3) = sd f ∧ fe (w 0x38#8 3) = fe f) ∧
    (rn (w 0x40#8 6) = rn f ∧ nr (w 0x40#8 6) = nr f ∧ sd (w 0x40#8 6) = m.val % 2 ∧ fe (w 0x40#8 6) = fe f) ∧
    (rn (w 0x80#8 7) = rn f ∧ nr (w 0x80#8 7) = nr f ∧ sd (w 0x80#8 7) = sd f ∧ fe (w 0x80#8 7) = m.val % 2) := by
    decide +kernel
  have h1 := hn (num.setWidth 8).toFin
  simp only [BitVec.ofFin_toFin, BitVec.val_toFin] at h1
  have h2 := key f.toFin ⟨(num.setWidth 8).toNat % 8, by omega⟩
  have h8 : (num.setWidth 8).toNat % 8 % 8 = num.toNat % 8 := by simp only [BitVec.toNat_setWidth]; omega
  have hh : (num.setWidth 8).toNat % 8 % 2 = num.toNat % 2 := by simp only [BitVec.toNat_setWidth]; omega
  simp only [BitVec.ofFin_toFin, h8, hh] at h2
  intro n w rn nr sd fe
  simp only [w, n, h1.1, h1.2.1, h1.2.2.1, h1.2.2.2]
  exact h2

end Point
end LibLAS
