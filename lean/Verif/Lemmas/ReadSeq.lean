import Verif.Spec.Reading
import Verif.Lemmas.Stream
namespace LibLAS
open Spec

/-- A reader over a file of records of length `len` from `off` on, `n` of them advertised. -/
structure Reader.On (r : Reader) (f : List Byte) (off len n : Nat) : Prop where
  buf : r.ifs.buf = f
  dataOffset : r.hdr.dataOffset.toNat = off
  recordSize : r.recordSize = len
  recordLength : r.hdr.dataRecordLength = len
  point : r.point.length = len
  size : r.size = n
  count : r.hdr.pointCount.toNat = n
  pos : 0 < len

/-- The next sequential read starts at record `k`. -/
def Reader.At (r : Reader) (off len k : Nat) : Prop :=
  r.current = k ∧ (k ≠ 0 → r.ifs.pos = off + k * len ∧ r.ifs.eof = false ∧ r.ifs.fail = false)

theorem IStream.read_full {s : IStream} {k : Nat} (h1 : s.eof = false) (h2 : s.fail = false) (h3 : s.pos + k ≤ s.buf.length) :
    s.read k = (slice s.buf s.pos k, { s with pos := s.pos + k }) := by
  unfold IStream.read
  have hl : ((s.buf.drop s.pos).take k).length = k := by simp; omega
  simp only [h1, h2, hl]
  simp [slice]

theorem IStream.clear_seek (s : IStream) (p : Nat) : s.clear.seek p = ⟨s.buf, p, false, false⟩ := rfl

/-- A stream ready to read at `p`. -/
theorem Reader.readRecord_full {r : Reader} {f : List Byte} {off len n p : Nat} (h : r.On f off len n)
    (hi : r.ifs = ⟨f, p, false, false⟩) (hp : p + len ≤ f.length) :
    r.readRecord = ({ r with ifs := ⟨f, p + len, false, false⟩, point := slice f p len }, .ok ()) := by
  unfold Reader.readRecord
  have h0 := h.pos
  rw [if_neg (by intro hh; have := h.point; rw [hh] at this; simp at this; omega), hi]
  rw [if_neg (by simp), if_neg (by rw [h.point, h.recordSize]; omega), h.recordSize,
    IStream.read_full rfl rfl (by exact hp)]
  dsimp only
  congr 2
  rw [List.drop_eq_nil_of_le (by rw [h.point, slice_length_of_le hp]), List.append_nil]

theorem Reader.readCounted_full {r : Reader} {f : List Byte} {off len n p : Nat} (h : r.On f off len n)
    (hi : r.ifs = ⟨f, p, false, false⟩) (hp : p + len ≤ f.length) :
    r.readCounted = ({ r with ifs := ⟨f, p + len, false, false⟩, point := slice f p len, current := r.current + 1 }, .ok ()) := by
  unfold Reader.readCounted
  rw [Reader.readRecord_full h hi hp]

/-- The stream at the start of `ReadNextPoint`. -/
theorem Reader.At.start {r : Reader} {f : List Byte} {off len n k : Nat} (ho : r.On f off len n) (ha : r.At off len k) :
    (if r.current = 0 then { r with ifs := r.ifs.clear.seek r.hdr.dataOffset.toNat } else r) =
      { r with ifs := ⟨f, off + k * len, false, false⟩ } := by
  obtain ⟨h1, h2⟩ := ha
  by_cases hk : k = 0
  · subst hk
    rw [if_pos h1, IStream.clear_seek, ho.buf, ho.dataOffset]
    simp
  · rw [if_neg (by omega)]
    obtain ⟨a, b, c⟩ := h2 hk
    have : r.ifs = ⟨f, off + k * len, false, false⟩ := by
      cases hr : r.ifs
      rw [hr] at a b c
      have := ho.buf
      rw [hr] at this
      simp only at a b c this
      rw [this, a, b, c]
    rw [← this]

/-- Applying a transformation to a record. -/
def Reader.xf (r : Reader) (p : List Byte) : List Byte :=
  match r.xform with
  | none => p
  | some f => f p

theorem Reader.transform_eq (r : Reader) : r.transform = { r with point := r.xf r.point } := by
  obtain ⟨_, _, _, _, _, _, _, xf⟩ := r
  cases xf <;> rfl

/-- One sequential read of a record that is there and that the filters accept. -/
theorem Reader.readNext_hit {r : Reader} {f : List Byte} {off len n k : Nat} (ho : r.On f off len n) (ha : r.At off len k)
    (hk : k < n) (hin : off + k * len + len ≤ f.length)
    (hacc : { r with point := record f off len k }.accepts = true) :
    r.readNext = ({ r with ifs := ⟨f, off + (k + 1) * len, false, false⟩, point := r.xf (record f off len k), current := k + 1 },
      .ok true) := by
  unfold Reader.readNext Reader.implReadNext
  rw [Reader.At.start ho ha]
  dsimp only
  rw [if_neg (by rw [ho.size, ha.1]; omega)]
  have hon : Reader.On { r with ifs := ⟨f, off + k * len, false, false⟩ } f off len n :=
    ⟨rfl, ho.dataOffset, ho.recordSize, ho.recordLength, ho.point, ho.size, ho.count, ho.pos⟩
  rw [Reader.readCounted_full hon rfl hin]
  dsimp only
  have e : off + k * len + len = off + (k + 1) * len := by rw [Nat.succ_mul]; omega
  have hacc' : Reader.accepts { r with ifs := ⟨f, off + k * len + len, false, false⟩, point := slice f (off + k * len) len, current := r.current + 1 } = true := hacc
  rw [if_pos hacc', Reader.transform_eq, e]
  unfold catchRange
  dsimp only
  rw [ha.1]
  rfl

theorem Reader.readNext_end {r : Reader} {f : List Byte} {off len n k : Nat} (ho : r.On f off len n) (ha : r.At off len k)
    (hk : n ≤ k) : r.readNext.2 = .ok false := by
  unfold Reader.readNext Reader.implReadNext
  rw [Reader.At.start ho ha]
  dsimp only
  rw [if_pos (by rw [ho.size, ha.1]; omega)]
  rfl

/-- Reading a whole file without filters. -/
theorem Reader.delivers_all {f : List Byte} {off len n : Nat} (hin : off + n * len ≤ f.length) :
    ∀ (m : Nat) (r : Reader) (k : Nat), r.On f off len n → r.At off len k → k + m = n → r.filter = none →
      (∀ p, p.length = len → (r.xf p).length = len) →
      delivers r ((recordsFrom f off len k m).map r.xf) := by
  intro m
  induction m with
  | zero =>
    intro r k ho ha hk _ _
    exact Reader.readNext_end ho ha (by omega)
  | succ m ih =>
    intro r k ho ha hk hf hx
    have hle : off + k * len + len ≤ f.length := by
      have : (k + 1) * len ≤ n * len := Nat.mul_le_mul_right _ (by omega)
      rw [Nat.succ_mul] at this; omega
    have hstep := Reader.readNext_hit ho ha (by omega) hle (by unfold Reader.accepts; rw [hf])
    have hrec : (record f off len k).length = len := slice_length_of_le hle
    have e : recordsFrom f off len k (m + 1) = record f off len k :: recordsFrom f off len (k + 1) m := by
      unfold recordsFrom
      rw [List.range_succ_eq_map, List.map_cons, List.map_map]
      congr 1
      apply List.map_congr_left
      intro j _
      simp only [Function.comp]
      congr 1; omega
    rw [e, List.map_cons]
    refine ⟨by rw [hstep], by rw [hstep], ?_⟩
    rw [hstep]
    have := ih { r with ifs := ⟨f, off + (k + 1) * len, false, false⟩, point := r.xf (record f off len k), current := k + 1 } (k + 1)
      ⟨rfl, ho.dataOffset, ho.recordSize, ho.recordLength, hx _ hrec, ho.size, ho.count, ho.pos⟩
      ⟨rfl, fun _ => ⟨rfl, rfl, rfl⟩⟩ (by omega) hf hx
    exact this

end LibLAS
