import Verif.Lemmas.ReadOps
namespace LibLAS
open Spec

theorem IStream.read_short {s : IStream} {k : Nat} (h1 : s.eof = false) (h2 : s.fail = false) (h0 : 0 < k)
    (h3 : s.buf.length < s.pos + k) :
    s.read k = (slice s.buf s.pos k, ⟨s.buf, s.pos + (slice s.buf s.pos k).length, true, true⟩) := by
  unfold IStream.read
  have hl : ((s.buf.drop s.pos).take k).length ≠ k := by simp; omega
  simp only [h1, h2]
  simp only [Bool.or_false, Bool.false_eq_true, if_false, if_neg hl]
  rfl

/-- The reader after a short read. -/
def Reader.shortOf (r : Reader) (s : IStream) (p : List Byte) (k : Nat) : Reader :=
  { r with ifs := s, point := p, current := k }

theorem Reader.readCounted_short {r : Reader} {f : List Byte} {off len n p : Nat} (ho : r.On f off len n)
    (hi : r.ifs = ⟨f, p, false, false⟩) (hin : f.length < p + len) :
    r.readCounted = (r.shortOf ⟨f, p + (slice f p len).length, true, true⟩
      (slice f p len ++ r.point.drop (f.length - p)) (r.current + 1), .ok ()) := by
  have h0 := ho.pos
  have hl : (slice f p len).length = f.length - p := by rw [slice_length]; omega
  unfold Reader.readCounted Reader.readRecord
  rw [if_neg (by intro hh; have := ho.point; rw [hh] at this; simp at this; omega), hi, if_neg (by simp),
    if_neg (by rw [ho.point, ho.recordSize]; omega)]
  rw [ho.recordSize, IStream.read_short rfl rfl h0 (by exact hin)]
  dsimp only
  rw [hl, Reader.shortOf, ho.recordSize]

/-- A read on a failed stream. -/
theorem Reader.readCounted_fail {r : Reader} (hp : r.point ≠ []) (hf : r.ifs.fail = true) :
    r.readCounted = (r, .throw .outOfRange) := by
  unfold Reader.readCounted Reader.readRecord
  rw [if_neg hp, if_pos hf]

theorem Reader.readNext_fail {r : Reader} (hc : r.current ≠ 0) (hp : r.point ≠ []) (hf : r.ifs.fail = true) :
    r.readNext.2 = .ok false := by
  unfold Reader.readNext Reader.implReadNext
  simp only [if_neg hc]
  split
  · rfl
  · rw [Reader.readCounted_fail hp hf]
    rfl

theorem Reader.On.ne {r : Reader} {f : List Byte} {off len n : Nat} (ho : r.On f off len n) : r.point ≠ [] := by
  intro hh; have := ho.point; rw [hh] at this; have := ho.pos; simp at *; omega

/-- A sequential read of a record that is not wholly in the file. -/
theorem Reader.readNext_short {r : Reader} {f : List Byte} {off len n k : Nat} (ho : r.On f off len n) (ha : r.At off len k)
    (hk : k < n) (hin : f.length < off + k * len + len) (hf : r.filter = none) (hx : r.Keeps len) :
    r.readNext.2 = .ok true ∧
    r.readNext.1.point = r.xf (slice f (off + k * len) len ++ r.point.drop (f.length - (off + k * len))) ∧
    r.readNext.1.readNext.2 = .ok false := by
  have h0 := ho.pos
  have hon : Reader.On { r with ifs := ⟨f, off + k * len, false, false⟩ } f off len n :=
    ⟨rfl, ho.dataOffset, ho.recordSize, ho.recordLength, ho.point, ho.size, ho.count, ho.pos⟩
  have hl : (slice f (off + k * len) len).length = f.length - (off + k * len) := by rw [slice_length]; omega
  have hlen : (slice f (off + k * len) len ++ r.point.drop (f.length - (off + k * len))).length = len := by
    rw [List.length_append, hl, List.length_drop, ho.point]; omega
  have key : r.readNext = (r.shortOf ⟨f, off + k * len + (slice f (off + k * len) len).length, true, true⟩
      (r.xf (slice f (off + k * len) len ++ r.point.drop (f.length - (off + k * len)))) (k + 1), .ok true) := by
    unfold Reader.readNext Reader.implReadNext
    rw [Reader.At.start ho ha]
    dsimp only
    rw [if_neg (by rw [ho.size, ha.1]; omega), Reader.readCounted_short hon rfl hin]
    dsimp only
    have hacc : ∀ x : Reader, x.filter = none → x.accepts = true := by intro x hx; unfold Reader.accepts; rw [hx]
    rw [if_pos (hacc _ (by exact hf)), Reader.transform_eq, ha.1]
    rfl
  refine ⟨by rw [key], by rw [key]; rfl, ?_⟩
  rw [key]
  apply Reader.readNext_fail
  · exact Nat.succ_ne_zero k
  · intro hh
    have := hx _ hlen
    rw [show r.xf _ = [] from hh] at this
    simp at this; omega
  · rfl

theorem recordsFrom_succ (f : List Byte) (off len k m : Nat) :
    recordsFrom f off len k (m + 1) = record f off len k :: recordsFrom f off len (k + 1) m := by
  unfold recordsFrom
  rw [List.range_succ_eq_map, List.map_cons, List.map_map]
  congr 1
  apply List.map_congr_left
  intro j _
  simp only [Function.comp]
  congr 1; omega

/-- Reading a file that ends inside (or before) record `k + m`. -/
theorem Reader.delivers_truncated {f : List Byte} {off len n : Nat} :
    ∀ (m : Nat) (r : Reader) (k : Nat), r.On f off len n → r.At off len k → k + m < n → r.filter = none → r.xform = none →
      (m ≠ 0 → off + (k + m) * len ≤ f.length) → f.length < off + (k + m) * len + len →
      delivers r (recordsFrom f off len k m ++
        [slice f (off + (k + m) * len) len ++
          (if m = 0 then r.point else record f off len (k + m - 1)).drop (f.length - (off + (k + m) * len))]) := by
  intro m
  induction m with
  | zero =>
    intro r k ho ha hk hf hx _ hlt
    have hid : r.xf = id := by funext p; unfold Reader.xf; rw [hx]; rfl
    obtain ⟨h1, h2, h3⟩ := Reader.readNext_short ho ha (by omega) (by simpa using hlt) hf (by intro p hp; rw [hid]; exact hp)
    refine ⟨h1, ?_, h3⟩
    rw [h2, hid]; rfl
  | succ m ih =>
    intro r k ho ha hk hf hx hle hlt
    have hid : ∀ p, r.xf p = p := by intro p; unfold Reader.xf; rw [hx]
    have hin : off + k * len + len ≤ f.length := by
      have h1 : (k + 1) * len ≤ (k + (m + 1)) * len := Nat.mul_le_mul_right _ (by omega)
      have h2 := hle (by omega)
      rw [Nat.succ_mul] at h1; omega
    have hstep := Reader.readNext_hit ho ha (by omega) hin (by unfold Reader.accepts; rw [hf])
    have hrec : (record f off len k).length = len := slice_length_of_le hin
    rw [recordsFrom_succ, List.cons_append]
    refine ⟨by rw [hstep], by rw [hstep]; exact hid _, ?_⟩
    rw [hstep]
    have := ih { r with ifs := ⟨f, off + (k + 1) * len, false, false⟩, point := r.xf (record f off len k), current := k + 1 } (k + 1)
      ⟨rfl, ho.dataOffset, ho.recordSize, ho.recordLength, by rw [hid]; exact hrec, ho.size, ho.count, ho.pos⟩
      ⟨rfl, fun _ => ⟨rfl, rfl, rfl⟩⟩ (by omega) hf hx
      (by intro _; rw [show k + 1 + m = k + (m + 1) by omega]; exact hle (by omega))
      (by rw [show k + 1 + m = k + (m + 1) by omega]; exact hlt)
    rw [show k + 1 + m = k + (m + 1) by omega] at this
    have e : (if m = 0 then r.xf (record f off len k) else record f off len (k + (m + 1) - 1)) =
        (if m + 1 = 0 then r.point else record f off len (k + (m + 1) - 1)) := by
      rw [if_neg (Nat.succ_ne_zero m)]
      by_cases hm : m = 0
      · subst hm; rw [if_pos rfl, hid]; rfl
      · rw [if_neg hm]
    dsimp only at this
    rw [e] at this
    exact this

/-! Filtered reading. -/

/-- One call: the first record is tested, then the next one, then the loop, which gives up when it reaches the last
record. -/
def skipSpec (p : List Byte → Bool) : List (List Byte) → Option (List Byte × List (List Byte))
  | [] => none
  | x :: xs =>
    if p x then some (x, xs)
    else
      match xs with
      | [] => none
      | [_] => none
      | y :: z :: ys => skipSpec p (y :: z :: ys)

def nextSpec (p : List Byte → Bool) : List (List Byte) → Option (List Byte × List (List Byte))
  | [] => none
  | x :: xs => if p x then some (x, xs) else skipSpec p xs

end LibLAS
