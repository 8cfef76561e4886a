import Verif.Model.Stream
import Verif.Spec.File
import Verif.Lemmas.Bytes
import Mathlib.Tactic.Ring
namespace LibLAS
open Spec

theorem slice_getElem? (f : List Byte) (off k i : Nat) : (slice f off k)[i]? = if i < k then f[off + i]? else none := by
  unfold slice
  rw [List.getElem?_take]
  simp only [List.getElem?_drop]

theorem slice_length (f : List Byte) (off k : Nat) : (slice f off k).length = min k (f.length - off) := by simp [slice]

theorem slice_length_of_le {f : List Byte} {off k : Nat} (h : off + k ≤ f.length) : (slice f off k).length = k := by
  rw [slice_length]; omega

theorem overlay_getElem? (buf : List Byte) (p : Nat) (bs : List Byte) (i : Nat) :
    (overlay buf p bs)[i]? =
      if bs = [] then buf[i]?
      else if i < p then (if i < buf.length then buf[i]? else some 0#8)
      else if i < p + bs.length then bs[i - p]? else buf[i]? := by
  unfold overlay
  split
  · rfl
  have h1 : (buf.take p ++ List.replicate (p - buf.length) 0#8).length = p := by simp; omega
  rw [List.append_assoc, List.getElem?_append, h1]
  split
  · rw [List.getElem?_append]
    simp only [List.length_take]
    split
    · rw [if_pos (by omega), List.getElem?_take, if_pos (by omega)]
    · rw [if_neg (by omega), List.getElem?_replicate, if_pos (by omega)]
  · rw [List.getElem?_append]
    split
    · rw [if_pos (by omega)]
    · rw [if_neg (by omega), List.getElem?_drop]
      congr 1; omega

theorem overlay_length (buf : List Byte) (p : Nat) (bs : List Byte) :
    (overlay buf p bs).length = if bs = [] then buf.length else max buf.length (p + bs.length) := by
  unfold overlay
  split
  · rfl
  · simp; omega

theorem overlay_nil (buf : List Byte) (p : Nat) : overlay buf p [] = buf := rfl

theorem overlay_end (buf bs : List Byte) : overlay buf buf.length bs = buf ++ bs := by
  unfold overlay
  split
  · simp [*]
  · simp

/-- Two successive writes are one write. -/
theorem overlay_overlay (buf : List Byte) (p : Nat) (a b : List Byte) :
    overlay (overlay buf p a) (p + a.length) b = overlay buf p (a ++ b) := by
  by_cases ha : a = []
  · subst ha; simp [overlay_nil]
  by_cases hb : b = []
  · subst hb; simp [overlay_nil]
  have ha' : a.length ≠ 0 := by simpa using ha
  have hab : a ++ b ≠ [] := by simp [ha]
  apply List.ext_getElem?
  intro i
  rw [overlay_getElem? (overlay buf p a), if_neg hb, overlay_getElem? buf p (a ++ b), if_neg hab,
    overlay_getElem? buf p a, if_neg ha, overlay_length, if_neg ha, List.length_append]
  by_cases c1 : i < p
  · have c2 : i < p + a.length := by omega
    have c3 : i < max buf.length (p + a.length) := by omega
    simp only [c1, c2, c3, if_true]
  · by_cases c2 : i < p + a.length
    · have c3 : i < max buf.length (p + a.length) := by omega
      have c4 : i < p + (a.length + b.length) := by omega
      simp only [c1, c2, c3, c4, if_true, if_false]
      rw [List.getElem?_append_left (by omega)]
    · by_cases c3 : i < p + a.length + b.length
      · have c4 : i < p + (a.length + b.length) := by omega
        simp only [c1, c2, c3, c4, if_true, if_false]
        rw [List.getElem?_append_right (by omega)]
        congr 1; omega
      · have c4 : ¬ i < p + (a.length + b.length) := by omega
        simp only [c1, c2, c3, c4, if_false]

theorem slice_overlay_in {buf bs : List Byte} {p off k : Nat} (h1 : p ≤ off) (h2 : off + k ≤ p + bs.length) :
    slice (overlay buf p bs) off k = slice bs (off - p) k := by
  apply List.ext_getElem?
  intro i
  rw [slice_getElem?, slice_getElem?]
  split
  · have hne : bs ≠ [] := by rintro rfl; simp at h2; omega
    rw [overlay_getElem?, if_neg hne, if_neg (by omega), if_pos (by omega)]
    congr 1; omega
  · rfl

theorem slice_overlay_before {buf bs : List Byte} {p off k : Nat} (h1 : off + k ≤ p) (h2 : off + k ≤ buf.length) :
    slice (overlay buf p bs) off k = slice buf off k := by
  apply List.ext_getElem?
  intro i
  rw [slice_getElem?, slice_getElem?]
  split
  · rw [overlay_getElem?]
    split
    · rfl
    · rw [if_pos (by omega), if_pos (by omega)]
  · rfl

theorem slice_overlay_after {buf bs : List Byte} {p off k : Nat} (h1 : p + bs.length ≤ off) :
    slice (overlay buf p bs) off k = slice buf off k := by
  apply List.ext_getElem?
  intro i
  rw [slice_getElem?, slice_getElem?]
  split
  · rw [overlay_getElem?]
    split
    · rfl
    · rw [if_neg (by omega), if_neg (by omega)]
  · rfl

theorem slice_self (bs : List Byte) : slice bs 0 bs.length = bs := by simp [slice]

theorem slice_append_left {a b : List Byte} {off k : Nat} (h : off + k ≤ a.length) :
    slice (a ++ b) off k = slice a off k := by
  unfold slice
  rw [List.drop_append_of_le_length (by omega), List.take_append_of_le_length (by simp; omega)]

theorem slice_append_right {a b : List Byte} {off k : Nat} (h : a.length ≤ off) :
    slice (a ++ b) off k = slice b (off - a.length) k := by
  unfold slice
  rw [List.drop_append, List.drop_eq_nil_of_le h, List.nil_append]

theorem slice_slice {f : List Byte} {a n b k : Nat} (h : b + k ≤ n) : slice (slice f a n) b k = slice f (a + b) k := by
  apply List.ext_getElem?
  intro i
  simp only [slice_getElem?]
  split
  · rw [if_pos (by omega)]; congr 1; omega
  · rfl

namespace OStream

/-- Writing pieces one after the other is writing their concatenation. -/
theorem writeAll_ok (l : List (List Byte)) : ∀ (s : OStream), s.fail = false →
    ∃ s', s.writeAll l = .ok s' ∧ s'.fail = false ∧ s'.buf = overlay s.buf s.pos l.flatten ∧
      s'.pos = s.pos + l.flatten.length := by
  induction l with
  | nil => intro s h; exact ⟨s, rfl, h, by simp [overlay_nil], by simp⟩
  | cons bs l ih =>
    intro s h
    obtain ⟨s', e, f, b, q⟩ := ih (s.write bs) (by simp [write, h])
    refine ⟨s', ?_, f, ?_, ?_⟩
    · simp [writeAll, writeN, h]; exact e
    · rw [b]; simp only [write, h, Bool.false_eq_true, if_false]; rw [overlay_overlay]; rfl
    · rw [q]; simp [write, h]; omega

end OStream

namespace IStream

theorem readN_full {s : IStream} {old : List Byte} (h1 : s.eof = false) (h2 : s.fail = false)
    (h3 : s.pos + old.length ≤ s.buf.length) :
    s.readN old = .ok (slice s.buf s.pos old.length, { s with pos := s.pos + old.length }) := by
  have hl : ((s.buf.drop s.pos).take old.length).length = old.length := by simp; omega
  unfold readN read
  simp only [h1, h2, Bool.or_self, Bool.false_eq_true, if_false, hl, if_true, List.drop_length, List.append_nil]
  rfl

end IStream

theorem put_length {w : Nat} (n : Nat) (v : BitVec w) : (put n v).length = n := by
  simp [put, writeScalar, swapN, memBytes]

theorem got_put (n : Nat) (v : BitVec (8 * n)) : got (8 * n) (put n v) = v := by
  show memValue .little (8 * n) (memBytes .little n v) = v
  rw [memValue_little]
  exact ofNat_leNat_leBytes n v

end LibLAS
