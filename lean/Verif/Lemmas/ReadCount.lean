import Verif.Spec.Reading
/-
Reading moves forward: the header and the size stay, every delivered point advances the position.
-/
namespace LibLAS
open Spec

/-- Only the stream, the point and the position may change, the position only forward. -/
structure Forward (r r' : Reader) : Prop where
  hdr : r'.hdr = r.hdr
  size : r'.size = r.size
  filter : r'.filter = r.filter
  xform : r'.xform = r.xform
  current : r.current ≤ r'.current

theorem Forward.rfl {r : Reader} : Forward r r := ⟨_root_.rfl, _root_.rfl, _root_.rfl, _root_.rfl, le_refl _⟩

theorem Forward.trans {a b c : Reader} (h : Forward a b) (g : Forward b c) : Forward a c :=
  ⟨g.hdr.trans h.hdr, g.size.trans h.size, g.filter.trans h.filter, g.xform.trans h.xform, h.current.trans g.current⟩

namespace Reader

theorem transform_forward (r : Reader) : Forward r r.transform := by
  unfold transform
  split <;> exact ⟨rfl, rfl, rfl, rfl, le_refl _⟩

theorem readRecord_forward (r : Reader) : Forward r r.readRecord.1 ∧ r.readRecord.1.current = r.current := by
  unfold readRecord
  split
  · exact ⟨.rfl, rfl⟩
  · split
    · exact ⟨.rfl, rfl⟩
    · split
      · exact ⟨.rfl, rfl⟩
      · exact ⟨⟨rfl, rfl, rfl, rfl, le_refl _⟩, rfl⟩

theorem readCounted_forward (r : Reader) : Forward r r.readCounted.1 ∧
    (r.readCounted.2 = .ok () → r.readCounted.1.current = r.current + 1) := by
  have h := readRecord_forward r
  unfold readCounted
  generalize r.readRecord = x at *
  obtain ⟨r', o⟩ := x
  obtain ⟨h1, h2⟩ := h
  dsimp only at h1 h2
  rcases o with ⟨⟩ | e | _
  · exact ⟨⟨h1.hdr, h1.size, h1.filter, h1.xform, by dsimp only; omega⟩, fun _ => by dsimp only; omega⟩
  · cases e <;> exact ⟨h1, fun h => by cases h⟩
  · exact ⟨h1, fun h => by cases h⟩

theorem skipLoop_forward : ∀ (k : Nat) (r : Reader), Forward r (skipLoop k r).1
  | 0, _ => .rfl
  | k + 1, r => by
    have h := (readCounted_forward r).1
    unfold skipLoop
    split
    · exact .rfl
    · generalize r.readCounted = x at *
      obtain ⟨r', o⟩ := x
      rcases o with ⟨⟩ | e | _
      · dsimp only at h ⊢
        split
        · exact h
        · exact h.trans (skipLoop_forward k r')
      · exact h
      · exact h

theorem afterReject_forward (r : Reader) : Forward r r.afterReject.1 := by
  have h := (readCounted_forward r).1
  unfold afterReject
  generalize r.readCounted = x at *
  obtain ⟨r', o⟩ := x
  rcases o with ⟨⟩ | e | _
  · dsimp only at h ⊢
    have h2 : Forward r' r'.skip.1 := skipLoop_forward _ _
    generalize r'.skip = y at *
    obtain ⟨r2, o2⟩ := y
    rcases o2 with l | e | _
    · dsimp only at h2 ⊢
      split <;> exact (h.trans h2).trans (transform_forward _)
    · exact h.trans h2
    · exact h.trans h2
  · exact h
  · exact h

theorem implReadNext_forward (r : Reader) : Forward r r.implReadNext.1 ∧
    (r.implReadNext.2 = .ok () → r.current < r.size ∧ r.current < r.implReadNext.1.current) := by
  unfold implReadNext
  dsimp only
  generalize hr : (if r.current = 0 then { r with ifs := r.ifs.clear.seek r.hdr.dataOffset.toNat } else r) = r0
  have h0 : Forward r r0 ∧ r0.current = r.current := by
    subst hr; split <;> exact ⟨⟨rfl, rfl, rfl, rfl, le_refl _⟩, rfl⟩
  clear hr
  split
  · exact ⟨h0.1, fun h => by cases h⟩
  · rename_i hlt
    have h := readCounted_forward r0
    generalize r0.readCounted = x at *
    obtain ⟨r', o⟩ := x
    rcases o with ⟨⟩ | e | _
    · dsimp only at h ⊢
      have hc := h.2 rfl
      have hs := h0.1.size
      split
      · have ht := transform_forward r'
        exact ⟨(h0.1.trans h.1).trans ht, fun _ => ⟨by omega, by have := ht.current; dsimp only; omega⟩⟩
      · have ht := afterReject_forward r'
        exact ⟨(h0.1.trans h.1).trans ht, fun _ => ⟨by omega, by have := ht.current; omega⟩⟩
    · exact ⟨h0.1.trans h.1, fun h => by cases h⟩
    · exact ⟨h0.1.trans h.1, fun h => by cases h⟩

theorem readNext_forward (r : Reader) : Forward r r.readNext.1 ∧
    (r.readNext.2 = .ok true → r.current < r.size ∧ r.current < r.readNext.1.current) := by
  have h := implReadNext_forward r
  unfold readNext catchRange
  generalize r.implReadNext = x at *
  obtain ⟨r', o⟩ := x
  rcases o with ⟨⟩ | e | _
  · exact ⟨h.1, fun _ => h.2 rfl⟩
  · cases e <;> exact ⟨h.1, fun h => by cases h⟩
  · exact ⟨h.1, fun h => by cases h⟩

end Reader

/-- A reader delivers at most as many points as are left. -/
theorem delivers_length {ps : List (List Byte)} : ∀ {r : Reader}, delivers r ps → ps.length ≤ r.size - r.current := by
  induction ps with
  | nil => intro r _; simp
  | cons p ps ih =>
    intro r h
    obtain ⟨h1, -, h3⟩ := h
    have hf := Reader.readNext_forward r
    have := ih h3
    have := hf.2 h1
    have := hf.1.size
    simp only [List.length_cons]
    omega

/-- The transform of a reader keeps the length of a record. -/
def Reader.KeepsLength (r : Reader) : Prop := ∀ f, r.xform = some f → ∀ p : List Byte, (f p).length = p.length

namespace Reader

theorem KeepsLength.forward {r r' : Reader} (h : r.KeepsLength) (hf : Forward r r') : r'.KeepsLength := by
  intro f e; exact h f (by rw [← hf.xform]; exact e)

theorem transform_length {r : Reader} (h : r.KeepsLength) : r.transform.point.length = r.point.length := by
  unfold transform
  split
  · rfl
  · rename_i f e; exact h f e _

theorem readRecord_length (r : Reader) : r.readRecord.1.point.length = r.point.length := by
  unfold readRecord
  split
  · rfl
  · split
    · rfl
    · split
      · rfl
      · rename_i h
        have : (r.ifs.read r.recordSize).1.length ≤ r.recordSize := by
          unfold IStream.read
          split
          · simp
          · dsimp only; split <;> simp [slice]
        dsimp only
        rw [List.length_append, List.length_drop]
        omega

theorem readCounted_length (r : Reader) : r.readCounted.1.point.length = r.point.length := by
  have h := readRecord_length r
  unfold readCounted
  generalize r.readRecord = x at *
  obtain ⟨r', o⟩ := x
  rcases o with ⟨⟩ | e | _
  · exact h
  · cases e <;> exact h
  · exact h

theorem skipLoop_length : ∀ (k : Nat) (r : Reader), (skipLoop k r).1.point.length = r.point.length
  | 0, _ => rfl
  | k + 1, r => by
    have h := readCounted_length r
    unfold skipLoop
    split
    · rfl
    · generalize r.readCounted = x at *
      obtain ⟨r', o⟩ := x
      rcases o with ⟨⟩ | e | _
      · dsimp only at h ⊢
        split
        · exact h
        · rw [skipLoop_length k r', h]
      · exact h
      · exact h

theorem afterReject_length {r : Reader} (hk : r.KeepsLength) : r.afterReject.1.point.length = r.point.length := by
  have h := readCounted_length r
  have hf := (readCounted_forward r).1
  unfold afterReject
  generalize r.readCounted = x at *
  obtain ⟨r', o⟩ := x
  rcases o with ⟨⟩ | e | _
  · dsimp only at h hf ⊢
    have h2 : r'.skip.1.point.length = r'.point.length := skipLoop_length _ _
    have hf2 : Forward r' r'.skip.1 := skipLoop_forward _ _
    generalize r'.skip = y at *
    obtain ⟨r2, o2⟩ := y
    rcases o2 with l | e | _
    · dsimp only at h2 hf2 ⊢
      have := transform_length ((hk.forward hf).forward hf2)
      split <;> (dsimp only; omega)
    · dsimp only at h2 ⊢; omega
    · dsimp only at h2 ⊢; omega
  · exact h
  · exact h

theorem readNext_length {r : Reader} (hk : r.KeepsLength) : r.readNext.1.point.length = r.point.length := by
  have h : r.implReadNext.1.point.length = r.point.length := by
    unfold implReadNext
    dsimp only
    generalize hr : (if r.current = 0 then { r with ifs := r.ifs.clear.seek r.hdr.dataOffset.toNat } else r) = r0
    have h0 : r0.KeepsLength ∧ r0.point = r.point := by
      subst hr; split <;> exact ⟨hk, rfl⟩
    clear hr
    rw [← h0.2]
    split
    · rfl
    · have h := readCounted_length r0
      have hf := (readCounted_forward r0).1
      generalize r0.readCounted = x at *
      obtain ⟨r', o⟩ := x
      rcases o with ⟨⟩ | e | _
      · dsimp only at h hf ⊢
        split
        · rw [← h]; exact transform_length (h0.1.forward hf)
        · rw [← h]; exact afterReject_length (h0.1.forward hf)
      · exact h
      · exact h
  unfold readNext catchRange
  generalize r.implReadNext = x at *
  obtain ⟨r', o⟩ := x
  rcases o with ⟨⟩ | e | _
  · exact h
  · cases e <;> exact h
  · exact h

end Reader

/-- All delivered points have the length of the reader's record. -/
theorem delivers_lengths {ps : List (List Byte)} : ∀ {r : Reader}, r.KeepsLength → delivers r ps →
    ∀ p ∈ ps, p.length = r.point.length := by
  induction ps with
  | nil => intro r _ _ p hp; simp at hp
  | cons q ps ih =>
    intro r hk h p hp
    obtain ⟨-, h2, h3⟩ := h
    have hl := Reader.readNext_length hk
    rcases List.mem_cons.1 hp with rfl | hp
    · rw [← h2, hl]
    · rw [ih (hk.forward (Reader.readNext_forward r).1) h3 p hp, hl]

end LibLAS
