import Verif.Lemmas.IndexWalk
import Verif.Spec.IndexHeader
/-
The header record of an index is read back.
-/
namespace LibLAS.Index
open Spec

theorem freadNat_bits {a c : List Byte} {pos : Nat} (x : BitVec 64) (h1 : a.length = pos) : freadNat (a ++ (put 8 x ++ c)) pos 8 = some x.toNat := by
  have := freadNat_mid (a := a) (c := c) (k := 8) (n := x.toNat) h1 x.isLt
  rwa [BitVec.ofNat_toNat, BitVec.setWidth_eq] at this

theorem cstr_no_zero (t : List Byte) : 0#8 ∉ cstr t := by
  intro h
  have h1 : ∀ l : List Byte, 0#8 ∉ cstr l := by
    intro l
    unfold cstr
    induction l with
    | nil => simp
    | cons a l ih =>
      rw [List.takeWhile_cons]
      split
      · rename_i ha
        simp only [List.mem_cons, not_or]
        refine ⟨?_, ih⟩
        intro e
        rw [← e] at ha
        simp at ha
      · simp
  exact h1 t h

theorem cstr_append_zero {t : List Byte} (h : 0#8 ∉ t) (u : List Byte) : cstr (t ++ 0#8 :: u) = t := by
  unfold cstr
  induction t with
  | nil => simp
  | cons a t ih =>
    simp only [List.mem_cons, not_or] at h
    rw [List.cons_append, List.takeWhile_cons]
    have : (a != 0#8) = true := by simp; exact fun e => h.1 e.symm
    rw [this, if_pos rfl, ih h.2]

theorem takeText_ok (t a c : List Byte) {pos : Nat} (h : a.length = pos) :
    takeText (a ++ (putText t ++ c)) pos = .ok (some (cutText t, pos + (putText t).length)) := by
  unfold putText
  simp only
  have hz : 0#8 ∉ cutText t := fun hm => cstr_no_zero t (List.mem_of_mem_take hm)
  have hl : (cutText t).length ≤ 511 := by unfold cutText; simp
  show takeText (a ++ (put 2 (BitVec.ofNat 16 ((cutText t).length + 1)) ++ cutText t ++ [0#8] ++ c)) pos = .ok (some (cutText t, pos + (put 2 (BitVec.ofNat 16 ((cutText t).length + 1)) ++ cutText t ++ [0#8]).length))
  generalize cutText t = u at *
  have e1 : freadNat (a ++ (put 2 (BitVec.ofNat 16 (u.length + 1)) ++ u ++ [0#8] ++ c)) pos 2 = some (u.length + 1) := by
    have := freadNat_mid (a := a) (c := u ++ [0#8] ++ c) (k := 2) (n := u.length + 1) h (by norm_num; omega)
    simpa using this
  have e2 : fread (a ++ (put 2 (BitVec.ofNat 16 (u.length + 1)) ++ u ++ [0#8] ++ c)) (pos + 2) (u.length + 1) = some (u ++ [0#8]) := by
    have := fread_mid (a ++ put 2 (BitVec.ofNat 16 (u.length + 1))) (u ++ [0#8]) c (pos := pos + 2) (k := u.length + 1) (by simp [put_length, h]) (by simp)
    simpa using this
  unfold takeText
  simp only [e1, e2]
  rw [if_neg]
  · rw [cstr_append_zero hz []]
    simp [put_length]; omega
  · simp only [not_or, not_lt, Decidable.not_not]
    exact ⟨by omega, by simp⟩

/-- The numbers in the header of an index. -/
def numBytes (h : Info) : List Byte :=
  put 8 h.minX ++ (put 8 h.maxX ++ (put 8 h.minY ++ (put 8 h.maxY ++ (put 8 h.minZ ++ (put 8 h.maxZ ++
    (put32 h.dataId ++ (put32 h.points ++ (put32 h.cellsX ++ (put32 h.cellsY ++ put32 h.cellsZ)))))))))

theorem takeNumbers_ok {h : Info} (hf : InfoFits h) {a : List Byte} {pos : Nat} (ha : a.length = pos) (author comment date : List Byte) :
    takeNumbers (a ++ numBytes h) pos h.major h.minor author comment date =
      some { h with author := author, comment := comment, date := date } := by
  obtain ⟨-, -, h1, h2, h3, h4, h5⟩ := hf
  unfold numBytes
  have p4 := put32_length
  have p8 : ∀ x : BitVec 64, (put 8 x).length = 8 := fun x => put_length _ _
  generalize hb : a ++ (put 8 h.minX ++ (put 8 h.maxX ++ (put 8 h.minY ++ (put 8 h.maxY ++ (put 8 h.minZ ++ (put 8 h.maxZ ++
    (put32 h.dataId ++ (put32 h.points ++ (put32 h.cellsX ++ (put32 h.cellsY ++ put32 h.cellsZ)))))))))) = b
  have b0 := hb
  have f0 : freadNat b pos 8 = some h.minX.toNat := by rw [← b0]; exact freadNat_bits _ ha
  rw [← List.append_assoc] at hb
  have f1 : freadNat b (pos + 8) 8 = some h.maxX.toNat := by rw [← hb]; exact freadNat_bits _ (by simp [p8, ha])
  rw [← List.append_assoc] at hb
  have f2 : freadNat b (pos + 16) 8 = some h.minY.toNat := by rw [← hb]; exact freadNat_bits _ (by simp [p8, ha])
  rw [← List.append_assoc] at hb
  have f3 : freadNat b (pos + 24) 8 = some h.maxY.toNat := by rw [← hb]; exact freadNat_bits _ (by simp [p8, ha])
  rw [← List.append_assoc] at hb
  have f4 : freadNat b (pos + 32) 8 = some h.minZ.toNat := by rw [← hb]; exact freadNat_bits _ (by simp [p8, ha])
  rw [← List.append_assoc] at hb
  have f5 : freadNat b (pos + 40) 8 = some h.maxZ.toNat := by rw [← hb]; exact freadNat_bits _ (by simp [p8, ha])
  rw [← List.append_assoc] at hb
  have f6 : freadNat b (pos + 48) 4 = some h.dataId := by rw [← hb]; exact freadNat_32 (by simp [p8, ha]) h1
  rw [← List.append_assoc] at hb
  have f7 : freadNat b (pos + 52) 4 = some h.points := by rw [← hb]; exact freadNat_32 (by simp [p8, p4, ha]) h2
  rw [← List.append_assoc] at hb
  have f8 : freadNat b (pos + 56) 4 = some h.cellsX := by rw [← hb]; exact freadNat_32 (by simp [p8, p4, ha]) h3
  rw [← List.append_assoc] at hb
  have f9 : freadNat b (pos + 60) 4 = some h.cellsY := by rw [← hb]; exact freadNat_32 (by simp [p8, p4, ha]) h4
  rw [← List.append_assoc, ← List.append_nil (put32 h.cellsZ)] at hb
  have f10 : freadNat b (pos + 64) 4 = some h.cellsZ := by rw [← hb]; exact freadNat_32 (by simp [p8, p4, ha]) h5
  unfold takeNumbers
  rw [f0, f1, f2, f3, f4, f5, f6, f7, f8, f9, f10]
  simp

theorem putInfo_eq (h : Info) : putInfo h = put8 h.major ++ (put8 h.minor ++ (putText h.author ++ (putText h.comment ++ (putText h.date ++ numBytes h)))) := by
  unfold putInfo numBytes; simp only [List.append_assoc]

theorem loadInfo_bytes {h : Info} (hf : InfoFits h) {v : VLR} (hv : v.data = putInfo h) : loadInfo v =
    .ok (some (keptInfo h)) := by
  have p1 : ∀ n, (put8 n).length = 1 := fun n => put_length _ _
  have hb := putInfo_eq h
  unfold loadInfo
  simp only
  rw [hv]
  generalize putInfo h = b at *
  have f0 : freadNat b 0 1 = some h.major := by
    rw [hb]; exact freadNat_8 (a := []) rfl hf.major
  have f1 : freadNat b 1 1 = some h.minor := by
    rw [hb]; exact freadNat_8 (a := put8 h.major) (p1 _) hf.minor
  rw [← List.append_assoc] at hb
  have t1 : takeText b 2 = .ok (some (cutText h.author, 2 + (putText h.author).length)) := by
    rw [hb]; exact takeText_ok _ _ _ (by simp only [List.length_append, p1])
  rw [← List.append_assoc] at hb
  have t2 : takeText b (2 + (putText h.author).length) =
      .ok (some (cutText h.comment, 2 + (putText h.author).length + (putText h.comment).length)) := by
    rw [hb]; exact takeText_ok _ _ _ (by simp only [List.length_append, p1] <;> omega)
  rw [← List.append_assoc] at hb
  have t3 : takeText b (2 + (putText h.author).length + (putText h.comment).length) =
      .ok (some (cutText h.date, 2 + (putText h.author).length + (putText h.comment).length + (putText h.date).length)) := by
    rw [hb]; exact takeText_ok _ _ _ (by simp only [List.length_append, p1] <;> omega)
  rw [← List.append_assoc] at hb
  have t4 := takeNumbers_ok hf (a := put8 h.major ++ put8 h.minor ++ putText h.author ++ putText h.comment ++ putText h.date)
    (pos := 2 + (putText h.author).length + (putText h.comment).length + (putText h.date).length) (by simp only [List.length_append, p1])
    (cutText h.author) (cutText h.comment) (cutText h.date)
  rw [← hb] at t4
  simp only [f0, f1, t1, Outcome.bind, t2, t3, t4]
  rfl

end LibLAS.Index
