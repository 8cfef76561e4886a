import Verif.Lemmas.Codec
namespace LibLAS
open Spec HeaderWriter

/-- The invariants of a header object's fixed-size fields. -/
structure Header.Sized (h : Header) : Prop where
  signature : h.signature.length = 4
  guid : h.guid.length = 16
  systemId : h.systemId.length = 32
  softwareId : h.softwareId.length = 32

/-- The public header block of a header. -/
def headerBytes (h : Header) : List Byte := (fields h).flatten

/-- The four bytes after the signature. -/
def sourceBytes (h : Header) : List Byte :=
  if h.verMinor = 0 then put 4 (h.reserved.setWidth 32) else put 2 h.sourceId ++ put 2 h.reserved

/-- The fields of the block, the two-or-one fields after the signature merged. -/
def fieldsG (h : Header) : List (List Byte) :=
  [h.signature, sourceBytes h, guidBytes h.guid, put 1 h.verMajor, put 1 h.verMinor, h.getSystemId true, h.getSoftwareId true,
   put 2 h.doy, put 2 h.year, put 2 h.headerSize, put 4 h.dataOffset, put 4 h.recordsCount,
   put 1 (if h.compressed then h.schema.fmt.code ||| 0x80 else h.schema.fmt.code),
   put 2 (BitVec.ofNat 16 h.dataRecordLength), put 4 h.pointCount,
   (h.byReturn.take 5).flatMap (put 4),
   put 8 h.scale.x, put 8 h.scale.y, put 8 h.scale.z, put 8 h.offset.x, put 8 h.offset.y, put 8 h.offset.z,
   put 8 h.max.x, put 8 h.min.x, put 8 h.max.y, put 8 h.min.y, put 8 h.max.z, put 8 h.min.z]

theorem headerBytes_eq (h : Header) : headerBytes h = (fieldsG h).flatten := by
  unfold headerBytes fields fieldsG sourceBytes
  split <;> simp

theorem getSystemId_length {h : Header} (hs : h.Sized) : (h.getSystemId true).length = 32 :=
  padded_length hs.systemId
theorem getSoftwareId_length {h : Header} (hs : h.Sized) : (h.getSoftwareId true).length = 32 :=
  padded_length hs.softwareId

theorem sourceBytes_length (h : Header) : (sourceBytes h).length = 4 := by
  unfold sourceBytes; split <;> simp [put_length]

theorem returns_length {l : List (BitVec 32)} (h : 5 ≤ l.length) : ((l.take 5).flatMap (put 4)).length = 20 := by
  have : ∀ m : List (BitVec 32), (m.flatMap (put 4)).length = 4 * m.length := by
    intro m
    induction m with
    | nil => rfl
    | cons a m ih => rw [List.flatMap_cons, List.length_append, ih, put_length, List.length_cons]; omega
  rw [this, List.length_take]; omega

/-- The lengths of the fields. -/
theorem fieldsG_lengths {h : Header} (hs : h.Sized) (hr : 5 ≤ h.byReturn.length) :
    (fieldsG h).map List.length = [4, 4, 16, 1, 1, 32, 32, 2, 2, 2, 4, 4, 1, 2, 4, 20, 8, 8, 8, 8, 8, 8, 8, 8, 8, 8, 8, 8] := by
  simp [fieldsG, put_length, sourceBytes_length, hs.signature, getSystemId_length hs, getSoftwareId_length hs, guidBytes]
  omega

theorem headerBytes_length {h : Header} (hs : h.Sized) (hr : 5 ≤ h.byReturn.length) : (headerBytes h).length = 227 := by
  rw [headerBytes_eq, List.length_flatten, fieldsG_lengths hs hr]; rfl

theorem slice_flatten (l : List (List Byte)) : ∀ (i : Nat) (bs : List Byte), l[i]? = some bs →
    slice l.flatten ((l.map List.length).take i).sum bs.length = bs := by
  induction l with
  | nil => intro i bs h; simp at h
  | cons a l ih =>
    intro i bs h
    cases i with
    | zero =>
      simp at h; subst h
      simp [slice]
    | succ i =>
      simp only [List.getElem?_cons_succ] at h
      have := ih i bs h
      rw [List.flatten_cons, List.map_cons, List.take_succ_cons, List.sum_cons, slice_append_right (by omega)]
      rw [Nat.add_sub_cancel_left]
      exact this

/-- Reading field `i` of the block. -/
theorem field_at {h : Header} (hs : h.Sized) (hr : 5 ≤ h.byReturn.length) (i : Nat) (bs : List Byte)
    (hi : (fieldsG h)[i]? = some bs) (off k : Nat)
    (hoff : (([4, 4, 16, 1, 1, 32, 32, 2, 2, 2, 4, 4, 1, 2, 4, 20, 8, 8, 8, 8, 8, 8, 8, 8, 8, 8, 8, 8] : List Nat).take i).sum = off)
    (hk : ([4, 4, 16, 1, 1, 32, 32, 2, 2, 2, 4, 4, 1, 2, 4, 20, 8, 8, 8, 8, 8, 8, 8, 8, 8, 8, 8, 8] : List Nat)[i]? = some k) :
    slice (headerBytes h) off k = bs := by
  have h1 := slice_flatten (fieldsG h) i bs hi
  have h2 : ((fieldsG h).map List.length)[i]? = some bs.length := by rw [List.getElem?_map, hi]; rfl
  rw [fieldsG_lengths hs hr] at h1 h2
  rw [h2] at hk
  cases hk
  rw [headerBytes_eq, ← hoff]; exact h1

theorem overlay_mid {a x b y : List Byte} (h : x.length = y.length) (hy : y ≠ []) :
    overlay (a ++ x ++ b) a.length y = a ++ y ++ b := by
  unfold overlay
  rw [if_neg hy]
  simp only [List.append_assoc, List.take_left']
  simp
  simp [← h]

/-- Prefix of `fieldsG` up to but not including field `i`, flattened, and the rest. -/
theorem overlay_flatten (l : List (List Byte)) (i : Nat) (x y : List Byte) (hi : l[i]? = some x) (h : x.length = y.length)
    (hy : y ≠ []) : overlay l.flatten ((l.map List.length).take i).sum y = (l.set i y).flatten := by
  have hlt : i < l.length := (List.getElem?_eq_some_iff.1 hi).1
  have e1 : l = l.take i ++ [x] ++ l.drop (i + 1) := by
    conv_lhs => rw [← List.take_append_drop (i + 1) l]
    rw [List.take_succ, hi]; simp
  have e2 : l.set i y = l.take i ++ [y] ++ l.drop (i + 1) := by
    rw [List.set_eq_take_append_cons_drop, if_pos hlt]; simp
  have e3 : ((l.map List.length).take i).sum = (l.take i).flatten.length := by
    rw [← List.map_take, List.length_flatten]
  rw [e2, e3]
  conv_lhs => rw [e1]
  simp only [List.flatten_append, List.flatten_cons, List.flatten_nil, List.append_nil]
  rw [List.take_append_of_le_length (by simp; omega), List.take_append_of_le_length (by simp; omega),
    List.take_take, Nat.min_self]
  exact overlay_mid h hy

theorem headerBytes_setOffset {h : Header} (hs : h.Sized) (hr : 5 ≤ h.byReturn.length) (d : BitVec 32) :
    overlay (headerBytes h) 96 (put 4 d) = headerBytes { h with dataOffset := d } := by
  have := overlay_flatten (fieldsG h) 10 (put 4 h.dataOffset) (put 4 d) rfl (by simp [put_length])
    (by intro hh; have := congrArg List.length hh; simp [put_length] at this)
  rw [fieldsG_lengths hs hr] at this
  rw [headerBytes_eq, headerBytes_eq]
  exact this

theorem headerBytes_setCount {h : Header} (hs : h.Sized) (hr : 5 ≤ h.byReturn.length) (d : BitVec 32) :
    overlay (headerBytes h) 107 (put 4 d) = headerBytes { h with pointCount := d } := by
  have := overlay_flatten (fieldsG h) 14 (put 4 h.pointCount) (put 4 d) rfl (by simp [put_length])
    (by intro hh; have := congrArg List.length hh; simp [put_length] at this)
  rw [fieldsG_lengths hs hr] at this
  rw [headerBytes_eq, headerBytes_eq]
  exact this

end LibLAS
