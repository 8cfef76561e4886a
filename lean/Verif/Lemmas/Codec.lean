import Verif.Model.Reader
import Verif.Lemmas.Stream
import Verif.Lemmas.Header
namespace LibLAS
open Spec

namespace IStream

theorem readN_drop {s : IStream} {old bs post : List Byte} (h1 : s.eof = false) (h2 : s.fail = false)
    (h3 : s.buf.drop s.pos = bs ++ post) (h4 : bs.length = old.length) :
    s.readN old = .ok (bs, { s with pos := s.pos + old.length }) ∧
      s.buf.drop (s.pos + old.length) = post := by
  have hl : (s.buf.drop s.pos).length = bs.length + post.length := by rw [h3, List.length_append]
  rw [List.length_drop] at hl
  constructor
  · by_cases h0 : old.length = 0
    · have hb : bs = [] := List.eq_nil_of_length_eq_zero (by omega)
      have ho : old = [] := List.eq_nil_of_length_eq_zero h0
      subst hb; subst ho
      simp [readN, read, h1, h2]
    · rw [readN_full h1 h2 (by omega)]
      have : slice s.buf s.pos old.length = bs := by
        unfold slice; rw [h3, ← h4, List.take_left']
        rfl
      rw [this]
  · rw [← List.drop_drop, h3, ← h4, List.drop_left']
    rfl

end IStream

/-- The bytes of one record in a file. -/
def vlrBytes (v : VLR) : List Byte := (HeaderWriter.vlrFields v).flatten

/-- A record as it comes back from a file: text fields are cut at their first NUL. -/
def VLR.canon (v : VLR) : VLR :=
  { v with userId := padTo 16 (cstr v.userId), description := padTo 32 (cstr v.description) }

/-- The invariant of a record object, and the stored length agrees with the data. -/
def VLR.WF (v : VLR) : Prop := v.userId.length = 16 ∧ v.description.length = 32 ∧ v.recordSize.toNat = v.data.length

theorem getUserId_true {v : VLR} (h : v.userId.length = 16) : v.getUserId true = padTo 16 (cstr v.userId) := padded_eq h

theorem getDescription_true {v : VLR} (h : v.description.length = 32) :
    v.getDescription true = padTo 32 (cstr v.description) := padded_eq h

theorem vlrBytes_eq {v : VLR} (h : v.WF) : vlrBytes v = (put 2 v.reserved ++ padTo 16 (cstr v.userId) ++ put 2 v.recordId ++
    put 2 v.recordSize ++ padTo 32 (cstr v.description)) ++ v.data := by
  unfold vlrBytes HeaderWriter.vlrFields
  rw [getUserId_true h.1, getDescription_true h.2.1]
  split
  · simp
  · have : v.data = [] := List.eq_nil_of_length_eq_zero (by omega)
    simp [this]

theorem vlrHead_length {v : VLR} (h : v.WF) : (put 2 v.reserved ++ padTo 16 (cstr v.userId) ++ put 2 v.recordId ++
    put 2 v.recordSize ++ padTo 32 (cstr v.description)).length = 54 := by
  have h1 := cstr_length_le v.userId
  have h2 := cstr_length_le v.description
  have h3 := h.1
  have h4 := h.2.1
  simp only [List.length_append, put_length]
  rw [padTo_length (by omega), padTo_length (by omega)]

theorem vlrBytes_length {v : VLR} (h : v.WF) : (vlrBytes v).length = v.totalSize := by
  rw [vlrBytes_eq h, List.length_append, vlrHead_length h]
  rfl

theorem put_got16 (v : BitVec 16) : got 16 (put 2 v) = v := got_put 2 v

theorem take_append_eq {a b : List Byte} {n : Nat} (h : a.length = n) : (a ++ b).take n = a := by
  subst h; simp

theorem drop_append_eq {a b : List Byte} {n : Nat} (h : a.length = n) : (a ++ b).drop n = b := by
  subst h; simp

/-- Reading back the records at the position where they were written. -/
theorem readVLRLoop_ok (vs : List VLR) : ∀ (_ : ∀ v ∈ vs, v.WF) (s : IStream) (h : Header) (old post : List Byte),
    s.eof = false → s.fail = false → old.length = 54 → s.buf.drop s.pos = vs.flatMap vlrBytes ++ post →
    HeaderReader.readVLRLoop old vs.length s h =
      .ok ({ s with pos := s.pos + (vs.map VLR.totalSize).sum },
        { h with vlrs := h.vlrs ++ vs.map VLR.canon, recordsCount := h.recordsCount + BitVec.ofNat 32 vs.length }) := by
  induction vs with
  | nil => intro _ s h old post h1 h2 h3 h4; simp [HeaderReader.readVLRLoop]
  | cons v vs ih =>
    intro hok s h old post h1 h2 h3 h4
    have hv := hok v (by simp)
    have hlen := vlrHead_length hv
    have hc1 := cstr_length_le v.userId
    have hc2 := cstr_length_le v.description
    have hv1 := hv.1
    have hv2 := hv.2.1
    have hv3 := hv.2.2
    rw [List.flatMap_cons, vlrBytes_eq hv] at h4
    generalize hH : (put 2 v.reserved ++ padTo 16 (cstr v.userId) ++ put 2 v.recordId ++
      put 2 v.recordSize ++ padTo 32 (cstr v.description)) = H at h4 hlen
    have h5 : s.buf.drop s.pos = H ++ (v.data ++ (vs.flatMap vlrBytes ++ post)) := by rw [h4]; simp
    obtain ⟨e1, d1⟩ := IStream.readN_drop (old := old) h1 h2 h5 (by omega)
    have f1 : got 16 (H.take 2) = v.reserved := by
      rw [← hH]; simp only [List.append_assoc]; rw [take_append_eq (put_length _ _)]; exact put_got16 _
    have f2 : (H.drop 2).take 16 = padTo 16 (cstr v.userId) := by
      rw [← hH]; simp only [List.append_assoc]
      rw [drop_append_eq (put_length _ _), take_append_eq (padTo_length (by omega))]
    have f3 : got 16 ((H.drop 18).take 2) = v.recordId := by
      have : H = (put 2 v.reserved ++ padTo 16 (cstr v.userId)) ++ (put 2 v.recordId ++
        (put 2 v.recordSize ++ padTo 32 (cstr v.description))) := by rw [← hH]; simp
      rw [this, drop_append_eq (by rw [List.length_append, put_length, padTo_length (by omega)]),
        take_append_eq (put_length _ _)]
      exact put_got16 _
    have f4 : got 16 ((H.drop 20).take 2) = v.recordSize := by
      have : H = (put 2 v.reserved ++ padTo 16 (cstr v.userId) ++ put 2 v.recordId) ++
        (put 2 v.recordSize ++ padTo 32 (cstr v.description)) := by rw [← hH]; simp
      rw [this, drop_append_eq (by simp only [List.length_append, put_length]; rw [padTo_length (by omega)]),
        take_append_eq (put_length _ _)]
      exact put_got16 _
    have f5 : (H.drop 22).take 32 = padTo 32 (cstr v.description) := by
      rw [← hH, drop_append_eq (by simp only [List.length_append, put_length]; rw [padTo_length (by omega)])]
      rw [List.take_of_length_le (by rw [padTo_length (by omega)])]
    have g1 : ∀ w : VLR, (w.setUserId (padTo 16 (cstr v.userId))).1 = { w with userId := padTo 16 (cstr v.userId) } := by
      intro w
      have hl : (padTo 16 (cstr v.userId)).length = 16 := padTo_length (by omega)
      unfold VLR.setUserId
      rw [if_neg (by omega)]
      simp [padTo]; omega
    have g2 : ∀ w : VLR, (w.setDescription (padTo 32 (cstr v.description))).1 =
        { w with description := padTo 32 (cstr v.description) } := by
      intro w
      have hl : (padTo 32 (cstr v.description)).length = 32 := padTo_length (by omega)
      unfold VLR.setDescription
      rw [if_neg (by omega)]
      simp [padTo]; omega
    have hdata : ∃ s', HeaderReader.readVLRData { s with pos := s.pos + old.length } v.recordSize.toNat =
          .ok (v.data, s') ∧
        s' = { s with pos := s.pos + v.totalSize } ∧ s'.buf.drop s'.pos = vs.flatMap vlrBytes ++ post := by
      unfold HeaderReader.readVLRData
      by_cases hz : v.recordSize.toNat > 0
      · rw [if_pos hz]
        obtain ⟨e2, d2⟩ := IStream.readN_drop (s := { s with pos := s.pos + old.length })
          (old := List.replicate v.recordSize.toNat 0#8) (bs := v.data) (post := vs.flatMap vlrBytes ++ post)
          h1 h2 d1 (by simp; omega)
        refine ⟨_, e2, ?_, ?_⟩
        · simp [VLR.totalSize]; omega
        · exact d2
      · rw [if_neg hz]
        have hd : v.data = [] := List.eq_nil_of_length_eq_zero (by omega)
        rw [hd] at d1
        refine ⟨_, by rw [hd], ?_, d1⟩
        simp [VLR.totalSize, hd]; omega
    obtain ⟨s', e2, hs', d2⟩ := hdata
    rw [List.length_cons, HeaderReader.readVLRLoop, e1]
    simp only [Outcome.bind_ok]
    rw [f1, f2, f3, f4, f5, e2]
    simp only [Outcome.bind_ok]
    rw [g1, g2, ih (fun w hw => hok w (by simp [hw])) s' _ H post (by rw [hs']; exact h1) (by rw [hs']; exact h2) hlen d2]
    rw [hs']
    congr 2
    · simp; omega
    · simp only [Header.addVLR, List.map_cons, List.append_assoc, List.singleton_append]
      congr 1
      rw [BitVec.add_assoc]
      congr 1
      rw [Nat.add_comm, BitVec.ofNat_add]
      rfl

end LibLAS
