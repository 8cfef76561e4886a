import Verif.Lemmas.NewFile
import Verif.Spec.NewFile
/-
When the constructor of a writer succeeds on an empty file.
-/
namespace LibLAS
open Spec HeaderWriter

/-- The padding the writer computes. -/
theorem choosePadding_eq {h : Header} {v : Nat} (hv : h.headerSize.toNat + v + 4 < 2 ^ 31) (ho : h.dataOffset.toNat < 2 ^ 31)
    (hp : h.headerSize.toNat + v ≤ h.dataOffset.toNat → h.padding.toNat < 2 ^ 31) :
    ∃ pad : BitVec 32, choosePadding (h.dataOffset - (BitVec.ofNat 32 v + h.headerSize.setWidth 32)) (BitVec.ofNat 32 v) h.padding =
      .ok pad ∧ pad.toNat = fillerBytes h (h.headerSize.toNat + v) := by
  have hhs : (h.headerSize.setWidth 32).toNat = h.headerSize.toNat := by
    rw [BitVec.toNat_setWidth]; exact Nat.mod_eq_of_lt (by have := h.headerSize.isLt; omega)
  have hvn : (BitVec.ofNat 32 v).toNat = v := by rw [BitVec.toNat_ofNat]; exact Nat.mod_eq_of_lt (by omega)
  have hsum : (BitVec.ofNat 32 v + h.headerSize.setWidth 32).toNat = h.headerSize.toNat + v := by
    rw [BitVec.toNat_add, hhs, hvn, Nat.mod_eq_of_lt (by omega)]; omega
  generalize hx : h.dataOffset - (BitVec.ofNat 32 v + h.headerSize.setWidth 32) = ex
  have hex : ex.toNat = (2 ^ 32 - (h.headerSize.toNat + v) + h.dataOffset.toNat) % 2 ^ 32 := by
    rw [← hx, BitVec.toNat_sub, hsum]
  unfold choosePadding fillerBytes
  by_cases hc : h.headerSize.toNat + v ≤ h.dataOffset.toNat
  · have hp := hp hc
    have hexn : ex.toNat = h.dataOffset.toNat - (h.headerSize.toNat + v) := by rw [hex]; omega
    have hns : ¬ (ex.slt 0 = true) := by
      rw [BitVec.slt_iff_toInt_lt, BitVec.toInt_eq_toNat_of_lt (by omega)]; simp
    rw [if_neg hns, if_pos hc]
    dsimp only
    by_cases hpp : h.padding ≤ ex
    · have : h.padding.toNat ≤ h.dataOffset.toNat - (h.headerSize.toNat + v) := by
        rw [BitVec.le_def] at hpp; omega
      rw [if_pos hpp, if_pos this]
      exact ⟨_, rfl, hexn⟩
    · have : ¬ h.padding.toNat ≤ h.dataOffset.toNat - (h.headerSize.toNat + v) := by
        rw [BitVec.le_def] at hpp; omega
      rw [if_neg hpp, if_neg this]
      exact ⟨_, rfl, by rw [BitVec.toNat_add, hexn, Nat.mod_eq_of_lt (by omega)]⟩
  · have hexn : ex.toNat = 2 ^ 32 - (h.headerSize.toNat + v - h.dataOffset.toNat) := by rw [hex]; omega
    have hs : ex.slt 0 = true := by
      rw [BitVec.slt_iff_toInt_lt, BitVec.toInt_eq_toNat_cond, if_neg (by omega)]; simp; omega
    have hmin : ex ≠ BitVec.intMin 32 := by
      intro hh
      have := congrArg BitVec.toNat hh
      rw [hexn] at this
      simp at this
      omega
    have hneg : (-ex).toNat = h.headerSize.toNat + v - h.dataOffset.toNat := by
      rw [BitVec.toNat_neg, hexn]; omega
    rw [if_pos hs, if_neg hmin, if_neg hc]
    by_cases hlt : (-ex).slt (BitVec.ofNat 32 v) = true
    · rw [if_pos hlt]
      rw [BitVec.slt_iff_toInt_lt, BitVec.toInt_eq_toNat_of_lt (by omega), BitVec.toInt_eq_toNat_of_lt (by omega), hneg, hvn] at hlt
      exact ⟨_, rfl, by simp; omega⟩
    · rw [if_neg hlt]
      rw [BitVec.slt_iff_toInt_lt, BitVec.toInt_eq_toNat_of_lt (by omega), BitVec.toInt_eq_toNat_of_lt (by omega), hneg, hvn] at hlt
      refine ⟨_, rfl, ?_⟩
      rw [BitVec.toNat_sub, hneg, hvn]; omega

/-- The constructor of a writer on an empty file, for a header whose fixed-size fields have their sizes. -/
theorem make_new {env : Env} {h : Header} {l : List VLR} (hl : newVLRs env h = .ok l) (hr : 5 ≤ h.byReturn.length)
    (hv : h.headerSize.toNat + vlrTotal l + 4 < 2 ^ 31) (ho : h.dataOffset.toNat < 2 ^ 31)
    (hp : h.headerSize.toNat + vlrTotal l ≤ h.dataOffset.toNat → h.padding.toNat < 2 ^ 31) :
    if fillerBytes h (h.headerSize.toNat + vlrTotal l) ≤ 2 then
      ∃ w, Writer.make env (OStream.onFile []) h = .ok w ∧ w.hdr.vlrs = l
    else Writer.make env (OStream.onFile []) h = .ub := by
  obtain ⟨pad, hpad, hpn⟩ := choosePadding_eq hv ho hp
  rw [← hpn]
  have hlen := length_le_total l
  have hcnt : (BitVec.ofNat 32 l.length).toNat = l.length := by
    rw [BitVec.toNat_ofNat]; exact Nat.mod_eq_of_lt (by omega)
  have hbsn : (BitVec.ofNat 32 (vlrTotal l)).toNat = vlrTotal l := by
    rw [BitVec.toNat_ofNat]; exact Nat.mod_eq_of_lt (by omega)
  have hblk : ∀ g : Header, g.vlrs = l → g.recordsCount = BitVec.ofNat 32 l.length →
      g.vlrBlockSize = .ok (BitVec.ofNat 32 (vlrTotal l)) := by
    intro g g1 g2
    rw [vlrBlockSize_ok (by rw [g1, g2]; exact hcnt), g1]
  generalize hh2 : ({ h with
    vlrs := l
    recordsCount := BitVec.ofNat 32 l.length
    padding := pad
    dataOffset := h.headerSize.setWidth 32 + BitVec.ofNat 32 (vlrTotal l) + pad } : Header) = h2
  have e2 : h2.vlrs = l ∧ h2.recordsCount = BitVec.ofNat 32 l.length ∧ h2.padding = pad ∧ h2.byReturn = h.byReturn := by
    rw [← hh2]; exact ⟨rfl, rfl, rfl, rfl⟩
  have hmk : Writer.make env (OStream.onFile []) h = (do
      let s ← writeFields (OStream.onFile []) h2
      let (s, h) ← writeVLRs s h2
      let s ← writePadding s h
      let (s, h) ← writePadSignature s h
      pure ⟨finalSeek s 0 h, h, 0⟩) := by
    unfold Writer.make HeaderWriter.write
    have : ¬ (((OStream.onFile []).seekEnd 0).fail = false ∧ ((OStream.onFile []).seekEnd 0).pos ≠ 0) := by
      simp [OStream.onFile, OStream.seekEnd]
    dsimp only
    rw [if_neg this]
    unfold writeNew writeRest
    have e0 : (OStream.onFile []).seekEnd 0 = OStream.onFile [] := rfl
    rw [e0, prepareVLRs_eq, hl]
    simp only [Outcome.bind_ok]
    unfold prepareOffset
    rw [hblk _ rfl rfl]
    simp only [Outcome.bind_ok]
    rw [hpad]
    simp only [Outcome.bind_ok, Outcome.pure_eq]
    rw [hh2]
    cases writeFields (OStream.onFile []) h2 with
    | throw e => rfl
    | ub => rfl
    | ok s1 =>
      simp only [Outcome.bind_ok]
      cases writeVLRs s1 h2 with
      | throw e => rfl
      | ub => rfl
      | ok p =>
        obtain ⟨s2, h3⟩ := p
        simp only [Outcome.bind_ok]
        cases writePadding s2 h3 with
        | throw e => rfl
        | ub => rfl
        | ok s3 =>
          simp only [Outcome.bind_ok]
          cases writePadSignature s3 h3 with
          | throw e => rfl
          | ub => rfl
          | ok p => rfl
  rw [hmk]
  obtain ⟨s1, q1, f1, -⟩ := OStream.writeAll_ok (fields h2) (OStream.onFile []) rfl
  have hf : writeFields (OStream.onFile []) h2 = .ok s1 := by
    unfold writeFields; rw [if_neg (by rw [e2.2.2.2]; omega), q1]
  rw [hf]
  simp only [Outcome.bind_ok]
  -- the records
  have hvl : ∃ s2 h3, writeVLRs s1 h2 = .ok (s2, h3) ∧ s2.fail = false ∧ h3.vlrs = l ∧
      h3.recordsCount = BitVec.ofNat 32 l.length ∧ h3.padding = pad := by
    unfold writeVLRs
    rw [hblk h2 e2.1 e2.2.1]
    simp only [Outcome.bind_ok]
    have hro : ∃ s h3, raiseOffset (s1.seek h2.headerSize.toNat) h2 (BitVec.ofNat 32 (vlrTotal l) + h2.headerSize.setWidth 32) =
        .ok (s, h3) ∧ s.fail = false ∧ h3.vlrs = l ∧ h3.recordsCount = BitVec.ofNat 32 l.length ∧ h3.padding = pad := by
      unfold raiseOffset
      rw [OStream.seek_eq f1]
      split
      · obtain ⟨s', w1, w2, -⟩ := OStream.writeN_eq (s := { s1 with pos := 96 }) f1
          (put 4 (BitVec.ofNat 32 (vlrTotal l) + h2.headerSize.setWidth 32))
        rw [OStream.seek_eq (by exact f1)]
        dsimp only
        rw [w1]
        exact ⟨_, _, rfl, by rw [OStream.seek_eq w2]; exact w2, e2.1, e2.2.1, e2.2.2.1⟩
      · exact ⟨_, _, rfl, f1, e2.1, e2.2.1, e2.2.2.1⟩
    obtain ⟨s, h3, r1, r2, r3, r4, r5⟩ := hro
    rw [r1]
    simp only [Outcome.bind_ok]
    obtain ⟨s', w1, w2, -⟩ := OStream.writeAll_ok ((h3.vlrs.take h3.recordsCount.toNat).flatMap vlrFields) s r2
    rw [w1]
    exact ⟨_, _, rfl, w2, r3, r4, r5⟩
  obtain ⟨s2, h3, r1, f2, r3, r4, r5⟩ := hvl
  rw [r1]
  simp only [Outcome.bind_ok]
  by_cases h0 : pad.toNat ≤ 2
  · rw [if_pos h0]
    have hpd : ∃ s3, writePadding s2 h3 = .ok s3 ∧ s3.fail = false := by
      unfold writePadding
      rw [r5]
      split
      · rw [hblk h3 r3 r4]
        simp only [Outcome.bind_ok]
        rw [OStream.seekEnd_eq f2]
        obtain ⟨s', w1, w2, -⟩ := OStream.writeN_eq
          (s := { s2 with pos := s2.buf.length + (h3.headerSize.setWidth 32 + BitVec.ofNat 32 (vlrTotal l)).toNat }) f2
          (List.replicate pad.toNat 0#8)
        exact ⟨s', w1, w2⟩
      · exact ⟨_, rfl, f2⟩
    obtain ⟨s3, w3, f3⟩ := hpd
    rw [w3]
    simp only [Outcome.bind_ok]
    have hsg : ∃ s4 h4, writePadSignature s3 h3 = .ok (s4, h4) ∧ h4.vlrs = l := by
      unfold writePadSignature
      split
      · exact ⟨_, _, rfl, r3⟩
      · rw [hblk h3 r3 r4]
        simp only [Outcome.bind_ok]
        have hro : ∃ s h4, roomForSignature s3 h3 (BitVec.ofNat 32 (vlrTotal l) + h3.headerSize.setWidth 32) = .ok (s, h4) ∧
            s.fail = false ∧ h4.vlrs = l := by
          unfold roomForSignature
          split
          · obtain ⟨s', w1, w2, -⟩ := OStream.writeN_eq (s := { s3 with pos := 96 }) f3 (put 4 (h3.dataOffset + 2))
            rw [OStream.seek_eq f3]
            dsimp only
            rw [w1]
            exact ⟨_, _, rfl, w2, r3⟩
          · exact ⟨_, _, rfl, f3, r3⟩
        obtain ⟨s, h4, x1, x2, x3⟩ := hro
        rw [x1]
        simp only [Outcome.bind_ok]
        rw [OStream.seek_eq x2]
        obtain ⟨s', w1, -⟩ := OStream.writeAll_ok [[0xCC#8], [0xDD#8]] { s with pos := (h4.dataOffset - 2).toNat } x2
        rw [w1]
        exact ⟨_, _, rfl, x3⟩
    obtain ⟨s4, h4, w4, v4⟩ := hsg
    rw [w4]
    exact ⟨_, rfl, v4⟩
  · rw [if_neg h0]
    have : writePadding s2 h3 = .ub := by
      unfold writePadding
      rw [r5, if_pos (by omega), hblk h3 r3 r4]
      simp only [Outcome.bind_ok]
      rw [if_neg h0]
    rw [this]
    rfl

end LibLAS

namespace LibLAS
open Spec HeaderWriter

/-- The padding field of the writer's header. -/
theorem make_padding {env : Env} {h : Header} {l : List VLR} {w : Writer} (hl : newVLRs env h = .ok l)
    (hv : h.headerSize.toNat + vlrTotal l + 4 < 2 ^ 31) (ho : h.dataOffset.toNat < 2 ^ 31)
    (hp : h.headerSize.toNat + vlrTotal l ≤ h.dataOffset.toNat → h.padding.toNat < 2 ^ 31)
    (e : Writer.make env (OStream.onFile []) h = .ok w) :
    w.hdr.padding.toNat = fillerBytes h (h.headerSize.toNat + vlrTotal l) := by
  obtain ⟨pad, hpad, hpn⟩ := choosePadding_eq hv ho hp
  have hlen := length_le_total l
  have hcnt : (BitVec.ofNat 32 l.length).toNat = l.length := by
    rw [BitVec.toNat_ofNat]; exact Nat.mod_eq_of_lt (by omega)
  unfold Writer.make at e
  obtain ⟨⟨s5, c5, h5⟩, e0, ew⟩ := bind_eq_ok e
  simp only [Outcome.pure_eq, Outcome.ok.injEq] at ew
  have e1 : writeNew env (OStream.onFile []) 0 h = .ok (s5, c5, h5) := by
    unfold HeaderWriter.write at e0
    simpa [OStream.onFile, OStream.seekEnd] using e0
  unfold writeNew writeRest at e1
  rw [prepareVLRs_eq, hl] at e1
  simp only [Outcome.bind_ok] at e1
  unfold prepareOffset at e1
  rw [vlrBlockSize_ok (by exact hcnt)] at e1
  simp only [Outcome.bind_ok] at e1
  rw [hpad] at e1
  simp only [Outcome.bind_ok, Outcome.pure_eq] at e1
  obtain ⟨s1, -, e1⟩ := bind_eq_ok e1
  obtain ⟨⟨s2, h3⟩, ev, e1⟩ := bind_eq_ok e1
  dsimp only at e1
  obtain ⟨s3, -, e1⟩ := bind_eq_ok e1
  obtain ⟨⟨s4, h4⟩, es, e1⟩ := bind_eq_ok e1
  simp only [Outcome.ok.injEq, Prod.mk.injEq] at e1
  obtain ⟨-, -, rfl⟩ := e1
  have p3 : h3.padding = pad := by
    unfold writeVLRs at ev
    obtain ⟨b, _, ev⟩ := bind_eq_ok ev
    obtain ⟨⟨sa, ha⟩, er, ev⟩ := bind_eq_ok ev
    dsimp only at ev
    obtain ⟨sb, _, ev⟩ := bind_eq_ok ev
    simp only [Outcome.pure_eq, Outcome.ok.injEq, Prod.mk.injEq] at ev
    obtain ⟨_, rfl⟩ := ev
    unfold raiseOffset at er
    split at er
    · obtain ⟨sc, _, er⟩ := bind_eq_ok er
      simp only [Outcome.pure_eq, Outcome.ok.injEq, Prod.mk.injEq] at er
      obtain ⟨_, rfl⟩ := er
      rfl
    · simp only [Outcome.ok.injEq, Prod.mk.injEq] at er
      obtain ⟨_, rfl⟩ := er
      rfl
  have p4 : h4.padding = h3.padding := by
    unfold writePadSignature at es
    split at es
    · simp only [Outcome.ok.injEq, Prod.mk.injEq] at es
      obtain ⟨_, rfl⟩ := es
      rfl
    · obtain ⟨b, _, es⟩ := bind_eq_ok es
      obtain ⟨⟨sa, ha⟩, er, es⟩ := bind_eq_ok es
      dsimp only at es
      obtain ⟨sb, _, es⟩ := bind_eq_ok es
      simp only [Outcome.pure_eq, Outcome.ok.injEq, Prod.mk.injEq] at es
      obtain ⟨_, rfl⟩ := es
      unfold roomForSignature at er
      split at er
      · obtain ⟨sc, _, er⟩ := bind_eq_ok er
        simp only [Outcome.pure_eq, Outcome.ok.injEq, Prod.mk.injEq] at er
        obtain ⟨_, rfl⟩ := er
        rfl
      · simp only [Outcome.ok.injEq, Prod.mk.injEq] at er
        obtain ⟨_, rfl⟩ := er
        rfl
  rw [← ew]
  show h4.padding.toNat = _
  rw [p4, p3, hpn]

end LibLAS
