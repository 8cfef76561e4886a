import Verif.Lemmas.SchemaRead
import Verif.Props.Header
import Verif.Spec.KernelHeader
/-
What each step of the header editing of the applications does.
-/
namespace LibLAS
open Spec Schema

/-- The dimensions of a standard schema are all required ones. -/
theorem StdSchema.required {s : Schema} (h : StdSchema s) : ∀ d ∈ s.dims, d.required = true := by
  have hr : ∀ d ∈ stdL s.fmt, d.required = true := by
    have := h.1
    generalize s.fmt = f at this
    cases f <;> first | (exact absurd this (by decide)) | decide +kernel
  have hc := h.2.1.core
  have hm : s.dims.map Dim.required = (stdL s.fmt).map Dim.required := by
    have := congrArg (List.map Dim.required) hc
    simpa [List.map_map, Function.comp_def, Dim.core] using this
  intro d hd
  have : d.required ∈ s.dims.map Dim.required := List.mem_map_of_mem hd
  rw [hm] at this
  obtain ⟨e, he, hee⟩ := List.mem_map.1 this
  rw [← hee, hr e he]

theorem StdSchema.noUser {s : Schema} (h : StdSchema s) :
    (IndexMap.byPosition s.dims).filter (fun d => !d.required) = [] := by
  rw [List.filter_eq_nil_iff]
  intro d hd
  unfold IndexMap.byPosition at hd
  rw [List.mem_insertionSort] at hd
  simp [h.required d hd]

theorem StdSchema.plain {s : Schema} (h : StdSchema s) : s.isCustom = false := by
  unfold Schema.isCustom
  rw [← Bool.not_eq_true, List.any_eq_true]
  rintro ⟨d, hd, hn⟩
  have : d ∈ (IndexMap.byPosition s.dims).filter (fun d => !d.required) := List.mem_filter.2 ⟨hd, hn⟩
  rw [h.noUser] at this
  cases this

/-- The new format of a standard schema. -/
theorem StdSchema.setDataFormatId {s : Schema} (h : StdSchema s) {f : PointFormat} (hf : f.std = true) :
    ∃ s', s.setDataFormatId f = (s', .ok ()) ∧ StdSchema s' ∧ s'.fmt = f := by
  obtain ⟨s', a, b, c, d⟩ := setDataFormatId_noUser f hf h.noUser
  refine ⟨s', a, ⟨by rw [c]; exact hf, by rw [c]; exact b, ?_⟩, c⟩
  rw [d]
  cases f <;> first | (exact absurd hf (by decide)) | decide +kernel

namespace Kernel
variable {q : HeaderRequest} {files : List Byte → Option (List Byte)} {o : HeaderOpts}

private theorem cstr_short {n : Nat} {t : List Byte} (h : shortText n t) : cstr t = t := by
  unfold cstr
  have := List.takeWhile_append_of_pos (p := (· != 0#8)) (l₁ := t) (l₂ := []) (by
    intro x hx
    simp only [bne_iff_ne, ne_eq]
    rintro rfl
    exact h.2 hx)
  simpa using this

private theorem number_small {w : Word} {n : Nat} (h : Word.isNumber w n) (hn : n < 2 ^ 31) : w.int.toInt = n ∧ w.int.toNat = n := by
  unfold Word.isNumber at h
  rw [h]
  have : (BitVec.ofNat 32 n).toNat = n := by rw [BitVec.toNat_ofNat]; exact Nat.mod_eq_of_lt (by omega)
  refine ⟨?_, this⟩
  rw [BitVec.toInt_eq_toNat_cond, this, if_pos (by omega)]

theorem editOffset_eq (hq : q.Asked files o) (h : Header) :
    editOffset o.offset h = .ok { h with offset := q.offset.getD h.offset } := by
  have := hq.offset
  unfold editOffset
  cases hv : q.offset with
  | none => rw [hv] at this; simp only at this; rw [this]; rfl
  | some v =>
    rw [hv] at this
    obtain ⟨a, b, c, e, ha, hb, hc, ea, eb, ec⟩ := this
    rw [e]
    simp [ha, hb, hc, ea, eb, ec]

theorem editScale_eq (hq : q.Asked files o) (h : Header) :
    editScale o.scale h = .ok { h with scale := q.scale.getD h.scale } := by
  unfold editScale
  rw [hq.scale]
  cases q.scale <;> rfl

theorem editVersion_eq (hq : q.Asked files o) (h : Header) :
    editVersion o.fileFormat h = .ok { h with verMinor := (q.version.map (BitVec.ofNat 8)).getD h.verMinor } := by
  have := hq.version
  unfold editVersion
  cases hv : q.version with
  | none => rw [hv] at this; simp only at this; rw [this]; rfl
  | some m =>
    rw [hv] at this
    obtain ⟨hm, a, b, e, -, hb⟩ := this
    rw [e]
    obtain ⟨h1, h2⟩ := number_small hb (by omega)
    have h3 : b.int.setWidth 8 = BitVec.ofNat 8 m := by
      apply BitVec.eq_of_toNat_eq
      rw [BitVec.toNat_setWidth, h2, BitVec.toNat_ofNat]
    have h4 : (BitVec.ofNat 8 m).toNat = m := by rw [BitVec.toNat_ofNat]; exact Nat.mod_eq_of_lt (by omega)
    simp only
    rw [if_neg (by rw [h1]; omega)]
    unfold Header.setVersionMinor
    rw [h3, if_neg (by omega)]
    rfl

theorem editFormat_eq (hq : q.Asked files o) {h : Header} (hs : StdSchema h.schema) :
    ∃ s, editFormat o.pointFormat h = .ok { h with schema := s } ∧ StdSchema s ∧ s.fmt = q.format.getD h.schema.fmt := by
  have := hq.format
  unfold editFormat
  cases hv : q.format with
  | none => rw [hv] at this; simp only at this; rw [this]; exact ⟨_, rfl, hs, rfl⟩
  | some f =>
    rw [hv] at this
    obtain ⟨n, e, hm⟩ := this
    rw [e]
    have key : ¬ 3 < (BitVec.ofNat 32 n).toNat ∧ f.std = true ∧
        (if BitVec.ofNat 32 n = 0 then PointFormat.f0 else if BitVec.ofNat 32 n = 1 then .f1 else if BitVec.ofNat 32 n = 2 then .f2 else .f3) = f := by
      simp only [List.mem_cons, Prod.mk.injEq, List.not_mem_nil, or_false] at hm
      rcases hm with ⟨rfl, rfl⟩ | ⟨rfl, rfl⟩ | ⟨rfl, rfl⟩ | ⟨rfl, rfl⟩ <;> decide
    obtain ⟨k1, k2, k3⟩ := key
    simp only
    rw [if_neg k1, k3]
    obtain ⟨s', a, b, c⟩ := hs.setDataFormatId k2
    refine ⟨s', ?_, b, c⟩
    unfold Header.setDataFormatId
    rw [a]
    rfl

theorem editCreation_eq (today : BitVec 16 × BitVec 16) (hq : q.Asked files o) (h : Header) :
    editCreation today o.fileCreation h = .ok { h with
      doy := (q.date.map fun d => BitVec.ofNat 16 d.1).getD h.doy
      year := (q.date.map fun d => BitVec.ofNat 16 d.2).getD h.year } := by
  have := hq.date
  unfold editCreation
  cases hv : q.date with
  | none => rw [hv] at this; simp only at this; rw [this]; rfl
  | some d =>
    obtain ⟨d, y⟩ := d
    rw [hv] at this
    obtain ⟨hd, hy, a, b, e, ha, hb⟩ := this
    rw [e]
    obtain ⟨a1, a2⟩ := number_small ha (by omega)
    obtain ⟨b1, b2⟩ := number_small hb (by omega)
    simp only
    rw [if_neg (by rw [a1]; omega), if_neg (by rw [b1]; omega)]
    have e1 : a.int.setWidth 16 = BitVec.ofNat 16 d := by
      apply BitVec.eq_of_toNat_eq
      rw [BitVec.toNat_setWidth, a2, BitVec.toNat_ofNat]
    have e2 : b.int.setWidth 16 = BitVec.ofNat 16 y := by
      apply BitVec.eq_of_toNat_eq
      rw [BitVec.toNat_setWidth, b2, BitVec.toNat_ofNat]
    rw [e1, e2]
    rfl

private theorem recordIdOf_eq {w : Word} {n : Nat} (h : Word.isNumber w n) (hn : n ≤ 65535) :
    recordIdOf w = .ok (BitVec.ofNat 16 n) := by
  obtain ⟨a1, a2⟩ := number_small h (by omega)
  unfold recordIdOf
  rw [if_neg (by rw [a1]; omega), if_neg (by rw [a1]; omega)]
  congr 1
  apply BitVec.eq_of_toNat_eq
  rw [BitVec.toNat_setWidth, a2, BitVec.toNat_ofNat]

private theorem deletePairs_eq (ws : List Word) (ps : List (List Byte × Nat)) (h : Header) (hp : arePairs ws ps) :
    ws.length % 2 = 0 ∧ ∃ c, deletePairs ws h = .ok { h with
      vlrs := h.vlrs.filter fun v => decide ((v.getUserId false, v.recordId.toNat) ∉ ps)
      recordsCount := c } := by
  induction ps generalizing ws h with
  | nil =>
    cases ws with
    | nil => exact ⟨rfl, h.recordsCount, by simp [deletePairs]⟩
    | cons w ws => cases ws <;> exact hp.elim
  | cons p ps ih =>
    rcases ws with _ | ⟨n, _ | ⟨i, ws⟩⟩
    · exact hp.elim
    · exact hp.elim
    · obtain ⟨hn, hi, hle, hp⟩ := hp
      unfold deletePairs
      rw [recordIdOf_eq hi hle]
      obtain ⟨e1, c, e2⟩ := ih ws (h.deleteVLRs n.text (BitVec.ofNat 16 p.2)) hp
      refine ⟨by simp only [List.length_cons]; omega, c, ?_⟩
      show deletePairs ws (h.deleteVLRs n.text (BitVec.ofNat 16 p.2)) = _
      rw [e2]
      unfold Header.deleteVLRs
      simp only [List.filter_filter]
      congr 2
      apply List.filter_congr
      intro v _
      have hid : (v.recordId = BitVec.ofNat 16 p.2) ↔ v.recordId.toNat = p.2 := by
        rw [← BitVec.toNat_inj, BitVec.toNat_ofNat, Nat.mod_eq_of_lt (by omega)]
      obtain ⟨p1, p2⟩ := p
      simp only at hn hid
      subst hn
      unfold VLR.same
      by_cases h1 : v.getUserId false = n.text <;> by_cases h2 : v.recordId.toNat = p2 <;>
        simp [h1, h2, hid, List.mem_cons]

theorem editDelete_eq (hq : q.Asked files o) (h : Header) : ∃ c, editDelete o.deleteVlr h = .ok { h with
      vlrs := h.vlrs.filter fun v => decide ((v.getUserId false, v.recordId.toNat) ∉ q.delete)
      recordsCount := c } := by
  have := hq.delete
  unfold editDelete
  cases hv : o.deleteVlr with
  | none =>
    rw [hv] at this
    simp only at this
    exact ⟨h.recordsCount, by simp [this]⟩
  | some ws =>
    rw [hv] at this
    obtain ⟨e1, c, e2⟩ := deletePairs_eq ws _ h this
    refine ⟨c, ?_⟩
    simp only
    rw [if_neg (by omega)]
    exact e2

theorem editAdd_eq (hq : q.Asked files o) (h : Header) : ∃ new c, editAdd files o.addVlr h = .ok { h with
      vlrs := h.vlrs ++ new
      recordsCount := c } ∧
    match q.add with
    | none => new = []
    | some n => ∃ v, new = [v] ∧ n.Is v := by
  have := hq.add
  unfold editAdd
  cases hv : q.add with
  | none => rw [hv] at this; simp only at this; rw [this]; exact ⟨[], h.recordsCount, by simp, rfl⟩
  | some n =>
    rw [hv] at this
    obtain ⟨s1, hid, s2, hlen, hne, a, b, c, d, e, ea, hb, ec, hd⟩ := this
    rw [e]
    obtain ⟨u1, u2, u3, u4, u5, u6⟩ := (vlr_user_id VLR.new a.text).1 (by rw [ea]; exact s1.1)
    obtain ⟨v1, v2, v3, v4, v5, v6⟩ := (vlr_description { (VLR.new.setUserId a.text).1 with recordId := BitVec.ofNat 16 n.id } c.text).1
      (by rw [ec]; exact s2.1)
    have hdata : recordData files d.text = .ok n.data := by
      unfold recordData
      rcases hd with ⟨h1, h2⟩ | h1
      · rw [h1]; simp [h2]
      · rw [h1]
        cases hnd : n.data with
        | nil => exact absurd hnd hne
        | cons x xs => rfl
    generalize hw : ({ (VLR.new.setUserId a.text).1 with recordId := BitVec.ofNat 16 n.id } : VLR).setDescription c.text = w at *
    have hbuild : buildRecord files a.text b (some c.text) d.text = .ok { w.1 with
        data := n.data
        recordSize := BitVec.ofNat 16 n.data.length } := by
      unfold buildRecord
      have e1 : changed (VLR.new.setUserId a.text) = .ok (VLR.new.setUserId a.text).1 := by
        generalize VLR.new.setUserId a.text = x at u1 ⊢
        obtain ⟨x, y⟩ := x
        simp only at u1
        subst u1
        rfl
      have e2 : changed w = .ok w.1 := by
        obtain ⟨x, y⟩ := w
        simp only at v1
        subst v1
        rfl
      rw [e1, recordIdOf_eq hb hid]
      simp only [Outcome.bind_ok]
      rw [hw, e2, hdata]
      simp only [Outcome.bind_ok]
      rw [if_neg (by omega)]
      rfl
    refine ⟨[{ w.1 with
        data := n.data
        recordSize := BitVec.ofNat 16 n.data.length }], h.recordsCount + 1, ?_, _, rfl, ?_⟩
    · simp only
      rw [hbuild]
      rfl
    · refine ⟨?_, ?_, ?_, rfl, ?_, ?_, ?_⟩
      · show w.1.getUserId false = n.name
        rw [v5]
        show (VLR.new.setUserId a.text).1.getUserId false = n.name
        rw [u2, ← cstr_eq, ea, cstr_short s1]
      · show w.1.recordId.toNat = n.id
        rw [v5]
        show (BitVec.ofNat 16 n.id).toNat = n.id
        rw [BitVec.toNat_ofNat, Nat.mod_eq_of_lt (by omega)]
      · show w.1.getDescription false = n.description
        rw [v2, ← cstr_eq, ec, cstr_short s2]
      · show w.1.userId.length = 16
        rw [v5]
        exact u6
      · exact v6
      · show (BitVec.ofNat 16 n.data.length).toNat = n.data.length
        rw [BitVec.toNat_ofNat, Nat.mod_eq_of_lt (by omega)]

theorem editSoftware_eq (hq : q.Asked files o) (h : Header) (hl : h.softwareId.length = 32) :
    ∃ t, editSoftware o.software h = .ok { h with softwareId := t } ∧ t.length = 32 ∧
      cstr t = q.software.getD (h.getSoftwareId false) := by
  obtain ⟨e, hs⟩ := hq.software
  unfold editSoftware
  rw [e]
  cases hv : q.software with
  | none => exact ⟨h.softwareId, rfl, hl, by simp [Header.getSoftwareId]⟩
  | some t =>
    have ht := hs t hv
    obtain ⟨u1, u2, -, -, u5, u6⟩ := (header_software_id h t).1 ht.1
    refine ⟨(h.setSoftwareId t).1.softwareId, ?_, u6, ?_⟩
    · rw [← u5]
      show HeaderReader.set (h.setSoftwareId t) = _
      generalize h.setSoftwareId t = x at u1 ⊢
      obtain ⟨x, y⟩ := x
      simp only at u1
      subst u1
      rfl
    · rw [← cstr_eq, cstr_short ht] at u2
      simpa [Header.getSoftwareId] using u2

theorem editSystem_eq (hq : q.Asked files o) (h : Header) (hl : h.systemId.length = 32) :
    ∃ t, editSystem o.system h = .ok { h with systemId := t } ∧ t.length = 32 ∧
      cstr t = q.system.getD (h.getSystemId false) := by
  obtain ⟨e, hs⟩ := hq.system
  unfold editSystem
  rw [e]
  cases hv : q.system with
  | none => exact ⟨h.systemId, rfl, hl, by simp [Header.getSystemId]⟩
  | some t =>
    have ht := hs t hv
    obtain ⟨u1, u2, -, -, u5, u6⟩ := (header_system_id h t).1 ht.1
    refine ⟨(h.setSystemId t).1.systemId, ?_, u6, ?_⟩
    · rw [← u5]
      show HeaderReader.set (h.setSystemId t) = _
      generalize h.setSystemId t = x at u1 ⊢
      obtain ⟨x, y⟩ := x
      simp only at u1
      subst u1
      rfl
    · rw [← cstr_eq, cstr_short ht] at u2
      simpa [Header.getSystemId] using u2

end Kernel
end LibLAS
