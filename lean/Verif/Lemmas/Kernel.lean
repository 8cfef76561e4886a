import Verif.Model.Kernel
import Verif.Lemmas.RoundTrip
import Verif.Props.Summary
import Verif.Lemmas.FloatBits
/-
Fetching, repairing and rewriting the header of a file.
-/
namespace LibLAS
open Spec

/-- A header read from a file, with other bounds and counts by return. -/
structure Restated (h g : Header) : Prop where
  eq : g = { h with min := g.min, max := g.max, byReturn := g.byReturn }
  returns : 5 ≤ g.byReturn.length

/-- Writing back the header read from a file, with other bounds and counts by return. -/
theorem FileOf.rewrite {env : Env} {today : BitVec 16 × BitVec 16} {h : Header} {b : List Byte} {recs : List (List Byte)}
    (hf : FileOf env h b recs) (hns : NoSchema env h.vlrs) {r : Reader} (hr : Reopened env today b h r) {g : Header}
    (hg : Restated r.hdr g) :
    ∃ f, Kernel.rewriteHeader env g b = .ok f ∧ FileOf env g f recs ∧ NoSchema env g.vlrs ∧ f.length = b.length ∧
      g.dataRecordLength = h.dataRecordLength := by
  obtain ⟨srs, sch, e, hfmt⟩ := hr.hdr
  have hrd := hf.readable
  have hfmt := hfmt hns
  have hrl := hr.recordLength
  have eg := hg.eq
  have hret := hg.returns
  have hc1 := cstr_length_le h.systemId
  have hc2 := cstr_length_le h.softwareId
  have hsys := hrd.toSized.systemId
  have hsof := hrd.toSized.softwareId
  have hvl : g.vlrs = h.vlrs.map VLR.canon := by rw [eg, e]
  have hoff : g.dataOffset = h.dataOffset := by rw [eg, e]; rfl
  have hhs : g.headerSize = h.headerSize := by rw [eg, e]; rfl
  have hpc : g.pointCount = h.pointCount := by rw [eg, e]; rfl
  have hlen : g.dataRecordLength = h.dataRecordLength := by
    rw [← hrl]; show g.schema.dataRecordLength = r.hdr.schema.dataRecordLength; rw [eg]
  have hread : g.Readable := by
    refine ⟨?_, by rw [eg, e]; exact hrd.raw⟩
    constructor
    · constructor
      · rw [eg, e]; rfl
      · rw [eg, e]; simp [preHeader, HeaderWriter.guidBytes]
      · rw [eg, e]; exact padTo_length (by omega)
      · rw [eg, e]; exact padTo_length (by omega)
    · exact hret
    · rw [eg, e]; rfl
    · rw [eg, e]; rfl
    · rw [eg, e]; exact hrd.minor
    · rw [hhs, hoff]; exact hrd.offset
    · rw [eg, e]; show sch.fmt.std = true; rw [hfmt]; exact hrd.std
    · rw [hvl, List.length_map, ← hrd.count, eg, e]; rfl
    · rw [hvl]
      intro v hv
      obtain ⟨u, hu, rfl⟩ := List.mem_map.1 hv
      exact canon_wf (hrd.wf u hu)
  have hhl := headerBytes_length hread.toSized hret
  have hbl : 227 ≤ b.length := by
    have := congrArg List.length hf.block
    rw [slice_length, headerBytes_length hrd.toSized hrd.returns] at this; omega
  obtain ⟨s', f1, f2, f3, f4⟩ := OStream.writeAll_ok (HeaderWriter.fields g) ⟨b, 0, false, []⟩ rfl
  have hbuf : s'.buf = headerBytes g ++ b.drop 227 := by
    rw [f3]
    show overlay b 0 (headerBytes g) = _
    rw [overlay_zero (by omega), hhl]
  have hblen : s'.buf.length = b.length := by rw [hbuf, List.length_append, hhl, List.length_drop]; omega
  have hmake : Writer.make env (OStream.onFile b) g = .ok ⟨HeaderWriter.finalSeek s' g.pointCount g, g, g.pointCount⟩ := by
    unfold Writer.make HeaderWriter.write OStream.onFile
    rw [OStream.seekEnd_eq rfl]
    dsimp only
    rw [if_pos ⟨rfl, by omega⟩]
    unfold HeaderWriter.writeAppend HeaderWriter.writeFields
    rw [OStream.seek_eq rfl, if_neg (by omega)]
    dsimp only
    have f1' : OStream.writeAll { buf := b, pos := 0, fail := false, log := [] } (HeaderWriter.fields g) = .ok s' := f1
    rw [f1']
    rfl
  have hfs : (HeaderWriter.finalSeek s' g.pointCount g).fail = false ∧
      (HeaderWriter.finalSeek s' g.pointCount g).buf = s'.buf := by
    unfold HeaderWriter.finalSeek
    split
    · rw [OStream.seekEnd_eq f2]; exact ⟨f2, rfl⟩
    · rw [OStream.seek_eq f2]; exact ⟨f2, rfl⟩
  have hput : (put 4 g.pointCount).length = 4 := put_length _ _
  have hblock : slice s'.buf 0 227 = headerBytes g := by
    rw [hbuf, slice_append_left (by omega), ← hhl, slice_self]
  have hsame : headerBytes { g with pointCount := g.pointCount } = headerBytes g := rfl
  have hclose : (Writer.close ⟨HeaderWriter.finalSeek s' g.pointCount g, g, g.pointCount⟩).buf = overlay s'.buf 107 (put 4 g.pointCount) := by
    rw [close_buf hfs.1]; dsimp only; rw [hfs.2]
  have hslice : ∀ o k, 227 ≤ o → slice (overlay s'.buf 107 (put 4 g.pointCount)) o k = slice b o k := by
    intro o k ho
    rw [slice_overlay_after (by rw [hput]; omega), hbuf, slice_append_right (by omega), hhl]
    unfold slice
    rw [List.drop_drop, Nat.add_sub_cancel' ho]
  have hns' : NoSchema env g.vlrs := by
    rw [hvl]; unfold NoSchema; rw [schemaFromVLRs_canon]; exact hns
  refine ⟨_, by unfold Kernel.rewriteHeader; rw [hmake]; rfl, ?_, hns', ?_, hlen⟩
  · rw [hclose]
    constructor
    · exact hread
    · rw [hhs]; exact hf.size
    · rw [slice_overlay_block hblock hhl (by rw [hput]; omega), headerBytes_setCount hread.toSized hret]
    · rw [hhs, hvl, vlrTotal_canon, flatMap_canon hrd.wf, hslice _ _ hf.size]
      exact hf.records
    · exact Or.inl hns'
    · rw [hvl, hhs, hoff, vlrTotal_canon]; exact hf.fits
    · rw [hpc]; exact hf.count
    · rw [hlen]; exact hf.pos
    · rw [hlen]; exact hf.len
    · rw [hoff, hslice _ _ (by have := hf.fits; have := hf.size; omega)]
      exact hf.data
  · rw [hclose, overlay_length, hput]; split <;> omega

end LibLAS
