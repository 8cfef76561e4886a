import Verif.Props.Reading
import Verif.Lemmas.ResetRun
/-
C26.
-/
namespace LibLAS
open Spec HeaderReader Point

theorem callRun_append (env : Env) (bld : Build) (cs ds : List Call) : ∀ (r : Reader),
    callRun env bld r (cs ++ ds) = (callRun env bld r cs >>= fun r => callRun env bld r ds) := by
  induction cs with
  | nil => intro r; rfl
  | cons c cs ih =>
    intro r
    cases c with
    | op o => exact ih _
    | reset =>
      show (match r.reset env bld with | .ok r => callRun env bld r (cs ++ ds) | .throw e => .throw e | .ub => .ub) = _
      rw [callRun]
      rcases r.reset env bld with a | e | _
      · exact ih a
      · rfl
      · rfl

/-- C26, points: after any history of calls and resets, a reset succeeds, and from then on every sequence of calls gives
the results and points that it gives on a reader just opened (with the filters and transforms that are in force).
Proved for files that hold all their point records, whose header has a finite scale and offset and no readable schema
record (files written by libLAS never have one). The header is `reset_header_partial`. -/
theorem reset_points_partial {env : Env} {today : BitVec 16 × BitVec 16} {b : List Byte} {r₀ : Reader} (bld : Build)
    (hb : 227 ≤ b.length) (hr : Reader.make env today (IStream.onFile b) = .ok r₀) (hv : NoSchema env r₀.hdr.vlrs)
    (hl : 0 < r₀.hdr.dataRecordLength) (hfin : FiniteScaling r₀.hdr)
    (hin : r₀.hdr.dataOffset.toNat + r₀.hdr.pointCount.toNat * r₀.hdr.dataRecordLength ≤ b.length)
    (cs : List Call) (hcs : ∀ c ∈ cs, c.Benign) :
    ∃ r, callRun env bld r₀ (cs ++ [.reset]) = .ok r ∧
      ∀ ops : List ReadOp, (∀ o ∈ ops, o.Benign) →
        reports r ops = reports { r₀ with filter := r.filter, xform := r.xform } ops := by
  have hs := hfin.same
  obtain ⟨f, hB, hJ⟩ := open_reread hb hr hv hl
  have hop := open_file hb hr hv
  obtain ⟨r1, e1, hJ1⟩ := run_reread bld hB cs hJ hs hcs
  obtain ⟨r, e2, hJ2, g1, g2, g3, g4⟩ := hJ1.reset bld hB (hJ.scaling hJ1 hs)
  refine ⟨r, ?_, fun ops hops => ?_⟩
  · rw [callRun_append, e1]
    show callRun env bld r1 [.reset] = _
    rw [callRun, e2]; rfl
  have ho := hJ.ready.on
  have hr0 : Reader.Ready { r₀ with filter := r.filter, xform := r.xform } b _ _ _ :=
    ⟨⟨ho.buf, ho.dataOffset, ho.recordSize, ho.recordLength, ho.point, ho.size, ho.count, ho.pos⟩, hJ2.ready.keeps⟩
  have hin' : (got 32 (slice b 96 4)).toNat + (got 32 (slice b 107 4)).toNat * (got 16 (slice b 105 2)).toNat ≤ b.length := by
    rw [← hop.dataOffset, ← hop.pointCount, ← hop.recordLength]; exact hin
  have hag : HAgree r₀.hdr r.hdr :=
    ⟨by rw [hJ.hdr, hJ2.hdr], by rw [hJ.hdr, hJ2.hdr], by show r.hdr.schema.dataRecordLength = r₀.hdr.schema.dataRecordLength; rw [hJ.len, hJ2.len]⟩
  have := reports_point (h := r.hdr) hin' ops (r := { r₀ with filter := r.filter, xform := r.xform }) (k := 0) (p := r.point)
    hr0 hag ⟨hop.current, fun h => absurd rfl h⟩ hJ2.ready.on.point hops
  rw [← this]
  congr 1
  have e : r = ⟨r.ifs, r.hdr, r.size, r.current, r.recordSize, r.point, r.filter, r.xform⟩ := rfl
  rw [e]
  congr 1
  · rw [g1, hop.ifs]
  · rw [hJ2.ready.on.size]; exact ho.size.symm
  · rw [g2]; exact hop.current.symm
  · rw [hJ2.ready.on.recordSize]; exact ho.recordSize.symm

/-- C26, header, exactly: after `k` resets (and any other calls) the header is the one of the opened file except that
every variable record is there `k + 1` times, the spatial reference is that of those records, and the schema object may
number its dimensions differently (it has the same format and length); what points take from the header is the same. -/
theorem reset_header_partial {env : Env} {today : BitVec 16 × BitVec 16} {b : List Byte} {r₀ : Reader} (bld : Build)
    (hb : 227 ≤ b.length) (hr : Reader.make env today (IStream.onFile b) = .ok r₀) (hv : NoSchema env r₀.hdr.vlrs)
    (hl : 0 < r₀.hdr.dataRecordLength) (hfin : FiniteScaling r₀.hdr)
    (cs : List Call) (hcs : ∀ c ∈ cs, c.Benign) :
    ∃ r, callRun env bld r₀ cs = .ok r ∧
      r.hdr = { r₀.hdr with
        vlrs := (List.replicate (resets cs + 1) r₀.hdr.vlrs).flatten
        srs := (List.replicate (resets cs + 1) r₀.hdr.vlrs).flatten.filter VLR.isGeo
        schema := r.hdr.schema } ∧
      r.hdr.schema.fmt = r₀.hdr.schema.fmt ∧ r.hdr.dataRecordLength = r₀.hdr.dataRecordLength ∧
      r.hdr.toP = r₀.hdr.toP := by
  have hs := hfin.same
  obtain ⟨f, hB, hJ⟩ := open_reread hb hr hv hl
  obtain ⟨r1, e1, hJ1⟩ := run_reread bld hB cs hJ hs hcs
  rw [Nat.zero_add] at hJ1
  have hlen : r1.hdr.dataRecordLength = r₀.hdr.dataRecordLength := by
    show r1.hdr.schema.dataRecordLength = r₀.hdr.schema.dataRecordLength; rw [hJ1.len, hJ.len]
  have hsc : r1.hdr.scale = r₀.hdr.scale ∧ r1.hdr.offset = r₀.hdr.offset := by
    rw [hJ1.hdr, hJ.hdr]; exact ⟨rfl, rfl⟩
  refine ⟨r1, e1, ?_, by rw [hJ1.fmt, hJ.fmt], hlen, ?_⟩
  swap
  · unfold Header.toP
    rw [hlen, hJ1.fmt, hJ.fmt, hJ1.named.1, hJ1.named.2, hJ.named.1, hJ.named.2, hsc.1, hsc.2]
  generalize r₀.hdr.vlrs = l at *
  conv_lhs => rw [hJ1.hdr]
  rw [hJ.hdr]

/-- The file of five points of C23, with one more variable record. -/
def resetSample : Outcome Reader := Reader.make plainEnv (1, 2000) (IStream.onFile (sampleFile fivePoints))

/-- The hypotheses of `reset_points_partial` are met by a file of five points with a variable record; the history reads
two points, resets, and sets a filter. -/
example : ∃ r, resetSample = .ok r ∧ 227 ≤ (sampleFile fivePoints).length ∧ 0 < r.hdr.dataRecordLength ∧
    r.hdr.vlrs.find? VLR.isSchema = none ∧ r.hdr.vlrs ≠ [] ∧
    r.hdr.dataOffset.toNat + r.hdr.pointCount.toNat * r.hdr.dataRecordLength ≤ (sampleFile fivePoints).length ∧
    ([r.hdr.scale.x, r.hdr.scale.y, r.hdr.scale.z, r.hdr.offset.x, r.hdr.offset.y, r.hdr.offset.z].all fun v =>
      match Fl.ofBits v with | .fin _ => true | _ => false) = true :=
  Outcome.exists_of_check (by decide +kernel)

/-- A reader just opened, and the same after a history, for examples. -/
def openAnd (file : List Byte) (cs : List Call) : Outcome (Reader × Reader) := do
  let r ← Reader.make plainEnv (1, 2000) (IStream.onFile file)
  let r' ← callRun plainEnv ⟨.little, false⟩ r cs
  .ok (r, r')

/-- C26 refuted for the variable records: one reset of a file with one record, and the header lists it twice. -/
theorem reset_doubles_records : ∃ x, openAnd (sampleFile fivePoints) [.reset] = .ok x ∧
    x.1.hdr.vlrs.length = 1 ∧ x.2.hdr.vlrs = x.1.hdr.vlrs ++ x.1.hdr.vlrs :=
  Outcome.exists_of_check (by decide +kernel)

/-- C26 refuted for truncated files: the point a reset reader "reads" at a missing position has bytes of the point read
before the reset, where a fresh reader gives zeros. -/
theorem reset_truncated : ∃ x, openAnd ((sampleFile fivePoints).take (227 + 57 + 28 + 2)) [.op .next, .reset] = .ok x ∧
    reports x.1 [.at 4] = [(.ok true, some (List.replicate 28 0#8))] ∧
    reports x.2 [.at 4] = [(.ok true, some (List.replicate 28 1#8))] :=
  Outcome.exists_of_check (by decide +kernel)

/-- The theorem at work: after reading, seeking and resetting twice the first three calls are those of a fresh reader. -/
example : ∃ x, openAnd (sampleFile fivePoints) [.op .next, .op (.seek 3), .reset, .op (.at 2), .reset] = .ok x ∧
    reports x.2 [.next, .at 4, .seek 9] =
      [(.ok true, some (List.replicate 28 1#8)), (.ok true, some (List.replicate 28 5#8)), (.throw .runtimeError, none)] :=
  Outcome.exists_of_check (by decide +kernel)

/-- Filters and transforms survive a reset. -/
theorem reset_settings {env : Env} {bld : Build} {r r' : Reader} (h : r.reset env bld = .ok r') :
    r'.filter = r.filter ∧ r'.xform = r.xform := by
  unfold Reader.reset at h
  obtain ⟨⟨s, g⟩, -, h⟩ := bind_eq_ok h
  dsimp only at h
  split at h
  · cases h
  · obtain ⟨p, -, h⟩ := bind_eq_ok h
    injection h with h
    rw [← h]; exact ⟨rfl, rfl⟩

end LibLAS
