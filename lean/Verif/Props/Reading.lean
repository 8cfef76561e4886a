import Verif.Props.WriteRead
import Verif.Lemmas.Filtered
import Verif.Spec.Iterate
/-
C23, C24, C25, C28, C30.
-/
namespace LibLAS
open Spec

/-- The record length a reader works with is that of the schema; it must be positive and fit the 16-bit length field.
`opened_length` shows that this is so for every file with a positive record length and no schema record that can be
parsed. -/
structure SaneLength (r : Reader) : Prop where
  pos : 0 < r.hdr.schema.byteSize
  fits : r.hdr.schema.byteSize < 2 ^ 16

theorem opened_length {env : Env} {today : BitVec 16 × BitVec 16} {b : List Byte} {r : Reader} (hb : 227 ≤ b.length)
    (hr : Reader.make env today (IStream.onFile b) = .ok r) (hv : NoSchema env r.hdr.vlrs)
    (hl : leNat (slice b 105 2) ≠ 0) : SaneLength r ∧ r.hdr.dataRecordLength = leNat (slice b 105 2) := by
  have ho := open_file hb hr hv
  have hm := make_made hr
  have e : r.hdr.schema.byteSize = (got 16 (slice b 105 2)).toNat := by rw [← hm.recordSize, ho.recordSize]
  have e2 : (got 16 (slice b 105 2)).toNat = leNat (slice b 105 2) := by
    have hl2 : (slice b 105 2).length = 2 := slice_length_of_le (by omega)
    unfold got
    simp only [readScalar, swapN, memValue_little, BitVec.toNat_ofNat]
    have := leNat_lt (slice b 105 2)
    rw [hl2] at this
    exact Nat.mod_eq_of_lt this
  exact ⟨⟨by omega, by rw [e]; exact (got 16 (slice b 105 2)).isLt⟩, by rw [ho.recordLength, e2]⟩

theorem transformed_eq (r : Reader) : transformed r = r.xf := rfl

/-- C23: after any history of calls. -/
theorem random_access {env : Env} {today : BitVec 16 × BitVec 16} {b : List Byte} {r₀ : Reader}
    (hr : Reader.make env today (IStream.onFile b) = .ok r₀) (hs : SaneLength r₀)
    (ops : List ReadOp) (hops : ∀ op ∈ ops, op.Benign) (i : Nat) :
    let r := readRun r₀ ops
    let off := r₀.hdr.dataOffset.toNat
    let len := r₀.hdr.dataRecordLength
    let n := r₀.hdr.pointCount.toNat
    (i < n → off + (i + 1) * len ≤ b.length →
      (r.readAt i).2 = .ok true ∧ (r.readAt i).1.point = transformed r (record b off len i)) ∧
    (n ≤ i → r.readAt i = (r, .throw .outOfRange)) ∧
    (i < n → off + n * len ≤ b.length → r.filter = none →
      (r.seek i).2 = .ok true ∧ delivers (r.seek i).1 ((recordsFrom b off len i (n - i)).map (transformed r))) ∧
    r.seek n = (r, .ok false) ∧
    (n < i → r.seek i = (r, .throw .runtimeError)) := by
  obtain ⟨h1, h2, h3⟩ := (make_made hr).on hs.pos hs.fits
  have hrd := readRun_ready ops ⟨h1, h3⟩ hops
  have ho := hrd.on
  dsimp only
  generalize readRun r₀ ops = r at *
  generalize r₀.hdr.dataOffset.toNat = off at *
  generalize r₀.hdr.dataRecordLength = len at *
  generalize r₀.hdr.pointCount.toNat = n at *
  refine ⟨fun hi hin => ?_, fun hi => ?_, fun hi hin hf => ?_, ?_, fun hi => ?_⟩
  · have := Reader.readAt_hit ho hi hin
    rw [this]; exact ⟨rfl, rfl⟩
  · unfold Reader.readAt
    rw [if_pos (by rw [ho.count]; exact hi)]
  · rw [Reader.seek_hit ho hi]
    refine ⟨rfl, ?_⟩
    exact Reader.delivers_all hin (n - i) _ i
      ⟨rfl, ho.dataOffset, ho.recordSize, ho.recordLength, ho.point, ho.size, ho.count, ho.pos⟩
      ⟨rfl, fun _ => ⟨rfl, rfl, rfl⟩⟩ (by omega) hf hrd.keeps
  · unfold Reader.seek Reader.implSeek
    rw [if_pos ho.size]; rfl
  · unfold Reader.seek Reader.implSeek
    rw [if_neg (by rw [ho.size]; omega), if_pos (by rw [ho.size]; exact hi)]
    rfl

/-- C23, `operator[]`. -/
theorem subscript {env : Env} {today : BitVec 16 × BitVec 16} {b : List Byte} {r₀ : Reader}
    (hr : Reader.make env today (IStream.onFile b) = .ok r₀) (hs : SaneLength r₀)
    (ops : List ReadOp) (hops : ∀ op ∈ ops, op.Benign) (i : Nat) :
    let r := readRun r₀ ops
    (i < r₀.hdr.pointCount.toNat → r₀.hdr.dataOffset.toNat + (i + 1) * r₀.hdr.dataRecordLength ≤ b.length →
      (r.index i).2 = .ok (transformed r (record b r₀.hdr.dataOffset.toNat r₀.hdr.dataRecordLength i))) ∧
    (r₀.hdr.pointCount.toNat ≤ i → r.index i = (r, .throw .outOfRange)) := by
  obtain ⟨a1, a2, -⟩ := random_access hr hs ops hops i
  obtain ⟨h1, h2, h3⟩ := (make_made hr).on hs.pos hs.fits
  have ho := (readRun_ready ops ⟨h1, h3⟩ hops).on
  dsimp only at *
  refine ⟨fun hi hin => ?_, fun hi => ?_⟩
  · obtain ⟨c1, c2⟩ := a1 hi hin
    unfold Reader.index
    rw [if_neg (by rw [ho.count]; omega)]
    rcases hx : (readRun r₀ ops).readAt i with ⟨r', o⟩
    rw [hx] at c1 c2
    simp only at c1 c2
    subst c1
    simp only
    rw [c2]
  · unfold Reader.index
    rw [if_pos (by rw [ho.count]; exact hi)]

/-- A file with the given points, for examples: a format 1 file with one variable record. -/
def sampleFile (pts : List (List Byte)) : List Byte :=
  match session plainEnv [] sampleHeader pts with
  | .ok b => b
  | _ => []

/-- Five points of 28 bytes. -/
def fivePoints : List (List Byte) := (List.range 5).map fun i => List.replicate 28 (BitVec.ofNat 8 (i + 1))

/-- The hypotheses of C23 are met by a file of five points. -/
example : ∃ r, Reader.make plainEnv (1, 2000) (IStream.onFile (sampleFile fivePoints)) = .ok r ∧
    r.hdr.dataRecordLength = 28 ∧ r.hdr.pointCount.toNat = 5 ∧ 0 < r.hdr.schema.byteSize ∧ r.hdr.schema.byteSize < 2 ^ 16 ∧
    r.hdr.dataOffset.toNat + 5 * 28 = (sampleFile fivePoints).length :=
  Outcome.exists_of_check (by decide +kernel)

/-! C24 -/

theorem readRun_nexts {f : List Byte} {off len n : Nat} (hin : off + n * len ≤ f.length) :
    ∀ (k j : Nat) (r : Reader), j + k ≤ n → r.On f off len n → r.At off len j → r.filter = none → r.xform = none →
      (readRun r (List.replicate k .next)).On f off len n ∧ (readRun r (List.replicate k .next)).At off len (j + k) ∧
      (readRun r (List.replicate k .next)).filter = none ∧ (readRun r (List.replicate k .next)).xform = none := by
  intro k
  induction k with
  | zero => intro j r _ h1 h2 h3 h4; exact ⟨h1, h2, h3, h4⟩
  | succ k ih =>
    intro j r hk ho ha hf hx
    have hle : off + j * len + len ≤ f.length := by
      have : (j + 1) * len ≤ n * len := Nat.mul_le_mul_right _ (by omega)
      rw [Nat.succ_mul] at this; omega
    have hid : ∀ p, r.xf p = p := by intro p; unfold Reader.xf; rw [hx]
    have hstep := Reader.readNext_hit ho ha (by omega) hle (by unfold Reader.accepts; rw [hf])
    have e : readRun r (List.replicate (k + 1) .next) = readRun r.readNext.1 (List.replicate k .next) := rfl
    rw [e, hstep, show j + (k + 1) = j + 1 + k by omega]
    exact ih (j + 1) _ (by omega)
      ⟨rfl, ho.dataOffset, ho.recordSize, ho.recordLength, by rw [hid]; exact slice_length_of_le hle, ho.size, ho.count, ho.pos⟩
      ⟨rfl, fun _ => ⟨rfl, rfl, rfl⟩⟩ hf hx

/-- C24, what really happens: after `k` sequential reads and one random access to point `i`, the next sequential read
delivers point `i + 1`, not point `k` — unless no point had been read sequentially before, in which case it delivers
point 0. -/
theorem sequential_after_random_partial {env : Env} {today : BitVec 16 × BitVec 16} {b : List Byte} {r₀ : Reader}
    (hr : Reader.make env today (IStream.onFile b) = .ok r₀) (hs : SaneLength r₀)
    (hin : r₀.hdr.dataOffset.toNat + r₀.hdr.pointCount.toNat * r₀.hdr.dataRecordLength ≤ b.length)
    (k i : Nat) (hk : k < r₀.hdr.pointCount.toNat) (hi : i + 1 < r₀.hdr.pointCount.toNat) :
    let r := readRun r₀ (List.replicate k .next ++ [.at i])
    r.readNext.2 = .ok true ∧
    r.readNext.1.point = record b r₀.hdr.dataOffset.toNat r₀.hdr.dataRecordLength (if k = 0 then 0 else i + 1) := by
  obtain ⟨h1, h2, h3⟩ := (make_made hr).on hs.pos hs.fits
  obtain ⟨ho, ha, hf, hx⟩ := readRun_nexts hin k 0 r₀ (by omega) h1 h2 (make_made hr).filter (make_made hr).xform
  have e : readRun r₀ (List.replicate k .next ++ [.at i]) = ((readRun r₀ (List.replicate k .next)).readAt i).1 := by
    unfold readRun; rw [List.foldl_append]; rfl
  dsimp only
  rw [e]
  generalize readRun r₀ (List.replicate k .next) = r at *
  generalize r₀.hdr.dataOffset.toNat = off at *
  generalize r₀.hdr.dataRecordLength = len at *
  generalize r₀.hdr.pointCount.toNat = n at *
  have hid : ∀ p, r.xf p = p := by intro p; unfold Reader.xf; rw [hx]
  have hle : ∀ j, j < n → off + j * len + len ≤ b.length := by
    intro j hj
    have : (j + 1) * len ≤ n * len := Nat.mul_le_mul_right _ (by omega)
    rw [Nat.succ_mul] at this; omega
  have hrec : ∀ j, j < n → (record b off len j).length = len := fun j hj => slice_length_of_le (hle j hj)
  rw [Reader.readAt_hit ho (by omega) (by have := hle i (by omega); rw [Nat.succ_mul]; omega)]
  dsimp only
  rw [hid]
  have hon : Reader.On { r with ifs := ⟨b, off + (i + 1) * len, false, false⟩, point := record b off len i } b off len n :=
    ⟨rfl, ho.dataOffset, ho.recordSize, ho.recordLength, hrec i (by omega), ho.size, ho.count, ho.pos⟩
  have hacc : ∀ x : Reader, x.filter = none → x.accepts = true := by intro x hx; unfold Reader.accepts; rw [hx]
  by_cases hk0 : k = 0
  · subst hk0
    rw [Reader.readNext_hit (k := 0) hon ⟨ha.1, fun h => absurd rfl h⟩ (by omega) (hle 0 (by omega)) (hacc _ hf)]
    refine ⟨rfl, ?_⟩
    rw [if_pos rfl]; exact hid _
  · rw [if_neg hk0]
    have hcur : r.current = k := by rw [ha.1]; omega
    unfold Reader.readNext Reader.implReadNext
    dsimp only
    rw [if_neg (show ¬ r.current = 0 by rw [hcur]; exact hk0)]
    dsimp only
    rw [if_neg (show ¬ r.current ≥ r.size by rw [hcur, ho.size]; omega)]
    rw [Reader.readCounted_full hon rfl (hle (i + 1) hi)]
    dsimp only
    rw [if_pos (hacc _ (by exact hf)), Reader.transform_eq]
    exact ⟨rfl, hid _⟩

/-- C24 refuted: read point 0, look at point 2, read on — the file's point 3 is delivered instead of point 1. -/
theorem random_access_disturbs : ∃ r, Reader.make plainEnv (1, 2000) (IStream.onFile (sampleFile fivePoints)) = .ok r ∧
    (readRun r [.next]).readNext.1.point = List.replicate 28 2#8 ∧
    (readRun r [.next, .at 2]).readNext.1.point = List.replicate 28 4#8 :=
  Outcome.exists_of_check (by decide +kernel)

/-- C24, the remedy: seeking to `k` makes sequential reading continue with point `k`, whatever came before. -/
theorem seek_restores {env : Env} {today : BitVec 16 × BitVec 16} {b : List Byte} {r₀ : Reader}
    (hr : Reader.make env today (IStream.onFile b) = .ok r₀) (hs : SaneLength r₀)
    (hin : r₀.hdr.dataOffset.toNat + r₀.hdr.pointCount.toNat * r₀.hdr.dataRecordLength ≤ b.length)
    (ops : List ReadOp) (hops : ∀ op ∈ ops, op.Benign) (hf : (readRun r₀ ops).filter = none)
    (k : Nat) (hk : k < r₀.hdr.pointCount.toNat) :
    delivers (readRun r₀ (ops ++ [.seek k]))
      ((recordsFrom b r₀.hdr.dataOffset.toNat r₀.hdr.dataRecordLength k (r₀.hdr.pointCount.toNat - k)).map
        (transformed (readRun r₀ ops))) := by
  obtain ⟨-, -, h, -⟩ := random_access hr hs ops hops k
  have e : readRun r₀ (ops ++ [.seek k]) = ((readRun r₀ ops).seek k).1 := by
    unfold readRun; rw [List.foldl_append]; rfl
  rw [e]
  exact (h hk hin hf).2

/-! C25 -/

/-- All filters accept. -/
def acceptedBy (fs : List (List Byte → Bool)) (p : List Byte) : Bool := fs.all fun f => f p

private theorem filtered {env : Env} {today : BitVec 16 × BitVec 16} {b : List Byte} {r₀ : Reader}
    (hr : Reader.make env today (IStream.onFile b) = .ok r₀) (hs : SaneLength r₀)
    (htight : b.length = r₀.hdr.dataOffset.toNat + r₀.hdr.pointCount.toNat * r₀.hdr.dataRecordLength)
    (ops : List ReadOp) (hops : ∀ op ∈ ops, op.Benign) (fs : List (List Byte → Bool)) (hfs : fs ≠ [])
    (k : Nat) (hk : k < r₀.hdr.pointCount.toNat) :
    delivers (((readRun r₀ ops).setFilters fs).seek k).1
      ((lossy (acceptedBy fs) (recordsFrom b r₀.hdr.dataOffset.toNat r₀.hdr.dataRecordLength k
        (r₀.hdr.pointCount.toNat - k))).map (transformed (readRun r₀ ops))) := by
  obtain ⟨h1, h2, h3⟩ := (make_made hr).on hs.pos hs.fits
  have hrd := readStep_ready (op := .filters fs) (readRun_ready ops ⟨h1, h3⟩ hops) trivial
  have ho := hrd.on
  have e : readStep (readRun r₀ ops) (.filters fs) = (readRun r₀ ops).setFilters fs := rfl
  rw [e] at hrd ho
  have hfil : ((readRun r₀ ops).setFilters fs).filter = some (acceptedBy fs) := by
    unfold Reader.setFilters; dsimp only; rw [if_neg hfs]; rfl
  have hxf : ((readRun r₀ ops).setFilters fs).xf = transformed (readRun r₀ ops) := rfl
  rw [← hxf]
  generalize (readRun r₀ ops).setFilters fs = r at *
  rw [Reader.seek_hit ho hk]
  exact Reader.delivers_filtered htight _ _ k rfl (by omega)
    ⟨rfl, ho.dataOffset, ho.recordSize, ho.recordLength, ho.point, ho.size, ho.count, ho.pos⟩
    ⟨rfl, fun _ => ⟨rfl, rfl, rfl⟩⟩ hrd.keeps hfil

/-- C25, proved part: with any filters (and any transforms set before), reading from point `k` on delivers exactly the
accepted points in file order, provided the file ends with its last point record and NOT both records before the last
are rejected while the last is accepted. The other case is `filtered_reading_loses_last`; files with trailing bytes are
`filtered_reading_invents`. -/
theorem filtered_reading_partial {env : Env} {today : BitVec 16 × BitVec 16} {b : List Byte} {r₀ : Reader}
    (hr : Reader.make env today (IStream.onFile b) = .ok r₀) (hs : SaneLength r₀)
    (htight : b.length = r₀.hdr.dataOffset.toNat + r₀.hdr.pointCount.toNat * r₀.hdr.dataRecordLength)
    (ops : List ReadOp) (hops : ∀ op ∈ ops, op.Benign) (fs : List (List Byte → Bool)) (hfs : fs ≠ [])
    (k : Nat) (hk : k < r₀.hdr.pointCount.toNat)
    (hlast : ∀ pre x y z, recordsFrom b r₀.hdr.dataOffset.toNat r₀.hdr.dataRecordLength k (r₀.hdr.pointCount.toNat - k) =
      pre ++ [x, y, z] → acceptedBy fs z = true → acceptedBy fs x = true ∨ acceptedBy fs y = true) :
    delivers (((readRun r₀ ops).setFilters fs).seek k).1
      (((recordsFrom b r₀.hdr.dataOffset.toNat r₀.hdr.dataRecordLength k (r₀.hdr.pointCount.toNat - k)).filter
        (acceptedBy fs)).map (transformed (readRun r₀ ops))) := by
  rw [← lossy_keep _ _ hlast]
  exact filtered hr hs htight ops hops fs hfs k hk

/-- C25 refuted, exactly: when the two records before the last are rejected, the last one is never delivered, accepted
or not. -/
theorem filtered_reading_loses_last {env : Env} {today : BitVec 16 × BitVec 16} {b : List Byte} {r₀ : Reader}
    (hr : Reader.make env today (IStream.onFile b) = .ok r₀) (hs : SaneLength r₀)
    (htight : b.length = r₀.hdr.dataOffset.toNat + r₀.hdr.pointCount.toNat * r₀.hdr.dataRecordLength)
    (ops : List ReadOp) (hops : ∀ op ∈ ops, op.Benign) (fs : List (List Byte → Bool)) (hfs : fs ≠ [])
    (k : Nat) (hk : k < r₀.hdr.pointCount.toNat) (pre : List (List Byte)) (x y z : List Byte)
    (hrec : recordsFrom b r₀.hdr.dataOffset.toNat r₀.hdr.dataRecordLength k (r₀.hdr.pointCount.toNat - k) = pre ++ [x, y, z])
    (hx : acceptedBy fs x = false) (hy : acceptedBy fs y = false) :
    delivers (((readRun r₀ ops).setFilters fs).seek k).1
      ((pre.filter (acceptedBy fs)).map (transformed (readRun r₀ ops))) := by
  have := filtered hr hs htight ops hops fs hfs k hk
  rw [hrec, lossy_lose _ hx hy] at this
  exact this

/-- The same for a reader just opened, without a seek. -/
theorem filtered_reading_fresh_partial {env : Env} {today : BitVec 16 × BitVec 16} {b : List Byte} {r₀ : Reader}
    (hr : Reader.make env today (IStream.onFile b) = .ok r₀) (hs : SaneLength r₀)
    (htight : b.length = r₀.hdr.dataOffset.toNat + r₀.hdr.pointCount.toNat * r₀.hdr.dataRecordLength)
    (fs : List (List Byte → Bool)) (hfs : fs ≠ [])
    (hlast : ∀ pre x y z, recordsFrom b r₀.hdr.dataOffset.toNat r₀.hdr.dataRecordLength 0 r₀.hdr.pointCount.toNat =
      pre ++ [x, y, z] → acceptedBy fs z = true → acceptedBy fs x = true ∨ acceptedBy fs y = true) :
    delivers (r₀.setFilters fs)
      ((recordsFrom b r₀.hdr.dataOffset.toNat r₀.hdr.dataRecordLength 0 r₀.hdr.pointCount.toNat).filter (acceptedBy fs)) := by
  obtain ⟨h1, h2, h3⟩ := (make_made hr).on hs.pos hs.fits
  have hx := (make_made hr).xform
  have hfil : (r₀.setFilters fs).filter = some (acceptedBy fs) := by
    unfold Reader.setFilters; dsimp only; rw [if_neg hfs]; rfl
  have hid : ∀ l : List (List Byte), l.map (r₀.setFilters fs).xf = l := by
    intro l
    have : (r₀.setFilters fs).xf = id := by
      funext p; show (match r₀.xform with | none => p | some f => f p) = p; rw [hx]
    rw [this, List.map_id]
  have := Reader.delivers_filtered (q := acceptedBy fs) htight _ (r₀.setFilters fs) 0 rfl (by omega)
    ⟨h1.buf, h1.dataOffset, h1.recordSize, h1.recordLength, h1.point, h1.size, h1.count, h1.pos⟩
    ⟨h2.1, h2.2⟩ h3 hfil
  rw [hid, Nat.sub_zero, lossy_keep _ _ hlast] at this
  exact this

/-- The points a filtered reader delivers in its first calls, for examples. -/
def firstCalls : Nat → Reader → List (List Byte)
  | 0, _ => []
  | k + 1, r =>
    match r.readNext with
    | (r, .ok true) => r.point :: firstCalls k r
    | _ => []

/-- Three points, a filter that accepts the third only: nothing is delivered. -/
example : ∃ r, Reader.make plainEnv (1, 2000) (IStream.onFile (sampleFile (fivePoints.take 3))) = .ok r ∧
    firstCalls 5 (r.setFilters [fun p => p.head? == some 3#8]) = [] ∧
    firstCalls 5 (r.setFilters [fun p => p.head? == some 2#8]) = [List.replicate 28 2#8] ∧
    r.hdr.dataOffset.toNat + 3 * 28 = (sampleFile (fivePoints.take 3)).length :=
  Outcome.exists_of_check (by decide +kernel)

/-- C25 refuted for files with bytes behind the point records: when the last point is rejected the trailing bytes are
delivered as a point. -/
theorem filtered_reading_invents : ∃ r, Reader.make plainEnv (1, 2000)
      (IStream.onFile (sampleFile (fivePoints.take 3) ++ List.replicate 28 9#8)) = .ok r ∧
    r.hdr.pointCount.toNat = 3 ∧
    firstCalls 5 (r.setFilters [fun p => p.head? != some 3#8]) =
      [List.replicate 28 1#8, List.replicate 28 2#8, List.replicate 28 9#8] :=
  Outcome.exists_of_check (by decide +kernel)

/-! C28 -/

theorem visits_of_delivers : ∀ (ps : List (List Byte)) (r : Reader), delivers r ps →
    ∃ it, ReaderIter.start r = .ok it ∧ Visits it ps := by
  intro ps
  induction ps with
  | nil =>
    intro r h
    refine ⟨⟨none⟩, ?_, .done rfl⟩
    unfold ReaderIter.start ReaderIter.getval
    rcases hx : r.readNext with ⟨r', o⟩
    have : o = .ok false := by have h : r.readNext.2 = .ok false := h; rw [hx] at h; exact h
    subst this
    simp only [hx]
  | cons p ps ih =>
    intro r h
    obtain ⟨h1, h2, h3⟩ := h
    rcases hx : r.readNext with ⟨r', o⟩
    rw [hx] at h1 h2 h3
    simp only at h1 h2 h3
    subst h1
    obtain ⟨it, i1, i2⟩ := ih r' h3
    refine ⟨⟨some r'⟩, ?_, .step (it' := it) rfl ?_ i1 i2⟩
    · unfold ReaderIter.start ReaderIter.getval
      simp only [hx]
    · unfold ReaderIter.deref; rw [← h2]

/-- C28: the end iterator holds no point (`operator*` throws `std::runtime_error`) and stays the end iterator. -/
theorem iterator_past_end : ReaderIter.finish.deref = .throw .runtimeError ∧ ReaderIter.finish.incr = .ok ReaderIter.finish := ⟨rfl, rfl⟩

/-- C28: an iterator made on a reader just opened visits every point of the file once, in order, and then equals the end
iterator. -/
theorem iterator_visits_all {env : Env} {today : BitVec 16 × BitVec 16} {b : List Byte} {r : Reader}
    (hr : Reader.make env today (IStream.onFile b) = .ok r) (hs : SaneLength r)
    (hin : r.hdr.dataOffset.toNat + r.hdr.pointCount.toNat * r.hdr.dataRecordLength ≤ b.length) :
    ∃ it, ReaderIter.start r = .ok it ∧
      Visits it (recordsFrom b r.hdr.dataOffset.toNat r.hdr.dataRecordLength 0 r.hdr.pointCount.toNat) := by
  obtain ⟨h1, h2, h3⟩ := (make_made hr).on hs.pos hs.fits
  have := Reader.delivers_all hin r.hdr.pointCount.toNat r 0 h1 h2 (by omega) (make_made hr).filter h3
  have hid : r.xf = id := by funext p; unfold Reader.xf; rw [(make_made hr).xform]; rfl
  rw [hid, List.map_id] at this
  exact visits_of_delivers _ _ this

/-- C28 with C20: the iterator over a written file visits the points written. -/
theorem iterator_visits_written (env : Env) (today : BitVec 16 × BitVec 16) {h : Header} {w : Writer} (hs : StorableHeader h)
    (hmk : Writer.make env (OStream.onFile []) h = .ok w)
    (hsmall : h.headerSize.toNat + recordBytes w.hdr.vlrs + 4 < 2 ^ 31)
    (hschema : NoSchema env w.hdr.vlrs) (h0 : 0 < h.dataRecordLength)
    (pts : List (List Byte)) (hp : ∀ p ∈ pts, p.length = h.dataRecordLength) (hn : pts.length < 2 ^ 32) :
    ∃ w' r it, w.writePoints pts = .ok w' ∧ Reader.make env today (IStream.onFile w'.close.buf) = .ok r ∧
      ReaderIter.start r = .ok it ∧ Visits it pts := by
  obtain ⟨w', r, e1, e2, -, e3⟩ := written_is_read env today hs hmk hsmall hschema h0 pts (fun p hp' => by rw [hp p hp']) hn
  have : (pts.map fun p => p.take h.dataRecordLength) = pts := by
    conv_rhs => rw [← List.map_id pts]
    exact List.map_congr_left fun p hp' => by rw [← hp p hp', List.take_length]; rfl
  rw [this] at e3
  obtain ⟨it, i1, i2⟩ := visits_of_delivers _ _ e3
  exact ⟨w', r, it, e1, e2, i1, i2⟩

/-! C30 -/

/-- C30, what really happens: a file that ends inside its point records delivers all its whole records, then exactly one
more point, made of the bytes left over and the rest of the previous record (zeros if there was none), and then the end
of data. So the property holds for all points but that one. -/
theorem truncated_file_partial {env : Env} {today : BitVec 16 × BitVec 16} {b : List Byte} {r : Reader}
    (hr : Reader.make env today (IStream.onFile b) = .ok r) (hs : SaneLength r)
    (m : Nat) (hm : m < r.hdr.pointCount.toNat)
    (hwhole : m ≠ 0 → r.hdr.dataOffset.toNat + m * r.hdr.dataRecordLength ≤ b.length)
    (hcut : b.length < r.hdr.dataOffset.toNat + (m + 1) * r.hdr.dataRecordLength) :
    let off := r.hdr.dataOffset.toNat
    let len := r.hdr.dataRecordLength
    let left := b.drop (off + m * len)
    delivers r (recordsFrom b off len 0 m ++
      [left ++ (if m = 0 then List.replicate len 0#8 else record b off len (m - 1)).drop left.length]) := by
  obtain ⟨h1, h2, h3⟩ := (make_made hr).on hs.pos hs.fits
  have hpt := (make_made hr).point
  dsimp only
  have hc : b.length < r.hdr.dataOffset.toNat + (0 + m) * r.hdr.dataRecordLength + r.hdr.dataRecordLength := by
    rw [Nat.zero_add]; rw [Nat.succ_mul] at hcut; omega
  have := Reader.delivers_truncated m r 0 h1 h2 (by omega) (make_made hr).filter (make_made hr).xform
    (by rw [Nat.zero_add]; exact hwhole) hc
  rw [Nat.zero_add] at this hc
  have hsl : slice b (r.hdr.dataOffset.toNat + m * r.hdr.dataRecordLength) r.hdr.dataRecordLength =
      b.drop (r.hdr.dataOffset.toNat + m * r.hdr.dataRecordLength) := by
    unfold slice; rw [List.take_of_length_le]; rw [List.length_drop]; omega
  rw [hsl, hpt] at this
  rw [List.length_drop]
  exact this

/-- C30 refuted: three records advertised, the file cut inside the second one: the second point delivered has two bytes
of the file's second record and the rest of the first, and is delivered as a valid read. -/
theorem truncated_file_invents : ∃ r, Reader.make plainEnv (1, 2000)
      (IStream.onFile ((sampleFile (fivePoints.take 3)).take (227 + 57 + 28 + 2))) = .ok r ∧
    r.hdr.pointCount.toNat = 3 ∧
    firstCalls 5 r = [List.replicate 28 1#8, List.replicate 2 2#8 ++ List.replicate 26 1#8] :=
  Outcome.exists_of_check (by decide +kernel)

/-- C30 refuted for random access: any of the missing points can be "read"; here the fifth. -/
theorem truncated_random_access : ∃ r, Reader.make plainEnv (1, 2000)
      (IStream.onFile ((sampleFile fivePoints).take (227 + 57 + 28 + 2))) = .ok r ∧
    (r.readAt 4).2 = .ok true ∧ (r.readAt 4).1.point = List.replicate 28 0#8 :=
  Outcome.exists_of_check (by decide +kernel)

end LibLAS
