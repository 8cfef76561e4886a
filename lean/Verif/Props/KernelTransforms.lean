import Verif.Model.KernelTransforms
import Verif.Spec.KernelTransforms
import Verif.Lemmas.CoordOk
import Verif.Lemmas.Summary
import Verif.Props.Las2lasCases
/-
C70: the options of las2las that change points.
-/
set_option linter.unusedSimpArgs false
namespace LibLAS
open Spec Point Transform

namespace Kernel

/-- The conversion is defined for every angle, and gives the nearest integer within range. All 256 angles. -/
theorem fixedAngle_nearest (a : BitVec 8) : ∃ v, fixedAngle a = .ok v ∧ AngleFixed a v := by
  have h : ∀ a : BitVec 8, ((fixedAngle a).check fun v =>
      decide (|((Int.floor ((1944445 / 1000000 : ℚ) * a.toInt + 1 / 2) : ℤ) : ℚ) - 1944445 / 1000000 * a.toInt| < 1 / 2 ∧
        v.toInt = max (-128) (min 127 (Int.floor ((1944445 / 1000000 : ℚ) * a.toInt + 1 / 2))))) = true := by
    decide +kernel
  obtain ⟨v, h1, h2⟩ := Outcome.exists_of_check (h a)
  exact ⟨v, h1, _, by exact_mod_cast h2⟩

/-- C70, first part: on every well-formed point `--fix-optech-scan-angle` replaces the scan angle by the integer nearest to
1.944445 times it, limited to -128 to 127, and changes nothing else. It never fails. -/
theorem fix_angle (b : Build) (p : Point) (hwf : p.WF) : ∃ q, fixAngle p = .ok q ∧ OnlyAngleFixed b p q ∧ q.WF := by
  have ha := observe_eq (b := b) hwf
  generalize view b p.hdr.fmt p.data = a at ha
  have hg := (Summary.parts ha).ar
  obtain ⟨v, hv, hf⟩ := fixedAngle_nearest a.scanAngle
  obtain ⟨q, a', h1, h2, h3, h4, h5, h6, -⟩ := set_then_get b p (.scanAngle v) hwf rfl
  rw [ha] at h2
  cases h2
  refine ⟨q, ?_, ⟨h5, h6, a, v, ha, hf, h3⟩, h4⟩
  show (p.getScanAngleRank >>= _) = _
  rw [hg, Outcome.bind_ok, hv]
  exact h1

private theorem bind_inv {α β : Type} {x : Outcome α} {f : α → Outcome β} {v : β} (h : (x >>= f) = .ok v) :
    ∃ a, x = .ok a ∧ f a = .ok v := by
  cases x with
  | ok a => exact ⟨a, rfl, h⟩
  | throw e => exact absurd h (by simp)
  | ub => exact absurd h (by simp)

private theorem run_oper : Oper.run = operResult := by
  funext o a v; cases o <;> rfl

private theorem apply_shifted {b : Build} {op : Operation} {p q : Point} (hwf : p.WF) (hg : GoodScaling p.hdr)
    (h : applyOp b op p = .ok q) : ShiftedBy b op p q ∧ q.WF := by
  obtain ⟨o, ax, v⟩ := op
  unfold applyOp at h
  cases ax with
  | x =>
    obtain ⟨x, hx, h⟩ := bind_inv h
    obtain ⟨a, w, h1, h2, h3, h4, h5, h6⟩ := (coordinate_stored_nearest b p hwf hg _ q).1 h
    exact ⟨⟨h5, h6, a, w, h1, h2, x, hx, by rw [← run_oper]; exact h3⟩, h4⟩
  | y =>
    obtain ⟨x, hx, h⟩ := bind_inv h
    obtain ⟨a, w, h1, h2, h3, h4, h5, h6⟩ := (coordinate_stored_nearest b p hwf hg _ q).2.1 h
    exact ⟨⟨h5, h6, a, w, h1, h2, x, hx, by rw [← run_oper]; exact h3⟩, h4⟩
  | z =>
    obtain ⟨x, hx, h⟩ := bind_inv h
    obtain ⟨a, w, h1, h2, h3, h4, h5, h6⟩ := (coordinate_stored_nearest b p hwf hg _ q).2.2 h
    exact ⟨⟨h5, h6, a, w, h1, h2, x, hx, by rw [← run_oper]; exact h3⟩, h4⟩

/-- C51, C70, any number of operations on any well-formed point with well-conditioned scaling: a coordinate shift that
succeeds is the operations in turn, each storing the nearest coordinate and changing nothing else. -/
theorem shift_all (wraps : Bool) (b : Build) (ops : List Operation) (p q : Point) (hwf : p.WF) (hg : GoodScaling p.hdr)
    (h : Transform.run wraps b ops p = .ok q) : Shifted b ops p q ∧ q.WF ∧ q.hdr = p.hdr ∧ q.data.length = p.data.length := by
  induction ops generalizing p with
  | nil => cases h; exact ⟨rfl, hwf, rfl, rfl⟩
  | cons op ops ih =>
    obtain ⟨m, hm, h⟩ := bind_inv h
    obtain ⟨-, -, h⟩ := bind_inv h
    obtain ⟨h1, h2⟩ := apply_shifted hwf hg hm
    obtain ⟨h3, h4, h5, h6⟩ := ih m h2 (by rw [h1.1]; exact hg) h
    exact ⟨⟨m, h1, h3⟩, h4, h5.trans h1.1, h6.trans h1.2.1⟩

private theorem writeAt_length {d d' bs : List Byte} {pos : Nat} (h : writeAt d pos bs = .ok d') : d'.length = d.length := by
  unfold writeAt at h
  split at h
  · cases h; simp; omega
  · cases h

private theorem setInt_same {b : Build} {p q : Point} {pos n : Nat} {s : Bool} {v : BitVec (8 * n)}
    (h : setInt b p pos n s v = .ok q) : q.data.length = p.data.length := by
  obtain ⟨d, hd, h⟩ := bind_inv h
  cases h
  exact writeAt_length hd

private theorem apply_length {b : Build} {op : Operation} {p q : Point} (h : applyOp b op p = .ok q) :
    q.data.length = p.data.length := by
  unfold applyOp at h
  split at h <;>
  · obtain ⟨x, -, h⟩ := bind_inv h
    obtain ⟨v, -, h⟩ := bind_inv h
    exact setInt_same h

private theorem run_length {wraps : Bool} {b : Build} {ops : List Operation} {p q : Point}
    (h : Transform.run wraps b ops p = .ok q) : q.data.length = p.data.length := by
  induction ops generalizing p with
  | nil => cases h; rfl
  | cons op ops ih =>
    obtain ⟨m, hm, h⟩ := bind_inv h
    obtain ⟨-, -, h⟩ := bind_inv h
    exact (ih h).trans (apply_length hm)

private theorem fixAngle_length {p q : Point} (h : fixAngle p = .ok q) : q.data.length = p.data.length := by
  obtain ⟨a, -, h⟩ := bind_inv h
  obtain ⟨v, -, h⟩ := bind_inv h
  unfold setScanAngleRank setByte at h
  obtain ⟨d, hd, h⟩ := bind_inv h
  cases h
  exact writeAt_length hd

/-- The operations a list of terms stands for. -/
def operations (val : Term → Fl) (terms : List Term) : List Operation := terms.map fun t => ⟨t.oper, t.axis, val t⟩

/-- The options for a list of terms (none: no `--point-translate`). -/
def changes (terms : List Term) (fix : Bool) : TransformOpts := ⟨if terms = [] then none else some (joinTerms terms), fix⟩

/-- What becomes of a record. -/
def Changed (b : Build) (src : PHeader) (ops : List Operation) (fix : Bool) (d d' : List Byte) : Prop :=
  ∃ m, Shifted b ops ⟨d, src⟩ m ∧ if fix then OnlyAngleFixed b m ⟨d', src⟩ else m = ⟨d', src⟩

private theorem records_length {file : List Byte} {off len n : Nat} (h : off + n * len ≤ file.length) :
    ∀ d ∈ recordsFrom file off len 0 n, d.length = len := by
  intro d hd
  obtain ⟨j, hj, rfl⟩ := List.mem_map.1 hd
  have hj := List.mem_range.1 hj
  unfold record slice
  rw [List.length_take, List.length_drop]
  have : (j + 1) * len ≤ n * len := Nat.mul_le_mul_right _ hj
  rw [Nat.succ_mul] at this
  rw [Nat.zero_add]
  omega

private theorem reader_length (src : PHeader) {t : PTransform} (h : ∀ p q : Point, t p = .ok q → q.data.length = p.data.length)
    (d : List Byte) : (asReaderTransform src t d).length = d.length := by
  unfold asReaderTransform
  split
  · rename_i q e; exact h _ q e
  · rfl

/-- The transforms of a choice, and their effect on a record. -/
private theorem transforms_effect {b : Build} {cast : List Char → Option Fl} {src : PHeader} {terms : List Term} {val : Term → Fl}
    (fix : Bool) (hplain : ∀ t ∈ terms, plainNumber t.num) (hval : ∀ t ∈ terms, cast t.num = some (val t))
    (hg : GoodScaling src) :
    ∃ ts, getTransforms true b cast (changes terms fix) = .ok ts ∧
      (∀ t ∈ ts.map (asReaderTransform src), ∀ p : List Byte, (t p).length = p.length) ∧
      ∀ d q, (⟨d, src⟩ : Point).WF → Transform.run true b (operations val terms) ⟨d, src⟩ = .ok q →
        Changed b src (operations val terms) fix d ((ts.map (asReaderTransform src)).foldl (fun p t => t p) d) := by
  have hrun : ∀ (d : List Byte) (q : Point), Transform.run true b (operations val terms) ⟨d, src⟩ = .ok q →
      asReaderTransform src (Transform.run true b (operations val terms)) d = q.data := by
    intro d q h; unfold asReaderTransform; rw [h]
  have hfix : ∀ m : Point, m.WF → m.hdr = src → OnlyAngleFixed b m ⟨asReaderTransform src fixAngle m.data, src⟩ := by
    intro m hm he
    obtain ⟨q, h1, h2, -⟩ := fix_angle b m hm
    have e : (⟨m.data, src⟩ : Point) = m := by rw [← he]
    unfold asReaderTransform
    rw [e, h1]
    have : (⟨q.data, src⟩ : Point) = q := by rw [← he, ← h2.1]
    rw [this]; exact h2
  by_cases hz : terms = []
  · subst hz
    refine ⟨if fix then [fixAngle] else [], rfl, ?_, ?_⟩
    · intro t ht
      cases fix with
      | false => simp at ht
      | true =>
        simp only [if_true, List.map_cons, List.map_nil, List.mem_singleton] at ht
        subst ht
        exact reader_length src fun p q h => fixAngle_length h
    · intro d q hwf h
      refine ⟨⟨d, src⟩, rfl, ?_⟩
      cases fix with
      | false => rfl
      | true => exact hfix ⟨d, src⟩ hwf rfl
  · refine ⟨Transform.run true b (operations val terms) :: if fix then [fixAngle] else [], ?_, ?_, ?_⟩
    · unfold getTransforms changes translateTransforms
      simp only [if_neg hz, shift_expression_partial cast terms hz hplain val hval, Outcome.bind_ok, Outcome.pure_eq]
      rfl
    · intro t ht
      rw [List.map_cons, List.mem_cons] at ht
      rcases ht with rfl | ht
      · exact reader_length src fun p q h => run_length h
      · cases fix with
        | false => simp at ht
        | true =>
          simp only [if_true, List.map_cons, List.map_nil, List.mem_singleton] at ht
          subst ht
          exact reader_length src fun p q h => fixAngle_length h
    · intro d q hwf h
      obtain ⟨h1, h2, h3, h4⟩ := shift_all true b _ ⟨d, src⟩ q hwf hg h
      refine ⟨q, h1, ?_⟩
      rw [List.map_cons, List.foldl_cons, hrun d q h]
      cases fix with
      | false => show q = ⟨q.data, src⟩; rw [← show q.hdr = src from h3]
      | true => exact hfix q h2 h3

open Las2las in
/-- C70 at the level of the program: las2las with `--point-translate` (a text of plain terms, or absent) and
`--fix-optech-scan-angle` (or not) writes one file with one record for every record of the input, in order; each is the
record of the input shifted by the terms in turn and then, if asked for, with its scan angle fixed. Counts and bounds of
the header are those of the changed points. Where signed overflow wraps, no record of the input is missing, and no shift is refused
(`shift_moves_axis_partial` says when one is). -/
theorem changed_copy_partial {env : Env} {today : BitVec 16 × BitVec 16} {b : Build} {cast : List Char → Option Fl}
    {input : List Byte} {r₀ : Reader} {h : Header} {w : Writer} {edit : Header → Outcome Header} {h' : Header}
    (terms : List Term) (val : Term → Fl) (fix : Bool) (hplain : ∀ t ∈ terms, plainNumber t.num)
    (hval : ∀ t ∈ terms, cast t.num = some (val t))
    (hr : Reader.make env today (IStream.onFile input) = .ok r₀) (hlong : 227 ≤ input.length) (hs : NoSchema env r₀.hdr.vlrs)
    (hord : OrdinaryScaling r₀.hdr.toP) (hgood : GoodScaling r₀.hdr.toP) (hrec : formatSize r₀.hdr.schema.fmt ≤ r₀.hdr.dataRecordLength)
    (hfull : r₀.hdr.dataOffset.toNat + r₀.hdr.pointCount.toNat * r₀.hdr.dataRecordLength ≤ input.length)
    (hok : ∀ d ∈ recordsFrom input r₀.hdr.dataOffset.toNat r₀.hdr.dataRecordLength 0 r₀.hdr.pointCount.toNat,
      ∃ q, Transform.run true b (operations val terms) ⟨d, r₀.hdr.toP⟩ = .ok q)
    (he : edit r₀.hdr = .ok h') (hh : h = { h' with compressed := false }) (ho : Output env r₀ h w) :
    ∃ ts f r out, getTransforms true b cast (changes terms fix) = .ok ts ∧
      main env today b ⟨[], ts.map (asReaderTransform r₀.hdr.toP), 0, 0, false⟩ edit input = .ok [f] ∧
      FileWith env today h (outputRecords env h) f out r ∧
      List.Forall₂ (Changed b r₀.hdr.toP (operations val terms) fix)
        (recordsFrom input r₀.hdr.dataOffset.toNat r₀.hdr.dataRecordLength 0 r₀.hdr.pointCount.toNat) out ∧
      (out ≠ [] → ∀ as, out.map (fun p => observe b ⟨p, r₀.hdr.toP⟩) = as.map .ok → Describes r₀.hdr.toP as r.hdr) := by
  obtain ⟨ts, ht, hlen, heff⟩ := transforms_effect (b := b) (src := r₀.hdr.toP) fix hplain hval hgood
  have hopen := open_file hlong hr hs
  have hm := make_made hr
  have hpos : 0 < r₀.hdr.dataRecordLength := by
    have : 0 < formatSize r₀.hdr.schema.fmt := by cases r₀.hdr.schema.fmt <;> simp [formatSize]
    omega
  have hlt : r₀.hdr.schema.byteSize < 2 ^ 16 := by
    have e : r₀.hdr.schema.byteSize = (got 16 (slice input 105 2)).toNat := by rw [← hm.recordSize, hopen.recordSize]
    rw [e]; exact BitVec.isLt _
  have hb0 : 0 < r₀.hdr.schema.byteSize := by
    unfold Header.dataRecordLength Schema.dataRecordLength at hpos
    rcases Nat.eq_zero_or_pos r₀.hdr.schema.byteSize with h0 | h0
    · rw [h0] at hpos; simp at hpos
    · exact h0
  obtain ⟨h1, h2, -⟩ := hm.on hb0 hlt
  have hxf : ∀ p, ((r₀.setFilters []).setTransforms (ts.map (asReaderTransform r₀.hdr.toP))).xf p =
      (ts.map (asReaderTransform r₀.hdr.toP)).foldl (fun p t => t p) p := by
    intro p
    unfold Reader.xf Reader.setTransforms
    by_cases hz : ts.map (asReaderTransform r₀.hdr.toP) = []
    · simp only [hz, if_true, List.foldl_nil]
    · simp only [if_neg hz]
  have hfold : ∀ (l : List (List Byte → List Byte)), (∀ t ∈ l, ∀ p : List Byte, (t p).length = p.length) →
      ∀ p : List Byte, (l.foldl (fun p t => t p) p).length = p.length := by
    intro l
    induction l with
    | nil => intro _ p; rfl
    | cons t l ih => intro hl p; rw [List.foldl_cons, ih (fun t ht => hl t (by simp [ht])), hl t (by simp)]
  have hd := Reader.delivers_all hfull r₀.hdr.pointCount.toNat
    ((r₀.setFilters []).setTransforms (ts.map (asReaderTransform r₀.hdr.toP))) 0
    ⟨h1.buf, h1.dataOffset, h1.recordSize, h1.recordLength, h1.point, h1.size, h1.count, h1.pos⟩ ⟨h2.1, h2.2⟩ (by omega) rfl
    (fun p hp => by rw [hxf, hfold _ hlen, hp])
  have hi : Input env today ⟨[], ts.map (asReaderTransform r₀.hdr.toP), 0, 0, false⟩ input r₀ _ :=
    ⟨hr, hd, hlong, hs, hord, hrec, hlen⟩
  obtain ⟨f, r, e, hf, hdesc, -⟩ := copy_partial hi he hh ho rfl rfl rfl (b := b)
  refine ⟨ts, f, r, _, ht, e, hf, ?_, hdesc⟩
  rw [List.forall₂_map_right_iff, List.forall₂_same]
  intro d hd'
  obtain ⟨q, hq⟩ := hok d hd'
  rw [hxf]
  refine heff d q ⟨hopen.std, ?_⟩ hq
  show formatSize r₀.hdr.schema.fmt ≤ d.length
  rw [records_length hfull d hd']
  exact hrec

/-! ## A case, and what does not hold -/

/-- Deciding that an axis is well conditioned, for examples. -/
def goodAxis : Fl → Fl → Bool
  | .fin s, .fin o => decide (1 / 2 ^ 1000 ≤ |s| ∧ |s| ≤ 2 ^ 900 ∧ |o| ≤ 2 ^ 50 * |s|)
  | _, _ => false

theorem goodAxis_spec {s o : Fl} (h : goodAxis s o = true) : GoodAxis s o := by
  unfold goodAxis at h
  split at h
  · rename_i p q
    exact ⟨p, q, rfl, rfl, by simpa using h⟩
  · cases h

/-- Three points with scan angles 20, 100 and -70. -/
def angledPoints : List (List Byte) :=
  [(Las2las.pt 35 (-20) 7 1).set 16 20#8, (Las2las.pt 1 2 3 2).set 16 100#8, (Las2las.pt 100 50 (-3) 1).set 16 (BitVec.ofInt 8 (-70))]

/-- Digits only. -/
private def wholeNumber (s : List Char) : Option Fl :=
  if s ≠ [] ∧ s.all Char.isDigit then some (.fin ((s.foldl (fun n c => 10 * n + (c.toNat - 48)) 0 : Nat) : ℚ)) else none

/-- The text `x+10 z*2`. -/
def sampleTerms : List Term := [⟨.x, .add, ['1', '0']⟩, ⟨.z, .multiply, ['2']⟩]

/-- The hypotheses of `changed_copy_partial` about input and terms are met (those about the output: see the case in
`Las2lasCases`, whose header is the same). -/
example : ∃ r, Reader.make plainEnv (1, 2000) (IStream.onFile (sampleFile angledPoints)) = .ok r ∧
    NoSchema plainEnv r.hdr.vlrs ∧ OrdinaryScaling r.hdr.toP ∧ GoodScaling r.hdr.toP ∧
    formatSize r.hdr.schema.fmt ≤ r.hdr.dataRecordLength ∧
    r.hdr.dataOffset.toNat + r.hdr.pointCount.toNat * r.hdr.dataRecordLength ≤ (sampleFile angledPoints).length ∧
    recordsFrom (sampleFile angledPoints) r.hdr.dataOffset.toNat r.hdr.dataRecordLength 0 r.hdr.pointCount.toNat = angledPoints ∧
    (∀ t ∈ sampleTerms, plainNumber t.num) ∧
    ∃ val : Term → Fl, (∀ t ∈ sampleTerms, wholeNumber t.num = some (val t)) ∧
      ∀ d ∈ angledPoints, ∃ q, Transform.run true ⟨.little, false⟩ (operations val sampleTerms) ⟨d, r.hdr.toP⟩ = .ok q := by
  obtain ⟨r, e, h1, h2, h3, h4, h5, h6, h7⟩ : ∃ r, Reader.make plainEnv (1, 2000) (IStream.onFile (sampleFile angledPoints)) = .ok r ∧
      (r.hdr.vlrs.find? VLR.isSchema = none ∧
      (Las2las.ordinaryAxis r.hdr.toP.scale.x r.hdr.toP.offset.x = true ∧ Las2las.ordinaryAxis r.hdr.toP.scale.y r.hdr.toP.offset.y = true ∧
        Las2las.ordinaryAxis r.hdr.toP.scale.z r.hdr.toP.offset.z = true) ∧
      (goodAxis r.hdr.toP.scale.x r.hdr.toP.offset.x = true ∧ goodAxis r.hdr.toP.scale.y r.hdr.toP.offset.y = true ∧
        goodAxis r.hdr.toP.scale.z r.hdr.toP.offset.z = true) ∧
      formatSize r.hdr.schema.fmt ≤ r.hdr.dataRecordLength ∧
      r.hdr.dataOffset.toNat + r.hdr.pointCount.toNat * r.hdr.dataRecordLength ≤ (sampleFile angledPoints).length ∧
      recordsFrom (sampleFile angledPoints) r.hdr.dataOffset.toNat r.hdr.dataRecordLength 0 r.hdr.pointCount.toNat = angledPoints ∧
      ∀ d ∈ angledPoints, ((Transform.run true ⟨.little, false⟩ (operations (fun t => (wholeNumber t.num).getD .nan) sampleTerms)
        ⟨d, r.hdr.toP⟩).check fun _ => decide True) = true) := Outcome.exists_of_check (by decide +kernel)
  refine ⟨r, e, noSchema_none h1, ⟨Las2las.ordinaryAxis_spec h2.1, Las2las.ordinaryAxis_spec h2.2.1, Las2las.ordinaryAxis_spec h2.2.2⟩,
    ⟨goodAxis_spec h3.1, goodAxis_spec h3.2.1, goodAxis_spec h3.2.2⟩, h4, h5, h6, by unfold plainNumber; decide,
    fun t => (wholeNumber t.num).getD .nan, by decide +kernel, fun d hd => ?_⟩
  obtain ⟨q, hq, -⟩ := Outcome.exists_of_check (h7 d hd)
  exact ⟨q, hq⟩

open Las2las in
/-- The raw coordinates and angles of the points of a file, and the bounds of its header on the first axis. -/
def angles (f : List Byte) : Outcome (List (List Int) × List Fl) := do
  let r ← Reader.make plainEnv (1, 2000) (IStream.onFile f)
  let ps := recordsFrom f r.hdr.dataOffset.toNat r.hdr.dataRecordLength 0 r.hdr.pointCount.toNat
  let as ← ps.mapM fun p => observe ⟨.little, false⟩ ⟨p, r.hdr.toP⟩
  pure (as.map fun a => [a.rawX.toInt, a.rawY.toInt, a.rawZ.toInt, a.scanAngle.toInt], [Fl.ofBits r.hdr.min.x, Fl.ofBits r.hdr.max.x])

/-- A run: `las2las --point-translate "x+10 z*2" --fix-optech-scan-angle`. The angles 20, 100, -70 become 39, 127, -128. -/
theorem changed_run : (do
      let ts ← getTransforms true ⟨.little, false⟩ wholeNumber (changes sampleTerms true)
      let r ← Reader.make plainEnv (1, 2000) (IStream.onFile (sampleFile angledPoints))
      let fs ← Las2las.main plainEnv (1, 2000) ⟨.little, false⟩ ⟨[], ts.map (asReaderTransform r.hdr.toP), 0, 0, false⟩ .ok
        (sampleFile angledPoints)
      fs.mapM angles) =
    Outcome.ok [([[45, -20, 14, 39], [11, 2, 6, 127], [110, 50, -6, -128]], [.fin 11, .fin 110])] := by
  decide +kernel

/-- Where the limit bites: two different angles become the same one, so the change cannot be undone. -/
theorem large_angles_collapse : fixedAngle 66 = .ok 127 ∧ fixedAngle 90 = .ok 127 := by decide +kernel

end Kernel
end LibLAS
