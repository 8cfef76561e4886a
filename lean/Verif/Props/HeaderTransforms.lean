import Verif.Lemmas.HeaderTransforms
import Verif.Props.ReaderSession
/-
C99: reading with transforms that give points another header.
-/
namespace LibLAS.Moving
open LibLAS.Spec LibLAS.Reader

/-- A file just opened, with filters and transforms. -/
def begin (r₀ : Reader) (fs : List (List Byte → Bool)) (ts : List Transform) : MReader :=
  MReader.setTransforms ⟨r₀.setFilters fs, none, false, []⟩ ts

private theorem begin_beside {env : Env} {today : BitVec 16 × BitVec 16} {f : List Byte} {r₀ : Reader} (b : Build)
    (hb : 227 ≤ f.length) (hr : Reader.make env today (IStream.onFile f) = .ok r₀) (hv : NoSchema env r₀.hdr.vlrs)
    (hl : 0 < r₀.hdr.dataRecordLength) (fs : List (List Byte → Bool)) (ts : List Transform) :
    Beside b f r₀.hdr (r₀.setFilters fs).filter ts (begin r₀ fs ts) (r₀.setFilters fs) ∧
    ((∃ t ∈ ts, t.modifies = true) → (begin r₀ fs ts).check = true) := by
  have hop := open_file hb hr hv
  obtain ⟨o1, o2, -⟩ := hop.on hl
  refine ⟨⟨rfl, rfl, rfl, hop.xform, rfl,
    ⟨o1.buf, o1.dataOffset, o1.recordSize, o1.recordLength, o1.point, o1.size, o1.count, o1.pos⟩, .inl ?_, .inl ⟨rfl, o1.point⟩⟩, ?_⟩
  · have : (r₀.setFilters fs).current = 0 := hop.current
    rw [this]
    exact ⟨this, fun hh => absurd rfl hh⟩
  · rintro ⟨t, h1, h2⟩
    show (false || ts.any Transform.modifies) = true
    rw [Bool.false_or, List.any_eq_true]
    exact ⟨t, h1, h2⟩

/-- C99: with transforms that change the header of points and say so, every sequence of reads and seeks gives what it gives
without transforms, each point transformed as a point of the file's header, whatever the transforms made of the points before it
and whether they succeeded. -/
theorem header_transforms {env : Env} {today : BitVec 16 × BitVec 16} {f : List Byte} {r₀ : Reader} (b : Build)
    (hb : 227 ≤ f.length) (hr : Reader.make env today (IStream.onFile f) = .ok r₀) (hv : NoSchema env r₀.hdr.vlrs)
    (hl : 0 < r₀.hdr.dataRecordLength)
    (hin : r₀.hdr.dataOffset.toNat + r₀.hdr.pointCount.toNat * r₀.hdr.dataRecordLength ≤ f.length)
    (fs : List (List Byte → Bool)) (ts : List Transform)
    (ht : Returns b r₀.hdr.toP r₀.hdr.dataRecordLength (!fs.isEmpty) (Candidate r₀.hdr (!fs.isEmpty) f) ts)
    (ha : Announced r₀.hdr.toP (Candidate r₀.hdr (!fs.isEmpty) f) ts) (cs : List Turn) :
    turns b (begin r₀ fs ts) cs = (reports (r₀.setFilters fs) (cs.map Turn.plain)).map (withTransforms r₀.hdr.toP ts) := by
  obtain ⟨hB, hc⟩ := begin_beside b hb hr hv hl fs ts
  have e : (r₀.setFilters fs).filter.isSome = !fs.isEmpty := by
    unfold Reader.setFilters
    cases fs <;> simp
  rw [← e] at ht ha
  exact (hB.run hin ht ha cs hc).1

/-- C99: after any such sequence, access by number gives that record, transformed as a point of the file's header. -/
theorem header_transforms_at {env : Env} {today : BitVec 16 × BitVec 16} {f : List Byte} {r₀ : Reader} (b : Build)
    (hb : 227 ≤ f.length) (hr : Reader.make env today (IStream.onFile f) = .ok r₀) (hv : NoSchema env r₀.hdr.vlrs)
    (hl : 0 < r₀.hdr.dataRecordLength)
    (hin : r₀.hdr.dataOffset.toNat + r₀.hdr.pointCount.toNat * r₀.hdr.dataRecordLength ≤ f.length)
    (fs : List (List Byte → Bool)) (ts : List Transform)
    (ht : Returns b r₀.hdr.toP r₀.hdr.dataRecordLength (!fs.isEmpty) (Candidate r₀.hdr (!fs.isEmpty) f) ts)
    (ha : Announced r₀.hdr.toP (Candidate r₀.hdr (!fs.isEmpty) f) ts) (cs : List Turn) {i : Nat} (hi : i < r₀.hdr.pointCount.toNat)
    (hs : (transformPoint r₀.hdr.toP ts ⟨record f r₀.hdr.dataOffset.toNat r₀.hdr.dataRecordLength i, none⟩).2 = .ok ()) :
    ((after b (begin r₀ fs ts) cs).readAt b i).2 = .ok true ∧
    ((after b (begin r₀ fs ts) cs).readAt b i).1.hand =
      (transformPoint r₀.hdr.toP ts ⟨record f r₀.hdr.dataOffset.toNat r₀.hdr.dataRecordLength i, none⟩).1 := by
  obtain ⟨hB, hc⟩ := begin_beside b hb hr hv hl fs ts
  have e : (r₀.setFilters fs).filter.isSome = !fs.isEmpty := by
    unfold Reader.setFilters
    cases fs <;> simp
  rw [← e] at ht ha
  obtain ⟨m', e1, e2⟩ := (hB.run hin ht ha cs hc).2.1.at hin hi
  rw [e1, hs]
  exact ⟨rfl, e2⟩

/-- The point a program sees after the transforms is the one the chain of them makes of the point with the file's header: each works on
the point and header the one before it left. -/
theorem transforms_in_order (own : PHeader) : ∀ (ts : List Transform) (p : Hand),
    ((transformPoint own ts p).1.point own, (transformPoint own ts p).2) = chain ts (p.point own)
  | [], p => rfl
  | t :: ts, p => by
    have hq : ((t.on own p).1).point own = left (p.point own) (t.run (p.point own)).1 := by
      simp only [Transform.on, Hand.point, left]
      cases (t.run ⟨p.data, p.other.getD own⟩).1.2 <;> rfl
    have h2 : (t.on own p).2 = (t.run (p.point own)).2 := rfl
    simp only [transformPoint, chain]
    rw [← hq, ← h2]
    rcases he : t.on own p with ⟨q, _ | _ | _⟩
    · exact transforms_in_order own ts q
    · rfl
    · rfl

/-- The first read. -/
private theorem first_next {f : List Byte} {r₀ : Reader} (b : Build) (hop : Opened f r₀) (hl : 0 < r₀.hdr.dataRecordLength)
    (hle : r₀.hdr.dataOffset.toNat + r₀.hdr.dataRecordLength ≤ f.length) (hn : 1 < r₀.hdr.pointCount.toNat) (c : Bool)
    {ts : List Transform} {d : List Byte} {h : PHeader}
    (hx : transformPoint r₀.hdr.toP ts ⟨record f r₀.hdr.dataOffset.toNat r₀.hdr.dataRecordLength 0, none⟩ = (⟨d, some h⟩, .ok ())) :
    MReader.readNext b ⟨r₀, none, c, ts⟩ = (⟨{ r₀ with
      ifs := ⟨f, r₀.hdr.dataOffset.toNat + 0 * r₀.hdr.dataRecordLength + r₀.hdr.dataRecordLength, false, false⟩,
      point := d, current := r₀.current + 1 }, some h, c, ts⟩, .ok true) := by
  obtain ⟨o1, o2, -⟩ := hop.on hl
  have hst := Reader.At.start o1 o2
  rw [if_pos hop.current] at hst
  have hfst := Reader.readCounted_full
      (r := { r₀ with ifs := ⟨f, r₀.hdr.dataOffset.toNat + 0 * r₀.hdr.dataRecordLength, false, false⟩ })
      (off := r₀.hdr.dataOffset.toNat) (n := r₀.hdr.pointCount.toNat)
      ⟨rfl, o1.dataOffset, o1.recordSize, o1.recordLength, o1.point, o1.size, o1.count, o1.pos⟩ rfl
      (show r₀.hdr.dataOffset.toNat + 0 * r₀.hdr.dataRecordLength + r₀.hdr.dataRecordLength ≤ f.length by omega)
  have hset : ∀ r : Reader, MReader.settle b ⟨r, none, c, ts⟩ = .ok ⟨r, none, c, ts⟩ := by
    intro r; unfold MReader.settle; cases c <;> rfl
  unfold MReader.readNext MReader.implReadNext MReader.start
  dsimp only
  rw [if_pos hop.current, hst]
  rw [if_neg (by show ¬ r₀.current ≥ r₀.size; rw [hop.current, o1.size]; omega), hset]
  dsimp only
  unfold MReader.readOn
  dsimp only
  rw [hfst]
  dsimp only
  rw [if_pos (by unfold Reader.accepts; rw [hop.filter])]
  unfold MReader.finish MReader.transform MReader.hand
  dsimp only
  rw [show slice f (r₀.hdr.dataOffset.toNat + 0 * r₀.hdr.dataRecordLength) r₀.hdr.dataRecordLength =
    record f r₀.hdr.dataOffset.toNat r₀.hdr.dataRecordLength 0 from rfl, hx]
  rfl

/-- C99 (a part that fails what callers expect): if a point left with another header cannot be expressed with the header of the
file, the next read of a point is undefined, although nothing of that point is needed. -/
theorem header_transforms_undefined {env : Env} {today : BitVec 16 × BitVec 16} {f : List Byte} {r₀ : Reader} (b : Build)
    (hb : 227 ≤ f.length) (hr : Reader.make env today (IStream.onFile f) = .ok r₀) (hv : NoSchema env r₀.hdr.vlrs)
    (hl : 0 < r₀.hdr.dataRecordLength)
    (hin : r₀.hdr.dataOffset.toNat + r₀.hdr.pointCount.toNat * r₀.hdr.dataRecordLength ≤ f.length)
    (hn : 1 < r₀.hdr.pointCount.toNat) (ts : List Transform) {t : Transform} (htm : t ∈ ts) (hmod : t.modifies = true)
    {d : List Byte} {h : PHeader}
    (hx : transformPoint r₀.hdr.toP ts ⟨record f r₀.hdr.dataOffset.toNat r₀.hdr.dataRecordLength 0, none⟩ = (⟨d, some h⟩, .ok ()))
    (hub : Point.setHeader b ⟨d, h⟩ r₀.hdr.toP = .ub) :
    turns b (begin r₀ [] ts) [.next, .next] = [(.ok true, some ⟨d, some h⟩), (.ub, none)] := by
  obtain ⟨hB, hc⟩ := begin_beside b hb hr hv hl [] ts
  have hop := open_file hb hr hv
  obtain ⟨o1, o2, -⟩ := hop.on hl
  have hle : r₀.hdr.dataOffset.toNat + r₀.hdr.dataRecordLength ≤ f.length := by
    have : 1 * r₀.hdr.dataRecordLength ≤ r₀.hdr.pointCount.toNat * r₀.hdr.dataRecordLength := Nat.mul_le_mul_right _ (by omega)
    omega
  have hfil : r₀.setFilters [] = r₀ := by
    have := hop.filter
    unfold Reader.setFilters
    rw [if_pos rfl, ← this]
  have hbeg : begin r₀ [] ts = ⟨r₀, none, true, ts⟩ := by
    have h1 := hc ⟨t, htm, hmod⟩
    have h2 : begin r₀ [] ts = ⟨r₀.setFilters [], none, (begin r₀ [] ts).check, ts⟩ := rfl
    rw [h2, h1, hfil]
  have e1 : (begin r₀ [] ts).readNext b = (⟨{ r₀ with
      ifs := ⟨f, r₀.hdr.dataOffset.toNat + 0 * r₀.hdr.dataRecordLength + r₀.hdr.dataRecordLength, false, false⟩,
      point := d, current := r₀.current + 1 }, some h, true, ts⟩, .ok true) := by
    rw [hbeg]
    exact first_next b hop hl hle hn true hx
  have e2 : MReader.readNext b ⟨{ r₀ with
      ifs := ⟨f, r₀.hdr.dataOffset.toNat + 0 * r₀.hdr.dataRecordLength + r₀.hdr.dataRecordLength, false, false⟩,
      point := d, current := r₀.current + 1 }, some h, true, ts⟩ = (⟨{ r₀ with
      ifs := ⟨f, r₀.hdr.dataOffset.toNat + 0 * r₀.hdr.dataRecordLength + r₀.hdr.dataRecordLength, false, false⟩,
      point := d, current := r₀.current + 1 }, some h, true, ts⟩, .ub) := by
    unfold MReader.readNext MReader.implReadNext MReader.start
    dsimp only
    simp only [if_neg (show ¬(r₀.current + 1 = 0) by omega)]
    rw [if_neg (show ¬(r₀.current + 1 ≥ r₀.size) by rw [hop.current, o1.size]; omega)]
    unfold MReader.settle
    dsimp only
    rw [if_pos rfl, hub]
    rfl
  simp only [turns, turn, e1, e2, if_pos]
  rfl

/-- C99: transforms that change the header of points without saying so (`ModifiesHeader` false). The second point is not that of
the file: its bytes are read with the header of the transform, and if that has shorter records the read is undefined. -/
theorem unannounced_header {env : Env} {today : BitVec 16 × BitVec 16} {f : List Byte} {r₀ : Reader} (b : Build)
    (hb : 227 ≤ f.length) (hr : Reader.make env today (IStream.onFile f) = .ok r₀) (hv : NoSchema env r₀.hdr.vlrs)
    (hl : 0 < r₀.hdr.dataRecordLength)
    (hin : r₀.hdr.dataOffset.toNat + r₀.hdr.pointCount.toNat * r₀.hdr.dataRecordLength ≤ f.length)
    (hn : 1 < r₀.hdr.pointCount.toNat) (ts : List Transform) (hmod : ∀ t ∈ ts, t.modifies = false)
    {d : List Byte} {h : PHeader}
    (hx : transformPoint r₀.hdr.toP ts ⟨record f r₀.hdr.dataOffset.toNat r₀.hdr.dataRecordLength 0, none⟩ = (⟨d, some h⟩, .ok ())) :
    (d.length < r₀.hdr.dataRecordLength →
      turns b (begin r₀ [] ts) [.next, .next] = [(.ok true, some ⟨d, some h⟩), (.ub, none)]) ∧
    (d.length = r₀.hdr.dataRecordLength → ∀ q,
      transformPoint r₀.hdr.toP ts ⟨record f r₀.hdr.dataOffset.toNat r₀.hdr.dataRecordLength 1, some h⟩ = (q, .ok ()) →
      turns b (begin r₀ [] ts) [.next, .next] = [(.ok true, some ⟨d, some h⟩), (.ok true, some q)]) := by
  have hop := open_file hb hr hv
  obtain ⟨o1, o2, -⟩ := hop.on hl
  have hle2 : r₀.hdr.dataOffset.toNat + 2 * r₀.hdr.dataRecordLength ≤ f.length := by
    have : 2 * r₀.hdr.dataRecordLength ≤ r₀.hdr.pointCount.toNat * r₀.hdr.dataRecordLength := Nat.mul_le_mul_right _ (by omega)
    omega
  have hbeg : begin r₀ [] ts = ⟨r₀, none, false, ts⟩ := by
    have hfil : r₀.setFilters [] = r₀ := by
      have := hop.filter
      unfold Reader.setFilters
      rw [if_pos rfl, ← this]
    have h2 : begin r₀ [] ts = ⟨r₀.setFilters [], none, false || ts.any Transform.modifies, ts⟩ := rfl
    have h3 : ts.any Transform.modifies = false := by
      rw [List.any_eq_false]
      intro t ht
      rw [hmod t ht]; simp
    rw [h2, h3, hfil]
    rfl
  have e1 : (begin r₀ [] ts).readNext b = (⟨{ r₀ with
      ifs := ⟨f, r₀.hdr.dataOffset.toNat + 0 * r₀.hdr.dataRecordLength + r₀.hdr.dataRecordLength, false, false⟩,
      point := d, current := r₀.current + 1 }, some h, false, ts⟩, .ok true) := by
    rw [hbeg]
    exact first_next b hop hl (by omega) hn false hx
  have e2 : MReader.readNext b ⟨{ r₀ with
      ifs := ⟨f, r₀.hdr.dataOffset.toNat + 0 * r₀.hdr.dataRecordLength + r₀.hdr.dataRecordLength, false, false⟩,
      point := d, current := r₀.current + 1 }, some h, false, ts⟩ = MReader.catchRange (MReader.readOn ⟨{ r₀ with
      ifs := ⟨f, r₀.hdr.dataOffset.toNat + 0 * r₀.hdr.dataRecordLength + r₀.hdr.dataRecordLength, false, false⟩,
      point := d, current := r₀.current + 1 }, some h, false, ts⟩) := by
    unfold MReader.readNext MReader.implReadNext MReader.start
    dsimp only
    simp only [if_neg (show ¬(r₀.current + 1 = 0) by omega)]
    rw [if_neg (show ¬(r₀.current + 1 ≥ r₀.size) by rw [hop.current, o1.size]; omega)]
    unfold MReader.settle
    dsimp only
    rw [if_neg (by simp)]
  constructor
  · intro hd
    have e3 : (MReader.readNext b ⟨{ r₀ with
      ifs := ⟨f, r₀.hdr.dataOffset.toNat + 0 * r₀.hdr.dataRecordLength + r₀.hdr.dataRecordLength, false, false⟩,
      point := d, current := r₀.current + 1 }, some h, false, ts⟩).2 = .ub := by
      rw [e2]
      unfold MReader.readOn Reader.readCounted Reader.readRecord
      dsimp only
      by_cases hd0 : d = []
      · rw [if_pos hd0]; rfl
      · rw [if_neg hd0, if_neg (by simp), if_pos (by rw [o1.recordSize]; exact hd)]; rfl
    simp only [turns, turn, e1, e3, if_pos]
    rfl
  · intro hd q hq
    have hrc : Reader.readCounted { r₀ with
      ifs := ⟨f, r₀.hdr.dataOffset.toNat + 0 * r₀.hdr.dataRecordLength + r₀.hdr.dataRecordLength, false, false⟩,
      point := d, current := r₀.current + 1 } = _ :=
      Reader.readCounted_full (off := r₀.hdr.dataOffset.toNat) (n := r₀.hdr.pointCount.toNat)
        (r := { r₀ with
          ifs := ⟨f, r₀.hdr.dataOffset.toNat + 0 * r₀.hdr.dataRecordLength + r₀.hdr.dataRecordLength, false, false⟩,
          point := d, current := r₀.current + 1 })
        ⟨rfl, o1.dataOffset, o1.recordSize, o1.recordLength, hd, o1.size, o1.count, o1.pos⟩ rfl
        (show r₀.hdr.dataOffset.toNat + 0 * r₀.hdr.dataRecordLength + r₀.hdr.dataRecordLength + r₀.hdr.dataRecordLength ≤ f.length
          by omega)
    have hpos : r₀.hdr.dataOffset.toNat + 0 * r₀.hdr.dataRecordLength + r₀.hdr.dataRecordLength =
        r₀.hdr.dataOffset.toNat + 1 * r₀.hdr.dataRecordLength := by omega
    have e3 : ∃ m, MReader.readNext b ⟨{ r₀ with
      ifs := ⟨f, r₀.hdr.dataOffset.toNat + 0 * r₀.hdr.dataRecordLength + r₀.hdr.dataRecordLength, false, false⟩,
      point := d, current := r₀.current + 1 }, some h, false, ts⟩ = (m, .ok true) ∧ m.hand = q := by
      rw [e2]
      unfold MReader.readOn
      dsimp only
      rw [hrc]
      dsimp only
      rw [if_pos (by unfold Reader.accepts; rw [hop.filter])]
      unfold MReader.finish MReader.transform MReader.hand
      dsimp only
      rw [hpos]
      rw [show slice f (r₀.hdr.dataOffset.toNat + 1 * r₀.hdr.dataRecordLength) r₀.hdr.dataRecordLength =
        record f r₀.hdr.dataOffset.toNat r₀.hdr.dataRecordLength 1 from rfl, hq]
      exact ⟨_, rfl, rfl⟩
    obtain ⟨m, e3, e4⟩ := e3
    simp only [turns, turn, e1, e3, e4, if_pos]
    rfl

/-- C99, GDAL builds: the test with which `ReprojectionTransform` looks for coordinates that did not fit is itself undefined
(signed overflow) for every raw coordinate but −1 and the largest. -/
theorem clipped_test_undefined (raw : Int) (h1 : -2147483648 ≤ raw) (h2 : raw ≤ 2147483647) :
    looksClipped raw = if raw = -1 then .ok false else if raw = 2147483647 then .ok true else .ub := by
  unfold looksClipped compareDistance32 diff32
  by_cases c1 : raw = -1
  · subst c1; rfl
  rw [if_neg c1]
  by_cases c2 : raw = 2147483647
  · subst c2; rfl
  rw [if_neg c2]
  by_cases c3 : 0 ≤ raw
  · rw [if_pos (by omega)]
    simp only [Outcome.bind_ok]
    have : (decide (raw - 2147483647 ≤ 0) && decide (raw - 2147483647 ≥ -0)) = false := by
      rw [Bool.and_eq_false_iff]; right; simp; omega
    rw [if_neg (show ¬(-2147483648 ≤ raw - -2147483648 ∧ raw - -2147483648 ≤ 2147483647) by omega), this]
    rfl
  · rw [if_neg (by omega)]
    rfl

/-! Examples: a file of five points of 28 bytes, the bytes of point `i` all `i + 1`. -/

/-- The transforms give every point of the file another header, and it can be given back. -/
def returnsCheck (b : Build) (f : List Byte) (r : Reader) (ts : List Transform) : Bool :=
  (List.range r.hdr.pointCount.toNat).all fun i =>
    match (transformPoint r.hdr.toP ts ⟨record f r.hdr.dataOffset.toNat r.hdr.dataRecordLength i, none⟩).1.other with
    | none => false
    | some h =>
      match Point.setHeader b ⟨(transformPoint r.hdr.toP ts ⟨record f r.hdr.dataOffset.toNat r.hdr.dataRecordLength i, none⟩).1.data, h⟩ r.hdr.toP with
      | .ok q => q.data.length = r.hdr.dataRecordLength
      | _ => false

private theorem returns_of_check {b : Build} {f : List Byte} {r : Reader} {ts : List Transform} (h : returnsCheck b f r ts = true)
    (hm : ∃ t ∈ ts, t.modifies = true) :
    Returns b r.hdr.toP r.hdr.dataRecordLength false (Candidate r.hdr false f) ts ∧ Announced r.hdr.toP (Candidate r.hdr false f) ts := by
  have key : ∀ d, Candidate r.hdr false f d → ∃ g, (transformPoint r.hdr.toP ts ⟨d, none⟩).1.other = some g ∧
      ∃ q, Point.setHeader b ⟨(transformPoint r.hdr.toP ts ⟨d, none⟩).1.data, g⟩ r.hdr.toP = .ok q ∧ q.data.length = r.hdr.dataRecordLength := by
    rintro d ⟨-, hd⟩
    obtain ⟨i, hi, rfl⟩ := hd rfl
    unfold returnsCheck at h
    have hi := List.all_eq_true.1 h i (List.mem_range.2 hi)
    split at hi
    · cases hi
    · rename_i g hg
      refine ⟨g, hg, ?_⟩
      split at hi
      · rename_i q hq
        exact ⟨q, hq, of_decide_eq_true hi⟩
      · cases hi
  refine ⟨⟨(by intro hh; cases hh), fun d hd hn => ?_, fun d hd g hg => ?_⟩, fun d hd _ => hm⟩
  · obtain ⟨g, hg, -⟩ := key d hd
    rw [hg] at hn; cases hn
  · obtain ⟨g', hg', q⟩ := key d hd
    rw [hg] at hg'
    cases hg'
    exact q

/-- The hypotheses of `header_transforms` and `header_transforms_at` are met by this file and a transform to another scale. -/
example : ∃ r, resetSample = .ok r ∧ 227 ≤ (sampleFile fivePoints).length ∧ r.hdr.pointCount = 5 ∧
    r.hdr.dataOffset.toNat + 5 * 28 = (sampleFile fivePoints).length ∧ r.hdr.dataRecordLength = 28 ∧
    r.hdr.vlrs.find? VLR.isSchema = none ∧
    Returns ⟨.little, false⟩ r.hdr.toP r.hdr.dataRecordLength false (Candidate r.hdr false (sampleFile fivePoints))
      [rehome ⟨.little, false⟩ (otherScale r.hdr).toP true] ∧
    Announced r.hdr.toP (Candidate r.hdr false (sampleFile fivePoints)) [rehome ⟨.little, false⟩ (otherScale r.hdr).toP true] := by
  have : ∃ r, resetSample = .ok r ∧ 227 ≤ (sampleFile fivePoints).length ∧ r.hdr.pointCount = 5 ∧
    r.hdr.dataOffset.toNat + 5 * 28 = (sampleFile fivePoints).length ∧ r.hdr.dataRecordLength = 28 ∧
    r.hdr.vlrs.find? VLR.isSchema = none ∧
    returnsCheck ⟨.little, false⟩ (sampleFile fivePoints) r [rehome ⟨.little, false⟩ (otherScale r.hdr).toP true] = true :=
    Outcome.exists_of_check (by decide +kernel)
  obtain ⟨r, h1, h2, h3, h4, h5, h6, h7⟩ := this
  exact ⟨r, h1, h2, h3, h4, h5, h6, returns_of_check h7 ⟨_, List.mem_singleton.2 rfl, rfl⟩⟩

/-- A transform that puts every point far away, in a header with a scale of 1024. -/
def faraway (h : LibLAS.Header) : Transform :=
  ⟨true, fun _ => ((List.replicate 28 0x7F#8, some { h with scale := ⟨0x4090000000000000#64, 0x4090000000000000#64, 0x4090000000000000#64⟩ }.toP), .ok ())⟩

/-- The hypotheses of `header_transforms_undefined` are met. -/
example : ∃ r, resetSample = .ok r ∧ 1 < r.hdr.pointCount.toNat ∧ (faraway r.hdr).modifies = true ∧
    (match transformPoint r.hdr.toP [faraway r.hdr] ⟨record (sampleFile fivePoints) r.hdr.dataOffset.toNat r.hdr.dataRecordLength 0, none⟩ with
      | (⟨d, some h⟩, .ok ()) => (match Point.setHeader ⟨.little, false⟩ ⟨d, h⟩ r.hdr.toP with | .ub => true | _ => false)
      | _ => false) = true :=
  Outcome.exists_of_check (by decide +kernel)

/-- The X of a point. -/
def xOf (own : PHeader) (p : Option Hand) : Option Fl :=
  p.bind fun p => match Point.getX ⟨.little, false⟩ (p.point own) with | .ok x => some x | _ => none

/-- `unannounced_header` at work: the same transform, said to change headers or not. The second point has the X of the file, or
half of it. -/
example : ∃ r, resetSample = .ok r ∧
    ((turns ⟨.little, false⟩ (begin r [] [rehome ⟨.little, false⟩ (otherScale r.hdr).toP true]) [.next, .next]).map fun x =>
      xOf r.hdr.toP x.2) = [some (.fin 16843009), some (.fin 33686018)] ∧
    ((turns ⟨.little, false⟩ (begin r [] [rehome ⟨.little, false⟩ (otherScale r.hdr).toP false]) [.next, .next]).map fun x =>
      xOf r.hdr.toP x.2) = [some (.fin 16843009), some (.fin 16843009)] :=
  Outcome.exists_of_check (by decide +kernel)

/-- A transform that fails on points whose first byte is 5. -/
def failsOnFive : Transform := ⟨false, fun p => ((p.data, none), if p.data.head? = some 5#8 then .throw .domainError else .ok ())⟩

/-- C99, why filters need transforms that do not fail: the last point, rejected by the filter, is transformed all the same, and
its failure is that of the call that should have said there are no more points. -/
theorem rejected_point_fails : ∃ r, resetSample = .ok r ∧
    turns ⟨.little, false⟩ (begin r [fun d => d.head? = some 1#8] []) [.next, .next] =
      [(.ok true, some ⟨List.replicate 28 1#8, none⟩), (.ok false, none)] ∧
    turns ⟨.little, false⟩ (begin r [fun d => d.head? = some 1#8] [failsOnFive]) [.next, .next] =
      [(.ok true, some ⟨List.replicate 28 1#8, none⟩), (.throw .domainError, none)] :=
  Outcome.exists_of_check (by decide +kernel)

end LibLAS.Moving
