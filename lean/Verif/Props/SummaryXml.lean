import Verif.Lemmas.SummaryXmlSays
import Verif.Props.SchemaXml
import Verif.Props.Reset
/-
C94: the XML summary of a file.
-/
namespace LibLAS.Xml
open LibLAS.Spec PTree

/-! Every text of the tree can be stored in XML. -/

theorem storable_leaves {l : List (List Byte × List Byte)} (h : ∀ e ∈ l, Key e.1 ∧ NoZero e.2) : StorableKids (leaves l) := by
  induction l with
  | nil => exact trivial
  | cons e l ih =>
    exact ⟨(h e (by simp)).1, storable_leaf (h e (by simp)).2, ih fun e he => h e (by simp [he])⟩

theorem noZero_signed (i : Int) : NoZero (signed i) := by
  have hn : ∀ n : Nat, NoZero ((Las2txt.natText n).map fun c => BitVec.ofNat 8 c.toNat) := fun n => noZero_num n
  unfold signed Las2txt.intText
  split
  · intro b hb
    rw [List.map_cons, List.mem_cons] at hb
    rcases hb with rfl | hb
    · decide
    · exact hn _ b hb
  · exact hn _

theorem noZero_word (b : Bool) : NoZero (word b) := by cases b <;> decide +kernel

theorem noZero_className (i : Nat) : NoZero (lit (className i)) := by
  unfold className NoZero lit
  split <;> simp

theorem storable_point {real : Fl → List Byte} (hreal : ∀ x, NoZero (real x)) (sc off : Vec3 Fl) (a : Attrs) :
    StorableKids (pointKids real sc off a) := by
  unfold pointKids
  apply storableKids_append
  · apply storable_leaves
    simp only [List.forall_mem_cons]
    refine ⟨⟨by decide +kernel, hreal _⟩, ⟨by decide +kernel, hreal _⟩, ⟨by decide +kernel, hreal _⟩, ⟨by decide +kernel, noZero_signed _⟩,
      ⟨by decide +kernel, noZero_signed _⟩, ⟨by decide +kernel, noZero_signed _⟩, ⟨by decide +kernel, hreal _⟩,
      ⟨by decide +kernel, noZero_num _⟩, ⟨by decide +kernel, noZero_num _⟩, ⟨by decide +kernel, noZero_num _⟩,
      ⟨by decide +kernel, noZero_num _⟩, ⟨by decide +kernel, noZero_signed _⟩, ⟨by decide +kernel, noZero_num _⟩,
      ⟨by decide +kernel, noZero_num _⟩, ⟨by decide +kernel, noZero_num _⟩, by simp⟩
  · refine ⟨by decide +kernel, ⟨by decide, ?_⟩, by decide +kernel, ⟨by decide, ?_⟩, trivial⟩
    · apply storable_leaves
      simp only [List.forall_mem_cons]
      exact ⟨⟨by decide +kernel, noZero_className _⟩, ⟨by decide +kernel, noZero_num _⟩,
        ⟨by decide +kernel, noZero_word _⟩, ⟨by decide +kernel, noZero_word _⟩, ⟨by decide +kernel, noZero_word _⟩, by simp⟩
    · apply storable_leaves
      simp only [List.forall_mem_cons]
      exact ⟨⟨by decide +kernel, noZero_num _⟩, ⟨by decide +kernel, noZero_num _⟩, ⟨by decide +kernel, noZero_num _⟩, by simp⟩

theorem storable_group {g : List Byte} {es : List (List Byte × PTree)} (hg : Key g) (h : StorableKids es) : StorableKids (groupOf g es) := by
  unfold groupOf
  split
  · exact trivial
  · exact ⟨hg, ⟨by decide, h⟩, trivial⟩

theorem storable_entries {item : List Byte} {fs : Nat → BitVec 32 → List (List Byte × List Byte)} {L : List (BitVec 32 × Nat)}
    (hi : Key item) (h : ∀ e ∈ L, StorableKids (leaves (fs e.2 e.1))) : StorableKids (entries item fs L) := by
  unfold entries
  have : ∀ e ∈ L.filter (fun e => e.1 != 0), StorableKids (leaves (fs e.2 e.1)) := fun e he => h e (List.mem_of_mem_filter he)
  generalize L.filter (fun e => e.1 != 0) = M at *
  induction M with
  | nil => exact trivial
  | cons e M ih => exact ⟨hi, ⟨by decide, this e (by simp)⟩, ih fun e he => this e (by simp [he])⟩

theorem storable_classFs {i : Nat} (hi : i < 32) (c : BitVec 32) : StorableKids (leaves (classFs i c)) := by
  apply storable_leaves
  simp only [classFs, List.forall_mem_cons]
  exact ⟨⟨by decide +kernel, noZero_className _⟩, ⟨by decide +kernel, noZero_num _⟩, ⟨by decide +kernel, noZero_num _⟩, by simp⟩

theorem storable_countFs (i : Nat) (c : BitVec 32) : StorableKids (leaves (countFs i c)) := by
  apply storable_leaves
  simp only [countFs, List.forall_mem_cons]
  exact ⟨⟨by decide +kernel, noZero_num _⟩, ⟨by decide +kernel, noZero_num _⟩, by simp⟩

theorem storable_whole {real : Fl → List Byte} (hreal : ∀ x, NoZero (real x)) (sc off : Vec3 Fl) (lo hi : Attrs) {s : Summary}
    (hc : s.classes.length = 32) :
    StorableKids (wholeTree (.node [] (pointKids real sc off lo)) (.node [] (pointKids real sc off hi)) s).kids := by
  refine ⟨by decide +kernel, ⟨by decide, by decide +kernel, ⟨by decide, ?_⟩, trivial⟩, trivial⟩
  unfold pointsKids
  apply storableKids_append
  · exact ⟨by decide +kernel, ⟨by decide, storable_point hreal _ _ _⟩, by decide +kernel, ⟨by decide, storable_point hreal _ _ _⟩, trivial⟩
  apply storableKids_append
  · refine storable_group (by decide +kernel) (storable_entries (by decide +kernel) fun e he => ?_)
    have := List.snd_lt_of_mem_zipIdx he
    exact storable_classFs (by omega) _
  refine ⟨by decide +kernel, ⟨by decide, ?_⟩, ?_⟩
  · apply storable_leaves
    simp only [List.forall_mem_cons]
    exact ⟨⟨by decide +kernel, noZero_num _⟩, ⟨by decide +kernel, noZero_num _⟩, ⟨by decide +kernel, noZero_num _⟩, by simp⟩
  apply storableKids_append
  · refine storable_group (by decide +kernel) ?_
    unfold returnEntries
    split
    · exact storable_entries (by decide +kernel) fun e _ => storable_countFs _ _
    · refine ⟨by decide +kernel, ⟨by decide, ?_⟩, trivial⟩
      apply storable_leaves
      simp only [List.forall_mem_cons]
      exact ⟨⟨by decide +kernel, noZero_num _⟩, ⟨by decide +kernel, noZero_num _⟩, by simp⟩
  apply storableKids_append
  · exact storable_group (by decide +kernel) (storable_entries (by decide +kernel) fun e _ => storable_countFs _ _)
  · exact ⟨by decide +kernel, storable_leaf (noZero_num _), trivial⟩

/-! The loop over the points. -/

theorem next_same {r : Reader} {f : List Byte} {off len n : Nat} (h : r.Ready f off len n) : r.Same r.readNext.1 := by
  unfold Reader.readNext
  rw [catchRange_fst]
  exact (Reader.implReadNext_inv h.on.point h.keeps).1

theorem summaryLoop_eq {env : Env} {b : List Byte} {f : PointFormat} {l : List VLR} {j : Nat} (bld : Build) :
    ∀ (ps : List (List Byte)) (k : Nat) (r : Reader) (s : Summary) (s' : Summary), ps.length < k → Reread env b f l j r → delivers r ps →
      Summary.addAll bld ((r.point :: ps).map fun d => ⟨d, r.hdr.toP⟩) s = .ok s' →
      ∃ r', summaryLoop bld k r s = .ok (r', s') ∧ Reread env b f l j r' ∧ r'.filter = r.filter ∧ r'.xform = r.xform := by
  intro ps
  induction ps with
  | nil =>
    intro k r s s' hk hr hd ha
    obtain ⟨k, rfl⟩ : ∃ k', k = k' + 1 := ⟨k - 1, by simp at hk; omega⟩
    have hd : r.readNext.2 = .ok false := hd
    have h1 := hr.step (o := .next) trivial
    have h1 : Reread env b f l j r.readNext.1 := h1
    have h2 := next_same hr.ready
    unfold Summary.addAll Summary.addAll at ha
    obtain ⟨s1, e1, e2⟩ := bind_eq_ok ha
    injection e2 with e2
    unfold summaryLoop
    rw [e1, Outcome.bind_ok, ← e2]
    rcases hx : r.readNext with ⟨r', o⟩
    rw [hx] at hd h1 h2
    subst hd
    exact ⟨r', rfl, h1, h2.filter, h2.xform⟩
  | cons p ps ih =>
    intro k r s s' hk hr hd ha
    obtain ⟨k, rfl⟩ : ∃ k', k = k' + 1 := ⟨k - 1, by simp at hk; omega⟩
    obtain ⟨d1, d2, d3⟩ := hd
    have h1 : Reread env b f l j r.readNext.1 := hr.step (o := .next) trivial
    have h2 := next_same hr.ready
    rw [List.map_cons, Summary.addAll] at ha
    obtain ⟨s1, e1, e2⟩ := bind_eq_ok ha
    unfold summaryLoop
    rw [e1, Outcome.bind_ok]
    rcases hx : r.readNext with ⟨r', o⟩
    rw [hx] at d1 d2 d3 h1 h2
    simp only at d1 d2 d3 h1 h2
    subst d1
    dsimp only
    obtain ⟨r2, f1, f2, f3, f4⟩ := ih k r' s1 s' (by simp at hk; omega) h1 d3 (by rw [d2, h2.hdr]; exact e2)
    exact ⟨r2, f1, f2, f3.trans h2.filter, f4.trans h2.xform⟩

theorem cstr_idem (t : List Byte) : cstr (cstr t) = cstr t := by
  unfold cstr
  induction t with
  | nil => rfl
  | cons a t ih => by_cases h : (a != 0#8) = true <;> simp [List.takeWhile_cons, h, ih]

theorem readXml_cstr (t : List Byte) : readXml (cstr t) = readXml t := by
  unfold readXml
  rw [cstr_idem]

/-- The attributes of the records as the getters of a point under this header show them. -/
def ShownAs (bld : Build) (h : PHeader) (ps : List (List Byte)) (as : List Attrs) : Prop :=
  ps.map (fun d => Point.observe bld ⟨d, h⟩) = as.map .ok

theorem summary_core {env : Env} {b : List Byte} {f : PointFormat} {l : List VLR} {k : Nat} {r r1 : Reader} (bld : Build)
    {real : Fl → List Byte} (hreal : ∀ x, NoZero (real x)) (hB : Block env b f l) (hJ1 : Reread env b f l k r1)
    (hs : Point.sameScaling r1.hdr.toP r1.hdr.toP = true) (h1 : r.reset env bld = .ok r1)
    (hlen : formatSize f ≤ (got 16 (slice b 105 2)).toNat) {p : List Byte} {ps : List (List Byte)}
    (hd : delivers r1 (p :: ps)) (hpl : ∀ q ∈ p :: ps, q.length = (got 16 (slice b 105 2)).toNat)
    (hsz : ps.length < r1.size) (st : CApi.Errors) :
    ∃ text tree as r2, summaryXml env bld real (some r) st = .ok (some text, some r2, st) ∧
      readXml text = .ok tree ∧ ShownAs bld r1.hdr.toP (p :: ps) as ∧ Reports real r1.hdr.toP.scale r1.hdr.toP.offset as tree ∧
      Reread env b f l (k + 1) r2 ∧ r2.ifs = ⟨b, 0, false, false⟩ ∧ r2.current = 0 ∧ r2.filter = r1.filter ∧ r2.xform = r1.xform := by
  obtain ⟨d1, d2, d3⟩ := hd
  have hN : Reread env b f l k r1.readNext.1 := hJ1.step (o := .next) trivial
  have hsame := next_same hJ1.ready
  rcases hx : r1.readNext with ⟨ra, o⟩
  rw [hx] at d1 d2 d3 hN hsame
  simp only at d1 d2 d3 hN hsame
  subst d1
  have hfmt : r1.hdr.toP.fmt = f := hJ1.fmt
  have hw : ∀ q ∈ (p :: ps).map (fun d => (⟨d, r1.hdr.toP⟩ : Point)), q.WF ∧ q.hdr.fmt = f := by
    intro q hq
    obtain ⟨d, hdm, rfl⟩ := List.mem_map.1 hq
    refine ⟨⟨?_, ?_⟩, hfmt⟩
    · show r1.hdr.toP.fmt.std = true
      rw [hfmt]; exact hB.std
    · show formatSize r1.hdr.toP.fmt ≤ d.length
      rw [hfmt, hpl d hdm]; exact hlen
  have hobs : ∃ as : List Attrs, ((p :: ps).map (fun d => (⟨d, r1.hdr.toP⟩ : Point))).map (Point.observe bld) = as.map .ok := by
    refine ⟨((p :: ps).map (fun d => (⟨d, r1.hdr.toP⟩ : Point))).map fun q => Point.view bld q.hdr.fmt q.data, ?_⟩
    rw [List.map_map (l := (p :: ps).map _)]
    exact List.map_congr_left fun q hq => Point.observe_eq (hw q hq).1
  obtain ⟨as, ho⟩ := hobs
  have has : as.length = ps.length + 1 := by
    have := congrArg List.length ho
    simpa using this.symm
  obtain ⟨s, e, lo, hi, r3, c, x, o1, o2, m1, m2, n, tm⟩ := Summary.summary_exact_partial bld f none ⟨p, r1.hdr.toP⟩
    (ps.map fun d => ⟨d, r1.hdr.toP⟩) as hw ho ⟨hJ1.named.1, hJ1.named.2⟩ (fun h hh => by simp at hh)
  have r3 : Summary.addAll bld ((ra.point :: ps).map fun d => (⟨d, ra.hdr.toP⟩ : Point)) Summary.new = .ok s := by
    rw [d2, hsame.hdr]; exact r3
  obtain ⟨rb, g1, g2, g3, g4⟩ := summaryLoop_eq bld ps (ra.size + 1) ra Summary.new s (by rw [hsame.size]; omega) hN d3 r3
  obtain ⟨rc, q1, q2, q3, q4, q5, q6⟩ := g2.reset bld hB (hJ1.scaling g2 hs)
  have hdr : rc.hdr.toP = r1.hdr.toP := by
    have hl : rc.hdr.dataRecordLength = r1.hdr.dataRecordLength := by
      show rc.hdr.schema.dataRecordLength = r1.hdr.schema.dataRecordLength; rw [q2.len, hJ1.len]
    have hsc : rc.hdr.scale = r1.hdr.scale ∧ rc.hdr.offset = r1.hdr.offset := by
      rw [q2.hdr, hJ1.hdr]; exact ⟨rfl, rfl⟩
    unfold Header.toP
    rw [hl, q2.fmt, hJ1.fmt, q2.named.1, q2.named.2, hJ1.named.1, hJ1.named.2, hsc.1, hsc.2]
  have hre : rehome rc.hdr.toP s = s := by
    have m1 : e.minimum.hdr = r1.hdr.toP := m1
    have m2 : e.maximum.hdr = r1.hdr.toP := m2
    unfold rehome
    rw [x, hdr]
    have a1 : { e.minimum with hdr := r1.hdr.toP } = e.minimum := by rw [← m1]
    have a2 : { e.maximum with hdr := r1.hdr.toP } = e.maximum := by rw [← m2]
    rw [Option.map_some, a1, a2, ← x]
  have hcl : s.classes.length = 32 := by rw [c.2.1]; simp
  have ht := summaryTree_eq real x o1 o2 hcl
  have m1' : e.minimum.hdr = r1.hdr.toP := m1
  have m2' : e.maximum.hdr = r1.hdr.toP := m2
  rw [m1', m2'] at ht
  have hlt : as.length < 2 ^ 32 := by
    have h1 := hJ1.ready.on.size
    have h2 := (got 32 (slice b 107 4)).isLt
    omega
  have h8 : ∀ a ∈ as, a.returnNumber < 8 := by
    intro a ha
    have : (Outcome.ok a) ∈ as.map Outcome.ok := List.mem_map.2 ⟨a, ha, rfl⟩
    rw [← ho] at this
    obtain ⟨q, hq, eq⟩ := List.mem_map.1 this
    exact (Summary.packed_lt (hw q hq).1 eq).1
  refine ⟨cstr (writeXml (wholeTree (.node [] (pointKids real r1.hdr.toP.scale r1.hdr.toP.offset lo))
      (.node [] (pointKids real r1.hdr.toP.scale r1.hdr.toP.offset hi)) s)), wholeTree (.node [] (pointKids real r1.hdr.toP.scale r1.hdr.toP.offset lo)) (.node [] (pointKids real r1.hdr.toP.scale r1.hdr.toP.offset hi)) s,
    as, rc, ?_, ?_, ?_, reports_of real _ _ hlt h8 c n tm, q2, q3, q4, q5.trans (g3.trans hsame.filter), q6.trans (g4.trans hsame.xform)⟩
  · unfold summaryXml
    dsimp only
    rw [h1, Outcome.bind_ok, hx]
    dsimp only
    rw [g1, Outcome.bind_ok]
    dsimp only
    rw [q1, Outcome.bind_ok, hre, ht, Outcome.bind_ok]
    rfl
  · rw [readXml_cstr]
    exact xml_round_trip _ (storable_whole hreal _ _ lo hi hcl)
  · show (p :: ps).map _ = _
    rw [← ho, List.map_map]
    rfl

theorem fresh_reports {env : Env} {b : List Byte} {f : PointFormat} {l : List VLR} {k : Nat} {r₀ r : Reader} (hop : Opened b r₀)
    (hJ : Reread env b f l 0 r₀) (hJ2 : Reread env b f l k r) (g1 : r.ifs = ⟨b, 0, false, false⟩) (g2 : r.current = 0)
    (hin : r₀.hdr.dataOffset.toNat + r₀.hdr.pointCount.toNat * r₀.hdr.dataRecordLength ≤ b.length) (ops : List ReadOp)
    (hops : ∀ o ∈ ops, o.Benign) : reports r ops = reports { r₀ with filter := r.filter, xform := r.xform } ops := by
  have ho := hJ.ready.on
  have hr0 : Reader.Ready { r₀ with filter := r.filter, xform := r.xform } b _ _ _ :=
    ⟨⟨ho.buf, ho.dataOffset, ho.recordSize, ho.recordLength, ho.point, ho.size, ho.count, ho.pos⟩, hJ2.ready.keeps⟩
  have hin' : (got 32 (slice b 96 4)).toNat + (got 32 (slice b 107 4)).toNat * (got 16 (slice b 105 2)).toNat ≤ b.length := by
    rw [← hop.dataOffset, ← hop.pointCount, ← hop.recordLength]; exact hin
  have hag : HAgree r₀.hdr r.hdr :=
    ⟨by rw [hJ.hdr, hJ2.hdr], by rw [hJ.hdr, hJ2.hdr], by show r.hdr.schema.dataRecordLength = r₀.hdr.schema.dataRecordLength; rw [hJ.len, hJ2.len]⟩
  have := reports_point (h := r.hdr) hin' ops (r := { r₀ with filter := r.filter, xform := r.xform }) (k := 0) (p := r.point)
    hr0 hag ⟨hop.current, fun h => absurd rfl h⟩ hJ2.ready.on.point hops
  rw [← this]
  congr 1
  have e : r = ⟨r.ifs, r.hdr, r.size, r.current, r.recordSize, r.point, r.filter, r.xform⟩ := rfl
  rw [e]
  congr 1
  · rw [g1, hop.ifs]
  · rw [hJ2.ready.on.size]; exact ho.size.symm
  · rw [g2]; exact hop.current.symm
  · rw [hJ2.ready.on.recordSize]; exact ho.recordSize.symm

/-- C94: whatever was done with the reader before (points read, seeks, resets, transforms set), as long as no filter is set,
the XML summary of a file of at least one point is a text that any XML parser reads as a tree that reports exactly the
points the file holds (as the transforms in force leave them): their number, the extremes of every attribute, the numbers of
withheld, key and synthetic points, and the lists of the classes, of the return numbers (if any is not 0) and of the numbers of returns with
their counts. No error is recorded, and afterwards the reader answers every sequence of calls like one just opened.
Missing: point filters (the points are then those that `filtered_reading_partial` describes), times that are not a number. -/
theorem summary_xml_partial {env : Env} {today : BitVec 16 × BitVec 16} {b : List Byte} {r₀ : Reader} (bld : Build)
    {real : Fl → List Byte} (hreal : ∀ x, NoZero (real x))
    (hb : 227 ≤ b.length) (hr : Reader.make env today (IStream.onFile b) = .ok r₀) (hv : NoSchema env r₀.hdr.vlrs)
    (hl : formatSize r₀.hdr.schema.fmt ≤ r₀.hdr.dataRecordLength) (hfin : FiniteScaling r₀.hdr)
    (hin : r₀.hdr.dataOffset.toNat + r₀.hdr.pointCount.toNat * r₀.hdr.dataRecordLength ≤ b.length)
    (hn : 0 < r₀.hdr.pointCount.toNat) (cs : List Call) (hcs : ∀ c ∈ cs, c.Benign) {r : Reader}
    (hrun : callRun env bld r₀ cs = .ok r) (hf : r.filter = none) (st : CApi.Errors) :
    ∃ text tree as r2, summaryXml env bld real (some r) st = .ok (some text, some r2, st) ∧ readXml text = .ok tree ∧
      ShownAs bld r₀.hdr.toP
        ((recordsFrom b r₀.hdr.dataOffset.toNat r₀.hdr.dataRecordLength 0 r₀.hdr.pointCount.toNat).map (transformed r)) as ∧
      Reports real r₀.hdr.toP.scale r₀.hdr.toP.offset as tree ∧
      ∀ ops : List ReadOp, (∀ o ∈ ops, o.Benign) → reports r2 ops = reports { r₀ with filter := none, xform := r.xform } ops := by
  have hop := open_file hb hr hv
  have hpos : 0 < r₀.hdr.dataRecordLength := by
    have : 0 < formatSize r₀.hdr.schema.fmt := by
      have := hop.std
      revert this
      cases r₀.hdr.schema.fmt <;> decide
    omega
  have hs := hfin.same
  obtain ⟨f, hB, hJ⟩ := open_reread hb hr hv hpos
  obtain ⟨r', e1, hJr⟩ := run_reread bld hB cs hJ hs hcs
  rw [hrun] at e1
  injection e1 with e1
  subst e1
  obtain ⟨r1, q1, q2, q3, q4, q5, q6⟩ := hJr.reset bld hB (hJ.scaling hJr hs)
  have hdr : r1.hdr.toP = r₀.hdr.toP := by
    have hl : r1.hdr.dataRecordLength = r₀.hdr.dataRecordLength := by
      show r1.hdr.schema.dataRecordLength = r₀.hdr.schema.dataRecordLength; rw [q2.len, hJ.len]
    have hsc : r1.hdr.scale = r₀.hdr.scale ∧ r1.hdr.offset = r₀.hdr.offset := by
      rw [q2.hdr, hJ.hdr]; exact ⟨rfl, rfl⟩
    unfold Header.toP
    rw [hl, q2.fmt, hJ.fmt, q2.named.1, q2.named.2, hJ.named.1, hJ.named.2, hsc.1, hsc.2]
  have hin' : (got 32 (slice b 96 4)).toNat + (got 32 (slice b 107 4)).toNat * (got 16 (slice b 105 2)).toNat ≤ b.length := by
    rw [← hop.dataOffset, ← hop.pointCount, ← hop.recordLength]; exact hin
  have hdel := Reader.delivers_all hin' _ r1 0 q2.ready.on ⟨q4, fun h => absurd rfl h⟩ (Nat.zero_add _) (by rw [q5, hf]) q2.ready.keeps
  have hxf : r1.xf = transformed r := by
    funext x
    unfold Reader.xf transformed
    rw [q6]
    cases r.xform <;> rfl
  rw [hxf] at hdel
  have hall : ∀ q ∈ (recordsFrom b (got 32 (slice b 96 4)).toNat (got 16 (slice b 105 2)).toNat 0 (got 32 (slice b 107 4)).toNat).map (transformed r),
      q.length = (got 16 (slice b 105 2)).toNat := by
    intro q hq
    obtain ⟨d, hd, rfl⟩ := List.mem_map.1 hq
    rw [← hxf]
    apply q2.ready.keeps
    obtain ⟨i, hi, rfl⟩ := List.mem_map.1 hd
    apply slice_length_of_le
    have : (0 + i + 1) * (got 16 (slice b 105 2)).toNat ≤ (got 32 (slice b 107 4)).toNat * (got 16 (slice b 105 2)).toNat :=
      Nat.mul_le_mul_right _ (by rw [List.mem_range] at hi; omega)
    rw [Nat.succ_mul] at this
    omega
  have hn' : 0 < (got 32 (slice b 107 4)).toNat := by rw [← hop.pointCount]; exact hn
  have hl' : formatSize r₀.hdr.schema.fmt ≤ (got 16 (slice b 105 2)).toNat := by rw [← hop.recordLength]; exact hl
  rw [hop.dataOffset, hop.recordLength, hop.pointCount]
  generalize hL : (recordsFrom b (got 32 (slice b 96 4)).toNat (got 16 (slice b 105 2)).toNat 0 (got 32 (slice b 107 4)).toNat).map (transformed r) = L at *
  have hLl : L.length = (got 32 (slice b 107 4)).toNat := by rw [← hL]; simp [recordsFrom]
  obtain ⟨p, ps, rfl⟩ := List.exists_cons_of_ne_nil (l := L) (by rintro rfl; simp only [List.length_nil] at hLl; omega)
  obtain ⟨text, tree, as, r2, t1, t2, t3, t4, t5, t6, t7, t8, t9⟩ := summary_core bld hreal hB q2 (hJ.scaling q2 hs) q1
    (by rw [← hJ.fmt]; exact hl') hdel hall (by rw [q2.ready.on.size, ← hLl]; simp only [List.length_cons]; omega) st
  rw [hdr] at t3 t4
  refine ⟨text, tree, as, r2, t1, t2, t3, t4, fun ops hops => ?_⟩
  rw [fresh_reports hop hJ t5 t6 t7 hin ops hops, t8, q5, hf, t9, q6]

/-- An empty file has no summary: NULL is returned and an error recorded. -/
theorem summary_xml_empty {env : Env} {today : BitVec 16 × BitVec 16} {b : List Byte} {r₀ : Reader} (bld : Build)
    (real : Fl → List Byte)
    (hb : 227 ≤ b.length) (hr : Reader.make env today (IStream.onFile b) = .ok r₀) (hv : NoSchema env r₀.hdr.vlrs)
    (hl : 0 < r₀.hdr.dataRecordLength) (hfin : FiniteScaling r₀.hdr) (hn : r₀.hdr.pointCount.toNat = 0)
    (cs : List Call) (hcs : ∀ c ∈ cs, c.Benign) {r : Reader} (hrun : callRun env bld r₀ cs = .ok r) (st : CApi.Errors) :
    ∃ r2, summaryXml env bld real (some r) st = .ok (none, some r2, ⟨3, lit "Unable to read point", lit "LASReader_GetSummaryXML"⟩ :: st) := by
  have hop := open_file hb hr hv
  have hs := hfin.same
  obtain ⟨f, hB, hJ⟩ := open_reread hb hr hv hl
  obtain ⟨r', e1, hJr⟩ := run_reread bld hB cs hJ hs hcs
  rw [hrun] at e1
  injection e1 with e1
  subst e1
  obtain ⟨r1, q1, q2, q3, q4, q5, q6⟩ := hJr.reset bld hB (hJ.scaling hJr hs)
  have he := Reader.readNext_end q2.ready.on ⟨q4, fun h => absurd rfl h⟩ (by rw [← hop.pointCount, hn])
  unfold summaryXml
  dsimp only
  rw [q1, Outcome.bind_ok]
  rcases hx : r1.readNext with ⟨r2, o⟩
  rw [hx] at he
  simp only at he
  subst he
  refine ⟨r2, ?_⟩
  have h1 : LibLAS.cstr (lit "Unable to read point") = lit "Unable to read point" := by decide +kernel
  have h2 : LibLAS.cstr (lit "LASReader_GetSummaryXML") = lit "LASReader_GetSummaryXML" := by decide +kernel
  unfold CApi.pushError
  dsimp only
  rw [h1, h2]
  rfl

/-- A NULL handle is refused. -/
theorem summary_xml_null (env : Env) (bld : Build) (real : Fl → List Byte) (st : CApi.Errors) :
    summaryXml env bld real none st =
      .ok (none, none, ⟨3, lit "Pointer 'hReader' is NULL in 'LASReader_GetSummaryXML'.", lit "LASReader_GetSummaryXML"⟩ :: st) := by
  have h1 : LibLAS.cstr (lit ("Pointer '" ++ "hReader" ++ "' is NULL in '" ++ "LASReader_GetSummaryXML" ++ "'.")) =
    lit "Pointer 'hReader' is NULL in 'LASReader_GetSummaryXML'." := by decide +kernel
  have h2 : LibLAS.cstr (lit "LASReader_GetSummaryXML") = lit "LASReader_GetSummaryXML" := by decide +kernel
  unfold summaryXml CApi.nullError CApi.pushError
  dsimp only
  rw [h1, h2]
  rfl

/-! Examples. -/

/-- A file with these return bytes. -/
def returnsFile (flags : List Byte) : List Byte :=
  sampleFile (flags.map fun f => List.replicate 14 1#8 ++ [f] ++ List.replicate 13 2#8)

/-- A summary of such a file, after one point has been read, seen through the parser. -/
def summaryOf (flags : List Byte) (path : List String) : Outcome (Option (List Byte × List (List Byte))) := do
  let r ← Reader.make plainEnv (1, 2000) (IStream.onFile (returnsFile flags))
  let x ← summaryXml plainEnv ⟨.little, false⟩ (fun _ => []) (some (readStep r .next)) []
  match x with
  | (some text, _, _) => do
    let t ← readXml text
    pure ((element t path).map fun e => (e.data, e.kids.map fun k => ((element k.2 ["id"]).map PTree.data).getD [] ++ lit ":" ++ ((element k.2 ["count"]).map PTree.data).getD []))
  | _ => .ub

/-- The hypotheses of `summary_xml_partial` are met: a file of four points, with returns 1, 2, 2 and 0. -/
example : ∃ r, Reader.make plainEnv (1, 2000) (IStream.onFile (returnsFile [9#8, 0x12#8, 0x12#8, 0#8])) = .ok r ∧
    227 ≤ (returnsFile [9#8, 0x12#8, 0x12#8, 0#8]).length ∧ formatSize r.hdr.schema.fmt ≤ r.hdr.dataRecordLength ∧
    r.hdr.vlrs.find? VLR.isSchema = none ∧ 0 < r.hdr.pointCount.toNat ∧ (readStep r .next).filter.isNone = true ∧
    r.hdr.dataOffset.toNat + r.hdr.pointCount.toNat * r.hdr.dataRecordLength ≤ (returnsFile [9#8, 0x12#8, 0x12#8, 0#8]).length ∧
    ([r.hdr.scale.x, r.hdr.scale.y, r.hdr.scale.z, r.hdr.offset.x, r.hdr.offset.y, r.hdr.offset.z].all fun v =>
      match Fl.ofBits v with | .fin _ => true | _ => false) = true :=
  Outcome.exists_of_check (by decide +kernel)

/-- The theorem at work: two second returns; the point with return number 0 is in no list. -/
theorem summary_lists : summaryOf [0x12#8, 0x12#8, 0#8] ["summary", "points", "points_by_return"] =
    .ok (some ([], [lit "2:2"])) := by
  decide +kernel

/-- C94 refuted for return number 0: when no point has another one, the summary says that all of them are first returns. -/
theorem zero_returns_called_first : summaryOf [0#8, 0#8] ["summary", "points", "points_by_return"] =
    .ok (some ([], [lit "1:2"])) := by
  decide +kernel

end LibLAS.Xml
