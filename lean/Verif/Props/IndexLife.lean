import Verif.Lemmas.IndexSave
/-
C85: an index made by the library is usable, at once and after the file has been opened again.
-/
namespace LibLAS.Index
open Spec Point

variable {env : Env} {today : BitVec 16 × BitVec 16} {b : LibLAS.Build} {input : List Byte} {r : Reader} {s : Setup}

theorem run_nexts (n : Nat) : ∀ r : Reader, (readRun r (List.replicate n .next)).hdr = r.hdr ∧ (readRun r (List.replicate n .next)).filter = r.filter ∧
    (readRun r (List.replicate n .next)).xform = r.xform := by
  induction n with
  | zero => intro r; exact ⟨rfl, rfl, rfl⟩
  | succ n ih =>
    intro r
    have e : readRun r (List.replicate (n + 1) .next) = readRun r.readNext.1 (List.replicate n .next) := rfl
    obtain ⟨h1, h2, h3⟩ := ih r.readNext.1
    have hf := (Reader.readNext_forward r).1
    rw [e, h1, h2, h3]
    exact ⟨hf.hdr, hf.filter, hf.xform⟩

/-- Cells that fit one record, and records that fit a file. -/
def SmallIndex (env : Env) (h : LibLAS.Header) (g : Grid) (pts : List Pt) : Prop :=
  ∀ out, buildIndex g pts = .ok (some out) → (∀ e ∈ out, cellSize e.2 ≤ 65511) ∧
    ∀ dvs, outputIndex out = .ok dvs → h.headerSize.toNat + recordBytes (outputRecords env h) + recordBytes dvs + 1700 < 2 ^ 31

/-- What there is when the index has been made. -/
structure Made (env : Env) (today : BitVec 16 × BitVec 16) (b : LibLAS.Build) (s : Setup) (input : List Byte) (r : Reader) (g : Grid) (life : Life)
    (f : List Byte) (i : Info) (dvs : List VLR) (r' : Reader) : Prop where
  life : life = ⟨true, (headerRecord i :: dvs).foldl LibLAS.Header.addVLR r.hdr, some i, some f⟩
  info : i = newInfo s r.hdr g 43
  plain : ∀ v ∈ dvs, Plain v
  file : FileWith env today r.hdr (callersRecords r.hdr.schema.isCustom r.hdr.vlrs ++ (headerRecord i :: dvs) ++ laterRecords env r.hdr) f
    (if s.standalone then [] else pointRecords input r.hdr) r'
  min : r'.hdr.min = r.hdr.min
  max : r'.hdr.max = r.hdr.max
  records : r'.hdr.vlrs = (callersRecords r.hdr.schema.isCustom r.hdr.vlrs).map VLR.canon ++ headerRecord i :: (dvs ++ (laterRecords env r.hdr).map VLR.canon)
  counted : r'.hdr.recordsCount.toNat = r'.hdr.vlrs.length

set_option maxHeartbeats 1000000 in
theorem build_makes (hi : Copyable env today b input r) {g : Grid} (hg : GridFor b s input r.hdr g) (ht : s.temp = true)
    (hsm : SmallIndex env r.hdr g (pointsOf b input r.hdr)) : ∃ life f i dvs r' out, build env b s r r.hdr 43 = .ok life ∧ Made env today b s input r g life f i dvs r' ∧
      buildIndex g (pointsOf b input r.hdr) = .ok (some out) ∧ outputIndex out = .ok dvs ∧ ∀ e ∈ out, cellSize e.2 ≤ 65511 := by
  have hlen := pointsOf_length hi
  have hfew := hi.few
  obtain ⟨hrl, hrec⟩ := pointRecords_facts hi
  have ho := open_file hi.long hi.opens hi.schema
  -- the index of the points
  have hzp := AllInside.zPlaced hg.inside (show g.cellsZ < 2 ^ 32 by have := hg.zSmall; omega)
  obtain ⟨out, o1, o2, o3⟩ := build_shaped hg.ok (by rw [hg.temp]; exact ht) (placed_of_inside hg.ok hg.inside) hzp (by omega)
  have hfit : ∀ e ∈ out, Fits e := by
    intro e he
    have hm : e.1 ∈ g.cells := by rw [← o2]; exact List.mem_map_of_mem he
    have hm := mem_cells.1 (show (e.1.1, e.1.2) ∈ g.cells from hm)
    have hbd := hg.ok.bounds
    exact ((o3 e he).fits (by omega) (by omega) hzp (by omega)).1
  obtain ⟨hcells, hbytes⟩ := hsm out o1
  obtain ⟨dvs, d1, -, -⟩ := index_records hfit (fun e he => by have := hcells e he; omega)
  have hplain := output_plain hfit d1
  have hstor := fun v hv => (index_records_storable hfit (fun e he => by have := hcells e he; omega) d1 v hv).1
  have hb := hbytes dvs d1
  -- the file
  obtain ⟨i, hii⟩ : ∃ i, i = newInfo s r.hdr g 43 := ⟨_, rfl⟩
  have hhl := (index_header_length i).2
  have hsum : recordBytes (headerRecord i :: dvs) = 54 + (headerRecord i).data.length + recordBytes dvs := by unfold recordBytes; simp
  obtain ⟨w, hw, hout⟩ := index_target hi (i := i) hplain hstor (by rw [hsum]; omega)
  have hdl : ((headerRecord i :: dvs).foldl LibLAS.Header.addVLR r.hdr).dataRecordLength = r.hdr.dataRecordLength := by rw [foldl_addVLR]; rfl
  obtain ⟨ps, hps⟩ : ∃ ps, ps = if s.standalone then [] else pointRecords input r.hdr := ⟨_, rfl⟩
  have hpsl : (∀ p ∈ ps, p.length = r.hdr.dataRecordLength) ∧ ps.length < 2 ^ 32 := by
    rw [hps]
    split
    · simp
    · exact ⟨fun p hp => (hrec p hp).1, by omega⟩
  obtain ⟨w', r', e1, e2, e3, e4, e5, e6⟩ := written (today := today) hw (ps := ps) (by rw [hdl]; exact hpsl.1) hpsl.2
  -- the calls
  have hready := ready hi
  obtain ⟨r1, p1, p2, p3, p4, p5, p6, p7⟩ := rewind_ok hready hi.some hi.complete ho.filter ho.xform
  have hcl := coordsLoop_ok b (src := r.hdr.toP) _ r1 (r1.size + 1) p3 (fun p hp => (hrec p hp).2) (by rw [p4]) (by rw [p7]; have : (pointRecords input r.hdr).length = _ := hrl; unfold pointRecords at this; omega)
  obtain ⟨r2, hr2⟩ : ∃ r2, r2 = readRun r1 (List.replicate ((recordsFrom input r.hdr.dataOffset.toNat r.hdr.dataRecordLength 0 r.hdr.pointCount.toNat).length + 1) .next) := ⟨_, rfl⟩
  rw [← hr2] at hcl
  have h2 : r2.hdr = r.hdr ∧ r2.filter = none ∧ r2.xform = none := by
    obtain ⟨k1, k2, k3⟩ := run_nexts ((recordsFrom input r.hdr.dataOffset.toNat r.hdr.dataRecordLength 0 r.hdr.pointCount.toNat).length + 1) r1
    rw [← hr2] at k1 k2 k3
    exact ⟨k1.trans p4, k2.trans p5, k3.trans p6⟩
  have h2r : r2.Ready input r.hdr.dataOffset.toNat r.hdr.dataRecordLength r.hdr.pointCount.toNat := by
    rw [hr2]
    refine readRun_ready _ p2 ?_
    intro op hop
    rw [List.eq_of_mem_replicate hop]
    trivial
  have hsave : save env s.standalone r2 ((headerRecord i :: dvs).foldl LibLAS.Header.addVLR r.hdr) = .ok (some w'.close.buf) := by
    unfold save
    have : saveTo env s.standalone r2 ((headerRecord i :: dvs).foldl LibLAS.Header.addVLR r.hdr) = .ok w' := by
      unfold saveTo
      rw [hw.make, Outcome.bind_ok]
      by_cases hst : s.standalone = true
      · rw [hst] at hps ⊢
        rw [if_pos rfl] at hps ⊢
        subst hps
        cases e1
        rfl
      · rw [Bool.not_eq_true] at hst
        rw [hst] at hps ⊢
        rw [if_neg (by simp)] at hps ⊢
        subst hps
        obtain ⟨r3, u1, u2, u3, u4, u5, u6, u7⟩ := rewind_ok h2r hi.some hi.complete h2.2.1 h2.2.2
        rw [u1, Outcome.bind_ok]
        exact copyLoop_ok _ r3 w w' _ u3 e1 (by rw [u7]; unfold pointRecords at hrl; omega)
    rw [this]
  refine ⟨_, w'.close.buf, i, dvs, r', out, ?_, ⟨rfl, hii, hplain, ?_, ?_, ?_, ?_, e6⟩, o1, d1, hcells⟩
  · unfold build
    rw [p1, Outcome.bind_ok, p4, hg.chosen, Outcome.bind_ok]
    dsimp only
    rw [hcl, Outcome.bind_ok]
    dsimp only
    have hpt : List.map (xyz b r.hdr.toP) (recordsFrom input r.hdr.dataOffset.toNat r.hdr.dataRecordLength 0 r.hdr.pointCount.toNat) = pointsOf b input r.hdr := rfl
    rw [hpt, o1, Outcome.bind_ok]
    dsimp only
    rw [d1, Outcome.bind_ok, h2.1, ← hii, hsave, Outcome.bind_ok]
    rfl
  · rw [← hps]
    rw [hout] at e2
    have ef : (headerRecord i :: dvs).foldl LibLAS.Header.addVLR r.hdr = _ := foldl_addVLR _ _
    rw [ef] at e2
    exact ⟨e2.opens, e2.points, e2.count, e2.recordLength, e2.format, e2.scale, e2.offset, e2.version, e2.system, e2.software, e2.day, e2.year, e2.records, e2.bytes⟩
  · rw [e3, foldl_addVLR]
  · rw [e4, foldl_addVLR]
  · rw [e5, hout, List.map_append, List.map_append, List.map_cons, canon_headerRecord]
    have : dvs.map VLR.canon = dvs := by
      conv_rhs => rw [← List.map_id dvs]
      exact List.map_congr_left fun v hv => canon_plain (hplain v hv)
    rw [this]
    simp

theorem counted (hi : Copyable env today b input r) : r.hdr.recordsCount.toNat = r.hdr.vlrs.length := by
  have ho := open_file hi.long hi.opens hi.schema
  rw [ho.numbered, ho.records]

theorem prep_makes (hi : Indexable env today b input r) {g : Grid} (hg : GridFor b s input r.hdr g) (hro : s.readOnly = false) (ht : s.temp = true)
    (hsm : SmallIndex env r.hdr g (pointsOf b input r.hdr)) : ∃ life f i dvs r' out, prep env b s r none = .ok life ∧ Made env today b s input r g life f i dvs r' ∧
      buildIndex g (pointsOf b input r.hdr) = .ok (some out) ∧ outputIndex out = .ok dvs ∧ ∀ e ∈ out, cellSize e.2 ≤ 65511 := by
  obtain ⟨life, f, i, dvs, r', out, h1, h2⟩ := build_makes hi.toCopyable hg ht hsm
  refine ⟨life, f, i, dvs, r', out, ?_, h2⟩
  unfold prep
  simp only [Option.getD_none]
  rw [counted hi.toCopyable, findHeader_none _ 0 (by omega) hi.fresh, bindOk]
  dsimp only
  unfold buildUnlessReadOnly
  rw [hro, if_neg (by simp), h1]

theorem answers {g : Grid} {pts : List Pt} (hg : GridOK g) (ht : g.temp = true) (hl : pts.length ≤ 2 ^ 28) (hz0 : 0 < g.cellsZ) (hz : g.cellsZ < 2 ^ 29)
    (hb : AllInside g pts) {i : Info} (hif : InfoFits i) (hver : 1 < i.major ∨ (i.major = 1 ∧ 2 ≤ i.minor)) (hd : Describes i g) {pre post dvs : List VLR}
    (hpre : ∀ v ∈ pre, NotIndex v) (hpost : ∀ v ∈ post, NotIndex v) {out : List ((Nat × Nat) × Cell)} (h1 : buildIndex g pts = .ok (some out))
    (h2 : outputIndex out = .ok dvs) (hs : ∀ e ∈ out, cellSize e.2 ≤ 65511) : AnswersWindows g pts (pre ++ headerRecord i :: (dvs ++ post)) := by
  intro l u q pos mx my mz hq hsome hqz
  obtain ⟨out', dvs', R, k1, k2, k3, k4, k5, k6⟩ := index_window_partial hg ht hl hz0 hz hb hif hver hd hpre hpost mx my mz hq hsome hqz pos
  rw [h1] at k1
  injection k1 with k1
  injection k1 with k1
  subst k1
  rw [h2] at k2
  injection k2 with k2
  subst k2
  exact ⟨R, k3, k4, k5, fun id p hp dx dy dz => k6 id p hp dx dy dz fun e he _ => hs e he⟩

theorem notIndex_later (hi : Indexable env today b input r) : ∀ v ∈ laterRecords env r.hdr, NotIndex v := by
  have ho := open_file hi.long hi.opens hi.schema
  intro v hv hc
  have hidx : IsIndex v := ⟨hc.1, hc.2⟩
  unfold laterRecords at hv
  rcases List.mem_append.1 hv with hv | hv
  · unfold referenceRecords at hv
    have hm := List.mem_of_mem_filter hv
    rw [ho.reference] at hm
    exact hi.fresh v (List.mem_of_mem_filter hm) hc
  · unfold schemaRecords at hv
    split at hv
    · rcases hx : Schema.getVLR env r.hdr.schema with v' | e | _
      · rw [hx] at hv
        dsimp only at hv
        rw [List.mem_singleton] at hv
        have h7 : v'.recordId = 7#16 := by
          unfold Schema.getVLR at hx
          dsimp only at hx
          split at hx
          · cases hx
          · injection hx with hx
            rw [← hx]
            rfl
        rw [hv] at hc
        rcases hc.2 with k | k <;> rw [h7] at k <;> revert k <;> decide
      · rw [hx] at hv; simp at hv
      · rw [hx] at hv; simp at hv
    · simp at hv

/-- The property, for an index whose cells fit one record each. -/
theorem made_usable (hi : Indexable env today b input r) {g : Grid} (hg : GridFor b s input r.hdr g) (ht : s.temp = true) {life : Life} {f : List Byte} {i : Info}
    {dvs : List VLR} {r' : Reader} (hm : Made env today b s input r g life f i dvs r') {out : List ((Nat × Nat) × Cell)}
    (h1 : buildIndex g (pointsOf b input r.hdr) = .ok (some out)) (h2 : outputIndex out = .ok dvs) (hs : ∀ e ∈ out, cellSize e.2 ≤ 65511) :
    AnswersWindows g (pointsOf b input r.hdr) life.hdr.vlrs ∧ AnswersWindows g (pointsOf b input r.hdr) r'.hdr.vlrs ∧
    ∀ s' : Setup, s'.forceNew = false → prep env b s' r (some r'.hdr) = .ok ⟨true, r'.hdr, some (keptInfo i), none⟩ ∧
      (s.standalone = false → prep env b s' r' none = .ok ⟨true, r'.hdr, some (keptInfo i), none⟩) := by
  have hlen := pointsOf_length hi.toCopyable
  have hfew := hi.few
  have hif : InfoFits i := by rw [hm.info]; exact hg.fits
  have hd : Describes i g := by rw [hm.info]; exact hg.describes
  have hver : 1 < i.major ∨ (i.major = 1 ∧ 2 ≤ i.minor) := by rw [hm.info]; exact Or.inr ⟨rfl, le_refl _⟩
  have htemp : g.temp = true := by rw [hg.temp]; exact ht
  have hpre : ∀ v ∈ (callersRecords r.hdr.schema.isCustom r.hdr.vlrs).map VLR.canon, NotIndex v := by
    intro v hv
    obtain ⟨u, hu, rfl⟩ := List.mem_map.1 hv
    exact notIndex_canon (hi.fresh u (List.mem_of_mem_filter hu))
  have hpost : ∀ v ∈ (laterRecords env r.hdr).map VLR.canon, NotIndex v := by
    intro v hv
    obtain ⟨u, hu, rfl⟩ := List.mem_map.1 hv
    exact notIndex_canon (notIndex_later hi u hu)
  have hb : i.bounds.equal (headerBounds r.hdr) = .ok true := by
    refine bounds_self ?_ hg.finite
    rw [hm.info]
    exact ⟨rfl, rfl, rfl, rfl, rfl, rfl⟩
  have hb' : i.bounds.equal (headerBounds r'.hdr) = .ok true := by
    have : headerBounds r'.hdr = headerBounds r.hdr := by unfold headerBounds; rw [hm.min, hm.max]
    rw [this]; exact hb
  have hpts : i.points = r.hdr.pointCount.toNat := by rw [hm.info]; rfl
  refine ⟨?_, ?_, ?_⟩
  · rw [hm.life]
    have := answers hg.ok htemp (by omega) hg.zPos hg.zSmall hg.inside hif hver hd hi.fresh (post := []) (by simp) h1 h2 hs
    rw [List.append_nil] at this
    show AnswersWindows g _ ((headerRecord i :: dvs).foldl LibLAS.Header.addVLR r.hdr).vlrs
    rw [foldl_addVLR]
    exact this
  · rw [hm.records]
    exact answers hg.ok htemp (by omega) hg.zPos hg.zSmall hg.inside hif hver hd hpre hpost h1 h2 hs
  · intro s' hf
    refine ⟨prep_accepts rfl hf hif hm.records hm.counted hpre hb hpts.symm, fun hst => ?_⟩
    refine prep_accepts rfl hf hif hm.records hm.counted hpre hb' ?_
    have := hm.file.count
    rw [hst, if_neg (by simp), (pointRecords_facts hi.toCopyable).1] at this
    rw [this, hpts]

/-- **C85** A file that can be indexed, given to `Prep` by a caller who may write and has named a temporary file: the index is made and saved. The
file written opens, with the points of the input (none if the index is to have a file of its own), its bounds, its header values and its caller's
records around those of the index; `Prep` then takes the index in the file as it is and writes nothing, for the new file as for the input with the
header of the new file; and its records, those in memory as those in the file, answer windows as they should. Missing: cells that need more than
one record (refuted, C44), files that carry an index (C86), points outside the bounds (refuted, C41). -/
theorem index_made_partial (hi : Indexable env today b input r) {σ z0 z1 : ℚ} (hh : Heights b s input r.hdr σ z0 z1) (hro : s.readOnly = false)
    (ht : s.temp = true) (hsm : ∀ g, chooseGrid s r.hdr = .ok (some g) → SmallIndex env r.hdr g (pointsOf b input r.hdr)) :
    ∃ g ih i f r' index, chooseGrid s r.hdr = .ok (some g) ∧ prep env b s r none = .ok ⟨true, ih, some i, some f⟩ ∧
      (∀ v ∈ index, IsIndex v) ∧
      FileWith env today r.hdr (callersRecords r.hdr.schema.isCustom r.hdr.vlrs ++ index ++ laterRecords env r.hdr) f
        (if s.standalone then [] else pointRecords input r.hdr) r' ∧
      r'.hdr.min = r.hdr.min ∧ r'.hdr.max = r.hdr.max ∧
      (∀ s' : Setup, s'.forceNew = false → prep env b s' r (some r'.hdr) = .ok ⟨true, r'.hdr, some (keptInfo i), none⟩ ∧
        (s.standalone = false → prep env b s' r' none = .ok ⟨true, r'.hdr, some (keptInfo i), none⟩)) ∧
      AnswersWindows g (pointsOf b input r.hdr) ih.vlrs ∧ AnswersWindows g (pointsOf b input r.hdr) r'.hdr.vlrs := by
  obtain ⟨g, hg⟩ := grid_for hi.toCopyable hh
  obtain ⟨life, f, i, dvs, r', out, h1, h2, h3, h4, h5⟩ := prep_makes hi hg hro ht (hsm g hg.chosen)
  obtain ⟨a1, a2, a3⟩ := made_usable hi hg ht h2 h3 h4 h5
  rw [h2.life] at h1 a1
  refine ⟨g, _, i, f, r', headerRecord i :: dvs, hg.chosen, h1, ?_, h2.file, h2.min, h2.max, a3, a1, a2⟩
  intro v hv
  rcases List.mem_cons.1 hv with rfl | hv
  · exact ⟨headerRecord_name i, Or.inl rfl⟩
  · exact ⟨(plain_name (h2.plain v hv)).1, Or.inr (plain_name (h2.plain v hv)).2⟩

theorem records_few {cs : List ((Nat × Nat) × Cell)} (hf : ∀ e ∈ cs, Fits e) (hs : ∀ e ∈ cs, cellSize e.2 ≤ 65511) {dvs : List VLR} (ho : outputIndex cs = .ok dvs) :
    recordBytes dvs ≤ 65589 * (cs.map fun e => e.2.numPoints).sum := by
  have hplain := output_plain hf ho
  obtain ⟨vss, h1, h2⟩ := output_groups fun e he => (hf e he).num
  rw [h1] at ho
  injection ho with ho
  subst ho
  have hb : ∀ l : List VLR, (∀ v ∈ l, Plain v) → recordBytes l ≤ 65589 * l.length := by
    intro l
    induction l with
    | nil => intro _; exact Nat.zero_le _
    | cons v l ih =>
      intro h
      have e : recordBytes (v :: l) = 54 + v.data.length + recordBytes l := by unfold recordBytes; simp
      have h3 := (h v List.mem_cons_self).2.2.2.2.1
      have h4 := ih fun u hu => h u (List.mem_cons_of_mem _ hu)
      unfold maxVLR at h3
      rw [e, List.length_cons]
      omega
  refine (hb _ hplain).trans (Nat.mul_le_mul_left _ ?_)
  have hone : ∀ (gs : List Grp) (vss : List (List VLR)), List.Forall₂ Holds gs vss → (∀ g ∈ gs, g.size ≤ maxVLR) → vss.flatten.length = gs.length := by
    intro gs vss h
    induction h with
    | nil => intro _; rfl
    | cons h _ ih =>
      intro hs
      obtain ⟨v, rs, -, -, -, e, -, -, -, -, -, hrs⟩ := h.data
      rw [e, hrs (hs _ List.mem_cons_self), List.flatten_cons, List.length_append, ih fun g hg => hs g (List.mem_cons_of_mem _ hg)]
      simp; omega
  have hsz : ∀ g ∈ groups cs, g.size ≤ maxVLR := by
    intro g hg
    have k := groups_ok cs g hg
    rcases k.size with k1 | ⟨e, k1⟩
    · exact k1
    · have he := (k.cells e (by rw [k1]; simp)).1
      have := hs e he
      have e2 : g.size = 24 + cellSize e.2 := by
        unfold Grp.size Grp.body
        rw [k1]
        have h3 := entryLen_eq (hf e he)
        unfold Grouping.entryLen at h3
        simp [h3]
      unfold maxVLR
      omega
  rw [hone _ _ h2 hsz]
  have hcnt : ∀ gs : List Grp, (∀ g ∈ gs, g.cells ≠ []) → gs.length ≤ (gs.flatMap Grp.cells).length := by
    intro gs
    induction gs with
    | nil => intro _; exact Nat.le_refl _
    | cons g gs ih =>
      intro h
      have h3 := List.length_pos_iff.2 (h g List.mem_cons_self)
      have h4 := ih fun u hu => h u (List.mem_cons_of_mem _ hu)
      rw [List.flatMap_cons, List.length_append, List.length_cons]
      omega
  refine (hcnt _ (groups_nonempty cs)).trans ?_
  rw [groups_cells]
  clear hcnt hsz hone hb hplain h1 h2 hf hs
  induction cs with
  | nil => exact Nat.le_refl _
  | cons e cs ih =>
    rw [List.filter_cons, List.map_cons, List.sum_cons]
    split
    · rename_i h
      have : e.2.numPoints ≠ 0 := by simpa using h
      rw [List.length_cons]
      omega
    · omega

/-- C85 for files of up to 5000 points, where no cell can be too long. -/
theorem index_made_small (hi : Copyable env today b input r) {σ z0 z1 : ℚ} (hh : Heights b s input r.hdr σ z0 z1) (ht : s.temp = true)
    (hn : r.hdr.pointCount.toNat ≤ 5000) (hsize : recordBytes (outputRecords env r.hdr) ≤ 2 ^ 30) :
    ∀ g, chooseGrid s r.hdr = .ok (some g) → SmallIndex env r.hdr g (pointsOf b input r.hdr) := by
  intro g hc
  obtain ⟨g', hg⟩ := grid_for hi hh
  have : g' = g := by
    have := hg.chosen
    rw [hc] at this
    injection this with this
    injection this with this
    exact this.symm
  subst this
  have hlen := pointsOf_length hi
  have hzp := AllInside.zPlaced hg.inside (show g'.cellsZ < 2 ^ 32 by have := hg.zSmall; omega)
  have hpl := placed_of_inside hg.ok hg.inside
  obtain ⟨out, o1, o2, o3⟩ := build_shaped hg.ok (by rw [hg.temp]; exact ht) hpl hzp (by omega)
  have hfit : ∀ e ∈ out, Fits e ∧ cellSize e.2 ≤ 28 + 13 * (pointsOf b input r.hdr).length ∧ (cellIds e.2).length = e.2.numPoints := by
    intro e he
    have hm : e.1 ∈ g'.cells := by rw [← o2]; exact List.mem_map_of_mem he
    have hm := mem_cells.1 (show (e.1.1, e.1.2) ∈ g'.cells from hm)
    have hbd := hg.ok.bounds
    exact (o3 e he).fits (by omega) (by omega) hzp (by omega)
  have hsum : (out.map fun e => e.2.numPoints).sum ≤ (pointsOf b input r.hdr).length := by
    have hperm := all_ids hpl o2 fun e he => (o3 e he).cellOK hzp
    have hl := hperm.length_eq
    rw [List.length_flatMap, List.length_range] at hl
    have : (out.map fun e => (cellIds e.2).length) = out.map fun e => e.2.numPoints := List.map_congr_left fun e he => (hfit e he).2.2
    rw [this] at hl
    omega
  intro out' h'
  rw [o1] at h'
  injection h' with h'
  injection h' with h'
  subst h'
  have hs : ∀ e ∈ out, cellSize e.2 ≤ 65511 := fun e he => by have := (hfit e he).2.1; omega
  refine ⟨hs, fun dvs hd => ?_⟩
  have := records_few (fun e he => (hfit e he).1) hs hd
  have h16 := r.hdr.headerSize.isLt
  have : 65589 * (out.map fun e => e.2.numPoints).sum ≤ 65589 * 5000 := Nat.mul_le_mul_left _ (by omega)
  omega

end LibLAS.Index
namespace LibLAS.Index
open Spec Point

/-- A file of four points on an area of 40 by 30, 10 high, in whole units. -/
def areaFile : List Byte :=
  match session plainEnv [] { areaHeader 0 with scale := ⟨Fl.toBits (.fin 1), Fl.toBits (.fin 1), Fl.toBits (.fin 1)⟩, offset := ⟨0#64, 0#64, 0#64⟩ }
    ([(1, 2, 3), (20, 15, 5), (39, 29, 9), (40, 30, 10)].map fun (p : Nat × Nat × Nat) =>
      put32 p.1 ++ put32 p.2.1 ++ put32 p.2.2 ++ List.replicate 16 0#8) with
  | .ok f => f
  | _ => []

theorem between_whole {lo hi : Fl} {a c d : Int} (h1 : lo = .fin a) (h2 : hi = .fin c) (h3 : a ≤ d ∧ d ≤ c ∧ a < c ∧ |a| ≤ 1000 ∧ |c| ≤ 1000) : Between lo hi (.fin d) := by
  obtain ⟨h3, h4, h5, h6, h7⟩ := h3
  have big : (1000 : ℚ) ≤ 2 ^ 1000 := (show (1000 : ℚ) ≤ 2 ^ 10 by norm_num).trans (pow_le_pow_right₀ (by norm_num) (by norm_num))
  have small : (1 : ℚ) / 2 ^ 900 ≤ 1 := by rw [div_le_one (by positivity)]; exact one_le_pow₀ (by norm_num)
  have k : ∀ z : Int, |z| ≤ 1000 → |(z : ℚ)| ≤ 2 ^ 1000 := by
    intro z hz
    refine le_trans ?_ big
    exact_mod_cast hz
  refine ⟨a, c, d, h1, h2, rfl, by exact_mod_cast h3, by exact_mod_cast h4, k _ h6, k _ h7, small.trans ?_⟩
  have : (a : ℚ) + 1 ≤ c := by exact_mod_cast h5
  linarith

/-- The hypotheses of `index_made_partial` and `index_made_small` on that file, without layers. -/
theorem area_indexable : ∃ r, Indexable plainEnv (1, 2000) ⟨.little, false⟩ areaFile r ∧
    Heights ⟨.little, false⟩ (areaSetup (.fin 0)) areaFile r.hdr 0 0 10 ∧ r.hdr.pointCount.toNat ≤ 5000 ∧
    recordBytes (outputRecords plainEnv r.hdr) ≤ 2 ^ 30 := by
  obtain ⟨r, e, a1, a2, a3, a4, a5, a6, a7, a8, a9, a10, a11, a12, a13, a14, a15, a16, a17, a18⟩ :
      ∃ r, Reader.make plainEnv (1, 2000) (IStream.onFile areaFile) = .ok r ∧
      (227 ≤ areaFile.length ∧ r.hdr.vlrs.find? VLR.isSchema = none ∧ formatSize r.hdr.schema.fmt ≤ r.hdr.dataRecordLength ∧
        r.hdr.dataOffset.toNat + r.hdr.pointCount.toNat * r.hdr.dataRecordLength ≤ areaFile.length ∧ r.hdr.pointCount.toNat = 4 ∧
        227 ≤ r.hdr.headerSize.toNat ∧ r.hdr.schema.isCustom = false ∧ (outputRecords plainEnv r.hdr).find? VLR.isSchema = none ∧
        r.hdr.dataOffset.toNat ≤ r.hdr.headerSize.toNat + recordBytes (outputRecords plainEnv r.hdr) + 54 ∧
        (r.hdr.vlrs.all fun v => v.getUserId false != lit "liblas") = true ∧
        recordBytes (outputRecords plainEnv r.hdr) ≤ 2 ^ 30 ∧
        Fl.ofBits r.hdr.min.x = .fin 0 ∧ Fl.ofBits r.hdr.max.x = .fin 40 ∧ Fl.ofBits r.hdr.min.y = .fin 0 ∧ Fl.ofBits r.hdr.max.y = .fin 30 ∧
        Fl.ofBits r.hdr.min.z = .fin 0 ∧ Fl.ofBits r.hdr.max.z = .fin 10 ∧
        pointsOf ⟨.little, false⟩ areaFile r.hdr = [pt 1 2 3, pt 20 15 5, pt 39 29 9, pt 40 30 10]) :=
    Outcome.exists_of_check (by decide +kernel)
  refine ⟨r, ⟨⟨e, a1, noSchema_none a2, a3, a4, by omega, by omega, a6, fun h => (by rw [a7] at h; cases h), noSchema_none a8, a9, ?_⟩, ?_⟩, ?_, by omega, a11⟩
  swap
  · intro v hv hc
    have := List.all_eq_true.1 a10 v hv
    rw [hc.1] at this
    simp at this
  · intro p hp
    rw [a18] at hp
    have hall : ∃ i j k : Int, p = pt i j k ∧ 0 ≤ i ∧ i ≤ 40 ∧ 0 ≤ j ∧ j ≤ 30 := by
      simp only [List.mem_cons, List.not_mem_nil, or_false] at hp
      rcases hp with h | h | h | h
      all_goals exact ⟨_, _, _, h, by norm_num, by norm_num, by norm_num, by norm_num⟩
    obtain ⟨i, j, k, rfl, h1, h2, h3, h4⟩ := hall
    exact ⟨between_whole (a := 0) (c := 40) (by rw [a12]; rfl) (by rw [a13]; rfl) ⟨h1, h2, by norm_num, by norm_num, by norm_num⟩,
      between_whole (a := 0) (c := 30) (by rw [a14]; rfl) (by rw [a15]; rfl) ⟨h3, h4, by norm_num, by norm_num, by norm_num⟩⟩
  · exact ⟨rfl, Fl.ofBits_rep (b := 0#64) (by decide +kernel), a16, a17, by norm_num, Or.inl (by positivity)⟩

/-- The theorem at work: the index is made, saved with the file, and used from there. -/
theorem area_made : ∃ r g ih i f r' index, Reader.make plainEnv (1, 2000) (IStream.onFile areaFile) = .ok r ∧ chooseGrid (areaSetup (.fin 0)) r.hdr = .ok (some g) ∧
    prep plainEnv ⟨.little, false⟩ (areaSetup (.fin 0)) r none = .ok ⟨true, ih, some i, some f⟩ ∧ (∀ v ∈ index, IsIndex v) ∧
    FileWith plainEnv (1, 2000) r.hdr (callersRecords r.hdr.schema.isCustom r.hdr.vlrs ++ index ++ laterRecords plainEnv r.hdr) f (pointRecords areaFile r.hdr) r' ∧
    prep plainEnv ⟨.little, false⟩ (areaSetup (.fin 0)) r' none = .ok ⟨true, r'.hdr, some (keptInfo i), none⟩ ∧
    AnswersWindows g (pointsOf ⟨.little, false⟩ areaFile r.hdr) r'.hdr.vlrs := by
  obtain ⟨r, h1, h2, h3, h4⟩ := area_indexable
  obtain ⟨g, ih, i, f, r', index, k1, k2, k3, k4, -, -, k5, -, k6⟩ := index_made_partial h1 h2 rfl rfl (index_made_small h1.toCopyable h2 rfl h3 h4)
  exact ⟨r, g, ih, i, f, r', index, h1.opens, k1, k2, k3, k4, (k5 _ rfl).2 rfl, k6⟩

/-- A whole session: open, make the index, open the file written, use the index there with a window. -/
def indexSession (s : Setup) (input : List Byte) (l u : Pt) : Outcome (Bool × Bool × List Nat) := do
  let r ← Reader.make plainEnv (1, 2000) (IStream.onFile input)
  let life ← prep plainEnv ⟨.little, false⟩ s r none
  let r' ← Reader.make plainEnv (1, 2000) (IStream.onFile (life.file.getD []))
  let again ← prep plainEnv ⟨.little, false⟩ s r' none
  let ids ← match again.info with
    | some i => filter (pointsOf ⟨.little, false⟩ (life.file.getD []) r'.hdr) again.hdr.vlrs (Query.set i.grid l u) 0
    | none => .ok []
  pure (again.ready, again.file.isSome, ids)

example : ∃ x, indexSession (areaSetup (.fin 0)) areaFile (pt 15 10 0) (pt 45 29 10) = .ok x ∧ x = (true, false, [1, 2]) :=
  Outcome.exists_of_check (by decide +kernel)

end LibLAS.Index
