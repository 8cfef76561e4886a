import Verif.Lemmas.IndexRead
import Verif.Props.Index
import Verif.Props.Records
/-
C43: the data records of the spatial index.
-/
namespace LibLAS.Index
open Spec

theorem forall₂_mem_right {α β : Type} {R : α → β → Prop} {as : List α} {bs : List β} (h : List.Forall₂ R as bs) {b : β} (hb : b ∈ bs) :
    ∃ a ∈ as, R a b := by
  induction h with
  | nil => simp at hb
  | cons hr _ ih =>
    rcases List.mem_cons.1 hb with rfl | hb
    · exact ⟨_, by simp, hr⟩
    · obtain ⟨a, a1, a2⟩ := ih hb
      exact ⟨a, by simp [a1], a2⟩

theorem sizes {cs : List ((Nat × Nat) × Cell)} (h : ∀ e ∈ cs, Fits e) (hs : ∀ e ∈ cs, 24 + cellSize e.2 < 2 ^ 32) :
    ∀ e ∈ cs, 24 + Grouping.entryLen e < 2 ^ 32 := fun e he => by rw [entryLen_eq (h e he)]; exact hs e he

/-- C43, in memory: whatever the cells, of any sizes, they are written into records of at most 65535 bytes, and reading the
records as queries do meets exactly the cells with points, in order, each with all its parts and runs. -/
theorem index_records {cs : List ((Nat × Nat) × Cell)} (h : ∀ e ∈ cs, Fits e) (hs : ∀ e ∈ cs, 24 + cellSize e.2 < 2 ^ 32) :
    ∃ vs, outputIndex cs = .ok vs ∧ readAll vs.length vs = .ok (some (contents cs)) ∧
      ∀ v ∈ vs, v.data.length ≤ 65535 ∧ v.getUserId false = lit "liblas" ∧ v.recordId = 43#16 := by
  obtain ⟨vss, h1, h2⟩ := output_groups fun e he => (h e he).num
  refine ⟨_, h1, ?_, ?_⟩
  · rw [readAll_groups h2 (groups_fit h (sizes h hs)) _ (le_refl _), groups_cells]; rfl
  · intro v hv
    obtain ⟨vs, hvs, hv⟩ := List.mem_flatten.1 hv
    obtain ⟨g, -, hg⟩ := forall₂_mem_right h2 hvs
    obtain ⟨p1, p2, p3, p4, p5, p6⟩ := hg.plain v hv
    refine ⟨p5, ?_, p2⟩
    unfold VLR.getUserId
    rw [p1]; decide

/-- The records are ones a file can hold, with the length of their data, if no cell is too long for one record. -/
theorem index_records_storable {cs : List ((Nat × Nat) × Cell)} (h : ∀ e ∈ cs, Fits e) (hs : ∀ e ∈ cs, 24 + cellSize e.2 ≤ 65535)
    {vs : List VLR} (ho : outputIndex cs = .ok vs) : ∀ v ∈ vs, StorableRecord v ∧ v.getDescription false = lit "LibLAS Index Data" ∧ v.reserved = 0xAABB := by
  obtain ⟨vss, h1, h2⟩ := output_groups fun e he => (h e he).num
  rw [h1] at ho
  injection ho with ho
  subst ho
  intro v hv
  obtain ⟨vs, hvs, hv⟩ := List.mem_flatten.1 hv
  obtain ⟨g, hgm, hg⟩ := forall₂_mem_right h2 hvs
  obtain ⟨p1, -, p3, p4, -, -⟩ := hg.plain v hv
  refine ⟨⟨by rw [p1]; decide, by rw [p3]; decide, hg.exact ?_ v hv⟩, by unfold VLR.getDescription; rw [p3]; decide, by rw [p4]; decide⟩
  have k := groups_ok cs g hgm
  rcases k.size with k1 | ⟨e, k1⟩
  · exact k1
  · have he := (k.cells e (by rw [k1]; simp)).1
    have := hs e he
    have h3 := entryLen_eq (h e he)
    have h4 : g.size = 24 + Grouping.entryLen e := by unfold Grp.size Grp.body; rw [k1]; simp [Grouping.entryLen]
    show g.size ≤ 65535
    omega

theorem readAll_same {vs ws : List VLR} (h : List.Forall₂ SameRecord vs ws) : ∀ fuel, readAll fuel ws = readAll fuel vs := by
  have hb : ∀ v w, SameRecord v w → recordBytesOf w = recordBytesOf v := by
    intro v w hvw
    unfold recordBytesOf
    rw [hvw.2.2.1, hvw.2.2.2.1]
  have hm : ∀ (size : Nat) (rs ss : List VLR), List.Forall₂ SameRecord rs ss → ∀ got used, gatherMore size got used ss = gatherMore size got used rs := by
    intro size rs ss hr
    induction hr with
    | nil => intro got used; rfl
    | cons hv hr ih =>
      intro got used
      unfold gatherMore
      simp only [hb _ _ hv, ih]
  have hgt : ∀ v w rs ss, SameRecord v w → List.Forall₂ SameRecord rs ss → gather w ss = gather v rs := by
    intro v w rs ss hv hr
    unfold gather
    rw [hb _ _ hv]
    simp only [hm _ _ _ hr]
  have hdrop : ∀ (rs ss : List VLR), List.Forall₂ SameRecord rs ss → ∀ n, List.Forall₂ SameRecord (rs.drop n) (ss.drop n) := by
    intro rs ss hr n
    exact List.forall₂_drop n hr
  intro fuel
  induction fuel generalizing vs ws with
  | zero =>
    cases h with
    | nil => rfl
    | cons _ _ => rfl
  | succ fuel ih =>
    cases h with
    | nil => rfl
    | cons hv hr =>
      unfold readAll
      rw [hgt _ _ _ _ hv hr]
      congr 1
      funext g
      cases g with
      | none => rfl
      | some g =>
        simp only [ih (hdrop _ _ hr (g.used - 1))]

theorem same_index {vs ws : List VLR} (h : List.Forall₂ SameRecord vs ws) : List.Forall₂ SameRecord (indexRecords vs) (indexRecords ws) := by
  induction h with
  | nil => exact .nil
  | cons hv hr ih =>
    rename_i v w vs ws
    unfold indexRecords at *
    rw [List.filter_cons, List.filter_cons, hv.2.2.2.2.1, hv.2.1]
    split
    · exact .cons hv ih
    · exact ih

/-- C43, through a file: if no cell takes more than 65511 bytes, the cells are read back from a file that was written
with the records of the index among the records of its header. Missing: longer cells, see `index_refuted_long`. -/
theorem index_file_partial (env : Env) (today : BitVec 16 × BitVec 16) {h : Header} {w w' : Writer} {r : Reader}
    (hs : StorableHeader h) (hmk : Writer.make env (OStream.onFile []) h = .ok w)
    (hsmall : h.headerSize.toNat + recordBytes w.hdr.vlrs + 4 < 2 ^ 31)
    (hschema : NoSchema env w.hdr.vlrs) (h0 : 0 < h.dataRecordLength)
    (pts : List (List Byte)) (hp : ∀ p ∈ pts, h.dataRecordLength ≤ p.length) (hn : pts.length < 2 ^ 32)
    (hwr : w.writePoints pts = .ok w') (hr : Reader.make env today (IStream.onFile w'.close.buf) = .ok r)
    {cs : List ((Nat × Nat) × Cell)} (hf : ∀ e ∈ cs, Fits e) (hc : ∀ e ∈ cs, 24 + cellSize e.2 ≤ 65535)
    (ho : outputIndex cs = .ok (indexRecords h.vlrs)) (hsrs : indexRecords h.srs = []) :
    readAll (indexRecords r.hdr.vlrs).length (indexRecords r.hdr.vlrs) = .ok (some (contents cs)) := by
  have key := same_index (written_records_partial env today hs hmk hsmall hschema h0 pts hp hn hwr hr)
  have e1 : indexRecords (callersRecords h.schema.isCustom h.vlrs ++ referenceRecords h.schema.isCustom h.srs ++
      schemaRecords env h.schema) = indexRecords h.vlrs := by
    have hname : ∀ v : VLR, (v.getUserId false = lit "liblas" ∧ v.recordId = 43#16) → recordName v = (lit "liblas", 43) := by
      intro v hv; exact Prod.ext hv.1 hv.2
    have hno : ∀ c, ((lit "liblas", 43#16) : List Byte × BitVec 16) ∉ geoNames ++ ownNames c ∧
        ((lit "liblas", 43#16) : List Byte × BitVec 16) ∉ ownNames c := by decide
    have a1 : indexRecords (callersRecords h.schema.isCustom h.vlrs) = indexRecords h.vlrs := by
      unfold indexRecords callersRecords
      rw [List.filter_filter]
      apply List.filter_congr
      intro v _
      rw [Bool.eq_iff_iff]
      simp only [Bool.and_eq_true, decide_eq_true_eq]
      refine ⟨fun h => h.1, fun hv => ⟨hv, ?_⟩⟩
      rw [hname v hv]; exact (hno _).1
    have a2 : indexRecords (referenceRecords h.schema.isCustom h.srs) = [] := by
      unfold referenceRecords
      unfold indexRecords at hsrs ⊢
      rw [List.filter_filter, List.filter_eq_nil_iff]
      intro v hv hx
      simp only [Bool.and_eq_true] at hx
      exact (List.filter_eq_nil_iff.1 hsrs) v hv hx.1
    have a3 : indexRecords (schemaRecords env h.schema) = [] := by
      unfold schemaRecords
      split
      · cases hv : h.schema.getVLR env with
        | throw e => rfl
        | ub => rfl
        | ok v =>
          have := (getVLR_ok hv).2.2
          unfold VLR.isSchema at this
          simp only [Bool.and_eq_true, beq_iff_eq] at this
          simp only [indexRecords]
          rw [List.filter_eq_nil_iff]
          intro u hu hx
          simp only [List.mem_singleton] at hu
          subst hu
          simp only [decide_eq_true_eq] at hx
          rw [this.2] at hx
          exact absurd hx.2 (by decide)
      · rfl
    unfold indexRecords at *
    rw [List.filter_append, List.filter_append, a1, a2, a3]; simp
  rw [e1] at key
  rw [readAll_same key]
  have hlen := key.length_eq
  rw [← hlen]
  have hlt : ∀ e ∈ cs, 24 + cellSize e.2 < 2 ^ 32 := fun e he => by have := hc e he; omega
  obtain ⟨vs, v1, v2, -⟩ := index_records hf hlt
  rw [ho] at v1
  injection v1 with v1
  rw [v1]; exact v2

/-- C41 and C43 together: the index built for points inside the bounds is written, and reading its records meets the cells. -/
theorem built_index_records {g : Grid} {pts : List Pt} (hg : GridOK g) (ht : g.temp = true) (hl : pts.length ≤ 2 ^ 28)
    (hz : g.cellsZ < 2 ^ 32) (hb : AllInside g pts) :
    ∃ out vs, buildIndex g pts = .ok (some out) ∧ outputIndex out = .ok vs ∧ readAll vs.length vs = .ok (some (contents out)) := by
  have hp := placed_of_inside hg hb
  obtain ⟨out, o1, o2, o3⟩ := build_shaped hg ht hp (AllInside.zPlaced hb hz) (by omega)
  have hfit : ∀ e ∈ out, Fits e ∧ cellSize e.2 ≤ 28 + 13 * pts.length ∧ (cellIds e.2).length = e.2.numPoints := by
    intro e he
    have hm : e.1 ∈ g.cells := by rw [← o2]; exact List.mem_map_of_mem he
    have := mem_cells.1 (show (e.1.1, e.1.2) ∈ g.cells from hm)
    have hbd := hg.bounds
    exact (o3 e he).fits (by omega) (by omega) (AllInside.zPlaced hb hz) (by omega)
  obtain ⟨vs, v1, v2, -⟩ := index_records (fun e he => (hfit e he).1) fun e he => by have := (hfit e he).2.1; omega
  exact ⟨out, vs, o1, v1, v2⟩

theorem rest_last : ∀ (fuel : Nat) (bs : List Byte) (o o' : Out), o.data.length = maxVLR → bs.length % maxVLR ≠ 0 →
    Out.rest fuel o bs = .ok o' → ∃ v ∈ o'.vlrs, v.data.length = maxVLR ∧ v.recordSize.toNat < maxVLR := by
  have hmono : ∀ (fuel : Nat) (bs : List Byte) (o o' : Out), Out.rest fuel o bs = .ok o' → ∀ v ∈ o.vlrs, v ∈ o'.vlrs := by
    intro fuel
    induction fuel with
    | zero =>
      intro bs o o' h v hv
      cases bs with
      | nil => simp only [Out.rest, Outcome.ok.injEq] at h; subst h; exact hv
      | cons b bs => simp [Out.rest] at h
    | succ fuel ih =>
      intro bs o o' h v hv
      cases bs with
      | nil => simp only [Out.rest, Outcome.ok.injEq] at h; subst h; exact hv
      | cons b bs =>
        unfold Out.rest at h
        simp only at h
        cases hp : poke o.data 0 ((b :: bs).take (min (b :: bs).length maxVLR)) with
        | ok d =>
          rw [hp] at h
          exact ih _ _ _ h v (by simp [Out.emit, hv])
        | throw e => rw [hp] at h; simp at h
        | ub => rw [hp] at h; simp at h
  intro fuel
  induction fuel with
  | zero =>
    intro bs o o' hd hm h
    cases bs with
    | nil => simp at hm
    | cons b bs => simp [Out.rest] at h
  | succ fuel ih =>
    intro bs o o' hd hm h
    cases bs with
    | nil => simp at hm
    | cons b bs =>
      have hpos : 0 < min (b :: bs).length maxVLR := by unfold maxVLR; simp
      unfold Out.rest at h
      simp only at h
      have hmax : maxVLR = 65535 := rfl
      generalize b :: bs = l at *
      rw [poke_at (pos := 0) (bs := l.take (min l.length maxVLR)) (a := []) (b := o.data.take (min l.length maxVLR))
        (c := o.data.drop (min l.length maxVLR)) (by simp) rfl (by simp; omega)] at h
      simp only [Outcome.bind_ok, List.nil_append] at h
      have hdl : (l.take (min l.length maxVLR) ++ o.data.drop (min l.length maxVLR)).length = maxVLR := by simp; omega
      by_cases hlt : l.length < maxVLR
      · have hmin : min l.length maxVLR = l.length := by omega
        rw [hmin] at h hdl
        refine ⟨_, hmono _ _ _ _ h _ (by rw [Out.emit]; exact List.mem_append_right _ (List.mem_singleton.2 rfl)), hdl, ?_⟩
        show (BitVec.ofNat 16 l.length).toNat < maxVLR
        rw [BitVec.toNat_ofNat, Nat.mod_eq_of_lt (by omega)]
        exact hlt
      · have hmin : min l.length maxVLR = maxVLR := by omega
        rw [hmin] at h hdl
        refine ih _ _ _ ?_ ?_ h
        · exact hdl
        · rw [List.length_drop]
          rwa [← Nat.mod_eq_sub_mod (by omega)]

/-- The bytes of a record in a file. -/
def fileSize (v : VLR) : Nat := ((HeaderWriter.vlrFields v).map List.length).sum

/-- C43 is false through a file: a cell of more than 65511 bytes gets a last record whose data are longer than the length
it gives. The writer writes all of the data, so that the next record does not begin where the reader of the file looks
for it, which is the given length behind the 54 bytes at the start of the record. -/
theorem index_refuted_long {e : (Nat × Nat) × Cell} (h : Fits e) (hn : e.2.numPoints ≠ 0) (hs : 65535 < 24 + cellSize e.2)
    (hm : (24 + cellSize e.2) % 65535 ≠ 0) {vs : List VLR} (ho : outputIndex [e] = .ok vs) :
    ∃ v ∈ vs, v.recordSize.toNat < v.data.length ∧ 54 + v.recordSize.toNat < fileSize v := by
  have hlen := entryLen_eq h
  obtain ⟨o1, a1, a2, a3⟩ := init_ok Out.start e.1.1 e.1.2
  have hsz : o1.size = 24 := by rw [a2.size]; rfl
  obtain ⟨t, ht, hl⟩ := a2.data
  have hmax : maxVLR = 65535 := rfl
  obtain ⟨vss, g1, g2⟩ := output_groups (cs := [e]) (by intro a ha; simp only [List.mem_singleton] at ha; subst ha; exact h.num)
  have hplain : ∀ v ∈ vs, Plain v := by
    rw [g1] at ho
    injection ho with ho
    subst ho
    intro v hv
    obtain ⟨ws, hws, hv⟩ := List.mem_flatten.1 hv
    obtain ⟨g, -, hg⟩ := forall₂_mem_right g2 hws
    exact hg.plain v hv
  unfold outputIndex at ho
  have hcells : Out.start.cells [e] = (o1.begin e.1.1 e.1.2).bind fun o =>
      (Out.long { o with points := (o.points + e.2.numPoints) % 2 ^ 32 } (cellBytes e.1.1 e.1.2 e.2)) := by
    show (Out.start.cell e.1.1 e.1.2 e.2 >>= fun o => o.cells []) = _
    unfold Out.cell
    have hb : Out.start.begin e.1.1 e.1.2 = .ok o1 := a1
    have hb2 : o1.begin e.1.1 e.1.2 = .ok o1 := by unfold Out.begin; rw [if_neg (by rw [a2.first]; simp)]
    rw [hb, hb2]
    simp only [Outcome.bind_ok, if_pos hn, Outcome.bind]
    have hfl : ∀ p, Out.flush { o1 with points := p } e.1.1 e.1.2 e.2.numPoints (cellBytes e.1.1 e.1.2 e.2) = .ok { o1 with points := p } := by
      intro p
      unfold Out.flush
      rw [if_neg]
      have : o1.ready = false := by rw [a2.ready]; rfl
      simp [this]
    rw [hfl]
    simp only [Outcome.bind_ok]
    rw [if_neg (by show ¬ Grouping.entryLen e + o1.size ≤ maxVLR; omega)]
    cases (Out.long { o1 with points := (o1.points + e.2.numPoints) % 2 ^ 32 } (cellBytes e.1.1 e.1.2 e.2)) <;> rfl
  rw [hcells] at ho
  have hb2 : o1.begin e.1.1 e.1.2 = .ok o1 := by unfold Out.begin; rw [if_neg (by rw [a2.first]; simp)]
  rw [hb2] at ho
  simp only [Outcome.bind] at ho
  unfold Out.long at ho
  simp only [if_neg (show ¬ o1.data.length ≠ maxVLR by simpa using hl), hsz] at ho
  have hpk : ∀ (d bs : List Byte) (pos : Nat), d.length = maxVLR → pos + bs.length ≤ maxVLR → ∃ d', poke d pos bs = .ok d' ∧ d'.length = maxVLR := by
    intro d bs pos h1 h2
    refine ⟨_, poke_at (a := d.take pos) (b := (d.drop pos).take bs.length) (c := (d.drop pos).drop bs.length) (by simp) (by simp; omega) (by simp; omega), ?_⟩
    simp; omega
  obtain ⟨d1, p1, q1⟩ := hpk o1.data (put32 (24 + (cellBytes e.1.1 e.1.2 e.2).length)) 16 hl (by rw [put32_length]; omega)
  rw [p1] at ho
  simp only [Outcome.bind_ok] at ho
  obtain ⟨d2, p2, q2⟩ := hpk d1 (put32 ((o1.points + e.2.numPoints) % 2 ^ 32)) 20 q1 (by rw [put32_length]; omega)
  rw [p2] at ho
  simp only [Outcome.bind_ok] at ho
  have hbl : (cellBytes e.1.1 e.1.2 e.2).length = Grouping.entryLen e := rfl
  obtain ⟨d3, p3, q3⟩ := hpk d2 ((cellBytes e.1.1 e.1.2 e.2).take (maxVLR - 24)) 24 q2 (by rw [List.length_take]; omega)
  rw [p3] at ho
  simp only [Outcome.bind_ok] at ho
  cases hr : Out.rest (cellBytes e.1.1 e.1.2 e.2).length
      ({ data := d3, size := 24 + (cellBytes e.1.1 e.1.2 e.2).length, points := (o1.points + e.2.numPoints) % 2 ^ 32, first := o1.first,
         ready := o1.ready, vlrs := o1.vlrs : Out }.emit d3 maxVLR) ((cellBytes e.1.1 e.1.2 e.2).drop (maxVLR - 24)) with
  | throw x => rw [hr] at ho; simp at ho
  | ub => rw [hr] at ho; simp at ho
  | ok o' =>
    rw [hr] at ho
    have ho : Outcome.ok o'.vlrs = .ok vs := ho
    injection ho with ho
    obtain ⟨v, v1, v2, v3⟩ := rest_last _ _ _ _ (by exact q3) (by
      rw [List.length_drop]
      rw [hbl, hlen, hmax]
      omega) hr
    rw [ho] at v1
    refine ⟨v, v1, by omega, ?_⟩
    have hp := hplain v v1
    unfold fileSize HeaderWriter.vlrFields
    rw [if_pos (by omega)]
    have hu : (v.getUserId true).length = 16 := by
      unfold VLR.getUserId; rw [hp.1]; decide
    have hd : (v.getDescription true).length = 32 := by
      unfold VLR.getDescription; rw [hp.2.2.1]; decide
    simp [put_length, hu, hd]
    omega

/-- A cell of `n` runs of one point. -/
def longCell (n : Nat) : (Nat × Nat) × Cell := ((0, 0), ⟨0, n, 0, 1, (List.range n).map fun i => (2 * i, 1), [], []⟩)

theorem longCell_fits {n : Nat} (h : n < 2 ^ 31) : Fits (longCell n) := by
  refine ⟨by simp [longCell], by simp [longCell], by show n < _; omega, ⟨?_, ?_⟩, ⟨by simp [longCell], by intro e he; simp [longCell] at he⟩,
    ⟨by simp [longCell], by intro e he; simp [longCell] at he⟩, Or.inl rfl⟩
  · show ((List.range n).map _).length < _
    rw [List.length_map, List.length_range]; omega
  · intro e he
    obtain ⟨i, hi, rfl⟩ := List.mem_map.1 he
    have := List.mem_range.1 hi
    exact ⟨by show 2 * i < _; omega, by norm_num⟩

theorem longCell_size (n : Nat) : cellSize (longCell n).2 = 28 + 5 * n := by
  simp [longCell, cellSize]

/-- The hypotheses of the last theorem hold of a cell of 14000 runs: its records cannot be read back from a file. -/
example : ∃ vs, outputIndex [longCell 14000] = .ok vs ∧ ∃ v ∈ vs, v.recordSize.toNat < v.data.length ∧ 54 + v.recordSize.toNat < fileSize v := by
  have hs : ∀ e ∈ [longCell 14000], Fits e ∧ 24 + cellSize e.2 < 2 ^ 32 := by
    intro e he
    rw [List.mem_singleton.1 he]
    exact ⟨longCell_fits (by norm_num), by rw [longCell_size]; norm_num⟩
  obtain ⟨vs, v1, -⟩ := index_records (fun e he => (hs e he).1) fun e he => (hs e he).2
  exact ⟨vs, v1, index_refuted_long (longCell_fits (by norm_num)) (show 14000 ≠ 0 by norm_num) (by rw [longCell_size]; norm_num)
    (by rw [longCell_size]; norm_num) v1⟩

/-- What is seen of the records of the sample index: the first cell with its Z parts, then two cells. -/
example : (buildIndex sampleGrid samplePts >>= fun o => outputIndex (o.getD []) >>= fun vs => readAll vs.length vs) =
    .ok (some [.cell, .run 0 0 (.z 0) 0 1, .run 0 0 (.z 0) 3 1, .run 0 0 (.z 1) 1 1, .cell, .run 1 0 .main 2 1, .cell, .run 1 1 .main 4 2]) := by
  decide +kernel

/-- The same through a file: the records go into the header of a new file with one point, and are read back from it. -/
example : (buildIndex sampleGrid samplePts >>= fun o => outputIndex (o.getD []) >>= fun vs =>
      session plainEnv [] { sampleHeader with recordsCount := 1, vlrs := vs } [List.replicate 28 1#8] >>= fun b =>
      Reader.make plainEnv (1, 2000) (IStream.onFile b) >>= fun r =>
      readAll (indexRecords r.hdr.vlrs).length (indexRecords r.hdr.vlrs) >>= fun l => .ok (vs.length, l)) =
    .ok (1, some [.cell, .run 0 0 (.z 0) 0 1, .run 0 0 (.z 0) 3 1, .run 0 0 (.z 1) 1 1, .cell, .run 1 0 .main 2 1, .cell,
      .run 1 1 .main 4 2]) := by
  decide +kernel

end LibLAS.Index
