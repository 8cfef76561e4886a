import Verif.Lemmas.IndexWindow
import Verif.Props.IndexChunks
/-
C44: what a query with a window returns.
-/
namespace LibLAS.Index
open Spec

/-- The header says what the grid is. -/
structure Describes (i : Info) (g : Grid) : Prop where
  min : i.grid.min = g.min
  max : i.grid.max = g.max
  x : i.cellsX = g.cellsX
  y : i.cellsY = g.cellsY
  z : i.cellsZ = g.cellsZ

theorem Describes.bounds {i : Info} {g : Grid} (h : Describes i g) (q : Query) : setCellBounds i.grid q = setCellBounds g q := by
  obtain ⟨h1, h2, h3, h4, h5⟩ := h
  have hx : i.grid.cellsX = g.cellsX := h3
  have hy : i.grid.cellsY = g.cellsY := h4
  have hz : i.grid.cellsZ = g.cellsZ := h5
  unfold setCellBounds Grid.rangeX Grid.rangeY Grid.rangeZ
  rw [h1, h2, hx, hy, hz]

theorem within_lt {lo hi l u : Fl} (h : Within lo hi l u) (hne : l ≠ u) : Range.overlaps ⟨lo, hi⟩ ⟨l, u⟩ = true := by
  obtain ⟨a, b, p, q, rfl, rfl, rfl, rfl, w1, w2, w3, -⟩ := h
  have : p ≠ q := fun h => hne (by rw [h])
  have : p < q := lt_of_le_of_ne w2 this
  unfold Range.overlaps
  simp only [Fl.lt, Bool.and_eq_true, decide_eq_true_eq]
  constructor <;> linarith

theorem intersects_ok {i : Info} {g : Grid} (h : Describes i g) {q : Query} (hq : QueryOK g q) : i.bounds.intersects q.bounds = .ok true := by
  unfold Info.bounds Query.bounds Bounds.intersects Bounds.make3
  simp only [h.min, h.max, Bounds.scan]
  by_cases h1 : Range.overlaps ⟨g.min.x, g.max.x⟩ ⟨q.min.x, q.max.x⟩ = true
  · rw [if_pos h1]
  · rw [if_neg h1]
    by_cases h2 : Range.overlaps ⟨g.min.y, g.max.y⟩ ⟨q.min.y, q.max.y⟩ = true
    · rw [if_pos h2]
    · rw [if_neg h2]
      have h3 : Range.overlaps ⟨g.min.z, g.max.z⟩ ⟨q.min.z, q.max.z⟩ = true := by
        rcases hq.some with h | h | h
        · exact absurd (within_lt hq.x (hq.extX h)) h1
        · exact absurd (within_lt hq.y (hq.extY h)) h2
        · exact within_lt hq.z (hq.extZ h)
      rw [if_pos h3]

theorem header_window {i : Info} {g : Grid} (hi : InfoFits i) (hver : 1 < i.major ∨ (i.major = 1 ∧ 2 ≤ i.minor)) (hd : Describes i g) {q : Query}
    (hq : QueryOK g q) {x y z : Axis} (hb : setCellBounds g q = .ok (x, y, z)) : Header (headerRecord i) q (some ⟨q, x, y, z⟩) := by
  have hk : (keptInfo i).grid = i.grid := rfl
  have hkb : (keptInfo i).bounds = i.bounds := rfl
  have ho : atHeader (headerRecord i) ⟨q.fresh, ⟨[], none, 0, 0⟩⟩ = .ok (some ⟨⟨q, x, y, z⟩, ⟨[], none, 0, 0⟩⟩) := by
    unfold atHeader
    rw [index_header hi]
    show (setCellBounds (keptInfo i).grid q).bind _ = _
    rw [hk, hd.bounds, hb]
    show ((keptInfo i).bounds.intersects q.bounds).bind _ = _
    rw [hkb, intersects_ok hd hq]
    rfl
  obtain ⟨ow, h1, h2⟩ := header_cases (index_header hi) (by exact hver) (q := q) rfl ho
  cases ow with
  | none => simp at h2
  | some w =>
    simp only [Option.map_some, Option.some.injEq, Filtering.mk.injEq, and_true] at h2
    rw [h2]; exact h1

theorem partOf_sub (g : Grid) (p : Pt) (x y : Nat) : identifySubCell g p x y =
    if Fl.lt (.fin (1 / 2)) (partOf g.min.x g.rangeX g.cellsX x p.x) then
      if Fl.lt (.fin (1 / 2)) (partOf g.min.y g.rangeY g.cellsY y p.y) then 3 else 1
    else if Fl.lt (.fin (1 / 2)) (partOf g.min.y g.rangeY g.cellsY y p.y) then 2 else 0 := rfl

/-- The cell of a point. -/
theorem cell_of {g : Grid} (hg : GridOK g) {p : Pt} (hx : Between g.min.x g.max.x p.x) (hy : Between g.min.y g.max.y p.y) {xy : Nat × Nat}
    (h : identifyCell g p = .ok (some xy)) : xy.1 < g.cellsX ∧ xy.2 < g.cellsY ∧ InPart g.min.x g.max.x p.x g.cellsX xy.1 ∧ InPart g.min.y g.max.y p.y g.cellsY xy.2 := by
  obtain ⟨x, y, h1, h2⟩ := inside_cell hg hx hy
  rw [h1] at h
  simp only [Outcome.ok.injEq, Option.some.injEq] at h
  subst h
  exact h2

/-- C44, as far as it holds: a file has the index the library builds for its points, which lie inside the bounds. A query with a window within the
bounds, not filtering in z unless cells are not divided in z, returns no point twice, no point outside the window except within the margin
of its edges, and every point in the window except within the margin of its edges and except points of a cell that takes more than 65511 bytes
in the index. What is missing is refuted below. -/
theorem index_query_partial {g : Grid} {pts : List Pt} (hg : GridOK g) (ht : g.temp = true) (hl : pts.length ≤ 2 ^ 28)
    (hz0 : 0 < g.cellsZ) (hz : g.cellsZ < 2 ^ 29) (hb : AllInside g pts) {i : Info} (hi : InfoFits i) (hver : 1 < i.major ∨ (i.major = 1 ∧ 2 ≤ i.minor))
    (hd : Describes i g) {pre post : List VLR} (hpre : ∀ v ∈ pre, NotIndex v) (hpost : ∀ v ∈ post, NotIndex v) {q : Query} (hq : QueryOK g q)
    (hqz : q.noZ = true ∨ (g.cellsZ = 1 ∧ ∀ p ∈ pts, Between g.min.z g.max.z p.z)) (r : RPos) :
    ∃ out dvs R, buildIndex g pts = .ok (some out) ∧ outputIndex out = .ok dvs ∧ filter pts (pre ++ headerRecord i :: (dvs ++ post)) q r = .ok R ∧
      R.Nodup ∧ (∀ id ∈ R, ∃ p, pts[id]? = some p ∧ NearIn g q p) ∧
      ∀ id p, pts[id]? = some p → DeepIn g q p → (∀ e ∈ out, id ∈ cellIds e.2 → cellSize e.2 ≤ 65511) → id ∈ R := by
  have hp := placed_of_inside hg hb
  have hzp := AllInside.zPlaced hb (show g.cellsZ < 2 ^ 32 by omega)
  obtain ⟨out, o1, o2, o3⟩ := build_shaped hg ht hp hzp (by omega)
  have hkey : ∀ e ∈ out, e.1.1 < g.cellsX ∧ e.1.2 < g.cellsY := by
    intro e he
    have hm : e.1 ∈ g.cells := by rw [← o2]; exact List.mem_map_of_mem he
    exact mem_cells.1 (show (e.1.1, e.1.2) ∈ g.cells from hm)
  have hbd : g.cellsX < 2 ^ 29 ∧ g.cellsY < 2 ^ 29 := by
    have hs := hg.small
    have hx := hg.x
    have hy := hg.y
    constructor
    · have := Nat.le_mul_of_pos_right g.cellsX hy; omega
    · have := Nat.le_mul_of_pos_left g.cellsY hx; omega
  have hfit : ∀ e ∈ out, Fits e ∧ cellSize e.2 ≤ 28 + 13 * pts.length ∧ Sound pts.length e.2 := by
    intro e he
    have := hkey e he
    obtain ⟨f1, f2, -⟩ := (o3 e he).fits (by omega) (by omega) hzp (by omega)
    exact ⟨f1, f2, (o3 e he).sound (by omega) (by omega) hzp (by omega)⟩
  have hs : ∀ e ∈ out, 24 + cellSize e.2 < 2 ^ 32 := fun e he => by have := (hfit e he).2.1; omega
  obtain ⟨dvs, v1, -, -⟩ := index_records (fun e he => (hfit e he).1) hs
  have hperm := all_ids hp o2 fun e he => (o3 e he).cellOK hzp
  have hsum : (out.map fun e => e.2.numPoints).sum ≤ pts.length := by
    have hlen := hperm.length_eq
    rw [List.length_flatMap, List.length_range] at hlen
    have : (out.map fun e => (cellIds e.2).length) = out.map fun e => e.2.numPoints := List.map_congr_left fun e he => (hfit e he).2.2.num
    rw [this] at hlen
    omega
  obtain ⟨vss, hx⟩ := indexed (fun e he => (hfit e he).1) hs (fun e he => (hfit e he).2.2) v1 hpre hpost (headerRecord_name i) rfl hsum (by omega) (by omega)
  obtain ⟨wx, wy, wz, hset, hW⟩ := setCellBounds_facts hq hg hz0 hz
  have hR := filter_whole hx (header_window hi hver hd hq hset) r
  obtain ⟨w, hw⟩ : ∃ w : Window, w = ⟨q, wx, wy, wz⟩ := ⟨_, rfl⟩
  rw [← hw] at hW hR
  have hwq : w.q = q := by rw [hw]
  refine ⟨out, dvs, _, o1, v1, hR, ?_, ?_, ?_⟩
  · -- no point twice
    exact (accepted_all out).nodup ((hperm.nodup_iff).2 List.nodup_range)
  · -- points returned
    intro id hid
    obtain ⟨gr, hgr, -, e, he, hc⟩ := mem_all.1 hid
    have heo : e ∈ out := ((groups_ok out gr hgr).cells e he).1
    have hkx := hkey e heo
    -- the place in the cell
    have hplace : ∃ pl P, id ∈ cellIds e.2 ∧ pts[id]? = some P ∧ accept w (i32 e.1.1) (i32 e.1.2) (i32 (placeZ pl)) P = true ∧
        (q.noZ = false → placeZ pl = 0) := by
      unfold cellItems at hc
      split at hc
      · rename_i hz1
        obtain ⟨s, s1, -, s2, P, s3, s4⟩ := mem_subItems.1 hc
        refine ⟨_, P, ?_, s3, s4, fun hno => ?_⟩
        · unfold cellIds
          exact List.mem_append_left _ (List.mem_append_right _ (List.mem_flatMap.2 ⟨s, s1, s2⟩))
        · rcases hqz with h | ⟨h, -⟩
          · rw [h] at hno; cases hno
          · -- no parts in z
            exfalso
            have hpt := (o3 e heo).parts
            have hsp : g.splitZ e.2 = false := by
              unfold Grid.splitZ
              rw [h]; simp
            rw [if_neg (by rw [hsp]; simp)] at hpt
            split at hpt
            · exact hz1 hpt.2.1
            · exact hz1 hpt.1
      · split at hc
        · obtain ⟨s, s1, -, s2, P, s3, s4⟩ := mem_subItems.1 hc
          refine ⟨_, P, ?_, s3, s4, fun _ => rfl⟩
          unfold cellIds
          exact List.mem_append_right _ (List.mem_flatMap.2 ⟨s, s1, s2⟩)
        · obtain ⟨-, s2, P, s3, s4⟩ := mem_partItems.1 hc
          refine ⟨_, P, ?_, s3, s4, fun _ => rfl⟩
          unfold cellIds
          exact List.mem_append_left _ (List.mem_append_left _ s2)
    obtain ⟨pl, P, hmem, hP, hacc, hpz⟩ := hplace
    refine ⟨P, hP, ?_⟩
    have hPm : P ∈ pts := List.mem_of_getElem? hP
    obtain ⟨bx, by', -⟩ := hb P hPm
    have hcell : identifyCell g P = .ok (some e.1) := by
      rw [((o3 e heo).cellOK hzp).perm.mem_iff, mem_positions] at hmem
      obtain ⟨P', -, h2, h3⟩ := hmem
      rw [Nat.sub_zero, hP] at h2
      injection h2 with h2
      subst h2
      simpa [inCell] using h3
    obtain ⟨-, -, ix, iy⟩ := cell_of hg bx by' hcell
    unfold accept at hacc
    rw [i32_small (by omega), i32_small (by omega)] at hacc
    simp only [Bool.and_eq_true] at hacc
    obtain ⟨ax, ay, az⟩ := hacc
    rw [hwq] at ax ay az
    have hx' := hW.x.near P.x e.1.1 bx ix
    have hy' := hW.y.near P.y e.1.2 by' iy
    rw [hwq] at hx' hy'
    refine ⟨fun hno => hx' (by rw [hno] at ax; exact ax), fun hno => hy' (by rw [hno] at ay; exact ay), fun hno => ?_⟩
    rcases hqz with h | ⟨h, hbz⟩
    · rw [h] at hno; cases hno
    · have hz' := (hW.z h).near P.z (hbz P hPm)
      rw [hwq] at hz'
      refine hz' ?_
      rw [hno, hpz hno] at az
      exact az
  · -- points in the window
    intro id P hP hdeep hshort
    have hPm : P ∈ pts := List.mem_of_getElem? hP
    obtain ⟨bx, by', -⟩ := hb P hPm
    have hlt := (List.getElem?_eq_some_iff.1 hP).1
    have hmem : id ∈ out.flatMap fun e => cellIds e.2 := by
      rw [hperm.mem_iff]; exact List.mem_range.2 hlt
    obtain ⟨e, heo, hie⟩ := List.mem_flatMap.1 hmem
    have hkx := hkey e heo
    have hok := (o3 e heo).cellOK hzp
    have hcell : identifyCell g P = .ok (some e.1) := by
      have hie' := hie
      rw [hok.perm.mem_iff, mem_positions] at hie'
      obtain ⟨P', -, h2, h3⟩ := hie'
      rw [Nat.sub_zero, hP] at h2
      injection h2 with h2
      subst h2
      simpa [inCell] using h3
    obtain ⟨-, -, ix, iy⟩ := cell_of hg bx by' hcell
    have hnum : e.2.numPoints ≠ 0 := by
      rw [← (hfit e heo).2.2.num]
      have := List.length_pos_of_mem hie
      omega
    have hin : e ∈ (groups out).flatMap Grp.cells := by
      rw [groups_cells]
      exact List.mem_filter.2 ⟨heo, by simpa using hnum⟩
    obtain ⟨gr, hgr, heg⟩ := List.mem_flatMap.1 hin
    obtain ⟨dx, dy, dz⟩ := hdeep
    have fx : q.noX = false → _ := fun h => by
      have := hW.x.deep P.x e.1.1 bx ix hkx.1 (by rw [hwq]; exact dx h)
      rw [hwq] at this
      exact this
    have fy : q.noY = false → _ := fun h => by
      have := hW.y.deep P.y e.1.2 by' iy hkx.2 (by rw [hwq]; exact dy h)
      rw [hwq] at this
      exact this
    have hcellOK : w.cell (i32 e.1.1) (i32 e.1.2) = true := by
      unfold Window.cell
      rw [i32_small (by omega), i32_small (by omega), hwq]
      rw [Bool.and_eq_true, Bool.or_eq_true, Bool.or_eq_true]
      refine ⟨?_, ?_⟩
      · by_cases h : q.noX = true
        · exact Or.inl h
        · exact Or.inr (fx (by simpa using h)).1
      · by_cases h : q.noY = true
        · exact Or.inl h
        · exact Or.inr (fy (by simpa using h)).1
    have hacc : ∀ zz : Nat, (q.noZ = false → zz = 0) → accept w (i32 e.1.1) (i32 e.1.2) (i32 zz) P = true := by
      intro zz hzz
      unfold accept
      rw [i32_small (by omega), i32_small (by omega), hwq]
      rw [Bool.and_eq_true, Bool.and_eq_true]
      refine ⟨?_, ?_, ?_⟩
      · by_cases h : q.noX = true
        · rw [h]; rfl
        · have h : q.noX = false := by simpa using h
          rw [h]; exact (fx h).2.1
      · by_cases h : q.noY = true
        · rw [h]; rfl
        · have h : q.noY = false := by simpa using h
          rw [h]; exact (fy h).2.1
      · by_cases h : q.noZ = true
        · rw [h]; rfl
        · have h : q.noZ = false := by simpa using h
          rcases hqz with h' | ⟨h', hbz⟩
          · rw [h'] at h; cases h
          · have := (hW.z h').deep P.z (hbz P hPm) (by rw [hwq]; exact dz h)
            rw [hwq] at this
            rw [h, hzz h]; exact this
    -- the record is looked at
    have hv : vlrOf w gr = true := by
      have ho : out.Pairwise fun a b => CellLE a.1 b.1 := by
        have := cells_order g
        rw [← o2, List.pairwise_map] at this
        exact this
      refine vlr_ok ho hgr ?_ (fun e he => by have := hkey e he; omega) heg hcellOK
      have k := groups_ok out gr hgr
      rcases k.size with k1 | ⟨e', k1⟩
      · exact k1
      · have : e = e' := by rw [k1] at heg; simpa using heg
        subst this
        have h3 := entryLen_eq (hfit e heo).1
        have h4 : gr.size = 24 + Grouping.entryLen e := by unfold Grp.size Grp.body; rw [k1]; simp [Grouping.entryLen]
        have := hshort e heo hie
        show gr.size ≤ 65535
        omega
    refine mem_all.2 ⟨gr, hgr, hv, e, heg, ?_⟩
    -- the part of the cell is looked at
    have hpt := (o3 e heo).parts
    have hone := (hfit e heo).1.one
    have hz1 : e.2.zCells ≠ [] → q.noZ = true := by
      intro hne
      rcases hqz with h | ⟨h, -⟩
      · exact h
      · exfalso
        have hsp : g.splitZ e.2 = false := by
          unfold Grid.splitZ
          rw [h]; simp
        rw [if_neg (by rw [hsp]; simp)] at hpt
        split at hpt
        · exact hne hpt.2.1
        · exact hne hpt.1
    have hie' := hie
    unfold cellIds at hie'
    rw [List.mem_append, List.mem_append] at hie'
    unfold cellItems
    rcases hie' with (h | h) | h
    · -- in the cell itself
      have hm := (hfit e heo).2.2.main
      rcases hm with hm | ⟨hm1, hm2⟩
      · rw [hm] at h; simp [Spec.ids] at h
      · rw [if_neg (by simp [hm1]), if_neg (by simp [hm2])]
        exact mem_partItems.2 ⟨hcellOK, h, P, hP, hacc 0 fun _ => rfl⟩
    · -- in a z part
      obtain ⟨s, s1, s2⟩ := List.mem_flatMap.1 h
      have hne : e.2.zCells ≠ [] := by intro h; rw [h] at s1; simp at s1
      rw [if_pos hne]
      have hno := hz1 hne
      refine mem_subItems.2 ⟨s, s1, ?_, s2, P, hP, hacc _ fun h => by rw [hno] at h; cases h⟩
      unfold placeOK Window.zCell
      rw [hcellOK, hwq, hno]; rfl
    · -- in a quarter
      obtain ⟨s, s1, s2⟩ := List.mem_flatMap.1 h
      have hne : e.2.subCells ≠ [] := by intro h; rw [h] at s1; simp at s1
      have hzn : e.2.zCells = [] := by
        rcases hone with h | h
        · exact h
        · exact absurd h hne
      rw [if_neg (by simp [hzn]), if_pos hne]
      refine mem_subItems.2 ⟨s, s1, ?_, s2, P, hP, hacc 0 fun _ => rfl⟩
      show (w.cell (i32 e.1.1) (i32 e.1.2) && w.subCell s.1 (i32 e.1.1) (i32 e.1.2)) = true
      rw [hcellOK, Bool.true_and]
      obtain ⟨P', h2, h3⟩ := hok.parts.sub s s1 id s2
      rw [hP] at h2
      injection h2 with h2
      subst h2
      rw [partOf_sub] at h3
      unfold Window.subCell
      rw [i32_small (by omega), i32_small (by omega), hwq, Bool.and_eq_true]
      have hhx : w.x.half q.noX (e.1.1 : Int) (!(Fl.lt (.fin (1 / 2)) (partOf g.min.x g.rangeX g.cellsX e.1.1 P.x))) = true := by
        by_cases h : q.noX = true
        · rw [h]; unfold Axis.half; rw [Bool.true_or, if_pos rfl]
        · have h : q.noX = false := by simpa using h
          rw [h]; exact (fx h).2.2
      have hhy : w.y.half q.noY (e.1.2 : Int) (!(Fl.lt (.fin (1 / 2)) (partOf g.min.y g.rangeY g.cellsY e.1.2 P.y))) = true := by
        by_cases h : q.noY = true
        · rw [h]; unfold Axis.half; rw [Bool.true_or, if_pos rfl]
        · have h : q.noY = false := by simpa using h
          rw [h]; exact (fy h).2.2
      generalize Fl.lt (.fin (1 / 2)) (partOf g.min.x g.rangeX g.cellsX e.1.1 P.x) = bx' at *
      generalize Fl.lt (.fin (1 / 2)) (partOf g.min.y g.rangeY g.cellsY e.1.2 P.y) = by'' at *
      cases bx' <;> cases by'' <;> simp only [Bool.false_eq_true, if_true, if_false] at h3 <;> rw [← h3] <;> exact ⟨hhx, hhy⟩

theorem clip_within {lo hi l u : Fl} (h : Meets lo hi l u) :
    Within lo hi (Range.clip ⟨l, u⟩ ⟨lo, hi⟩).minimum (Range.clip ⟨l, u⟩ ⟨lo, hi⟩).maximum ∧
      (Point.compareDistance (Range.clip ⟨l, u⟩ ⟨lo, hi⟩).minimum (Range.clip ⟨l, u⟩ ⟨lo, hi⟩).maximum = false →
        (Range.clip ⟨l, u⟩ ⟨lo, hi⟩).minimum ≠ (Range.clip ⟨l, u⟩ ⟨lo, hi⟩).maximum) ∧
      (∀ c, Between lo hi c → Deeper lo hi l u c → Deep lo hi (Range.clip ⟨l, u⟩ ⟨lo, hi⟩).minimum (Range.clip ⟨l, u⟩ ⟨lo, hi⟩).maximum c) ∧
      (∀ c, Near lo hi (Range.clip ⟨l, u⟩ ⟨lo, hi⟩).minimum (Range.clip ⟨l, u⟩ ⟨lo, hi⟩).maximum c → Near lo hi l u c) := by
  obtain ⟨a, b, p, q, rfl, rfl, rfl, rfl, h1, h2, h3, h4, h5, h6⟩ := h
  have hd : 0 < b - a := lt_of_lt_of_le (by positivity) h6
  have hmar : 0 ≤ margin a b := by unfold margin; positivity
  have e0 : Range.clip ⟨.fin p, .fin q⟩ ⟨.fin a, .fin b⟩ = ⟨.fin (max p a), .fin (min q b)⟩ := by
    have k1 : Fl.lt (.fin p) (.fin a) = decide (p < a) := rfl
    have k2 : Fl.lt (.fin b) (.fin q) = decide (b < q) := rfl
    unfold Range.clip
    simp only
    rw [k1]
    by_cases c1 : p < a
    · rw [decide_eq_true c1, if_pos rfl, max_eq_right c1.le]
      simp only
      rw [k2]
      by_cases c2 : b < q
      · rw [decide_eq_true c2, if_pos rfl, min_eq_right c2.le]
      · rw [decide_eq_false c2, if_neg (by simp), min_eq_left (not_lt.1 c2)]
    · simp only [decide_eq_false c1, Bool.false_eq_true, if_false]
      rw [max_eq_left (not_lt.1 c1), k2]
      by_cases c2 : b < q
      · rw [decide_eq_true c2, if_pos rfl, min_eq_right c2.le]
      · rw [decide_eq_false c2, if_neg (by simp), min_eq_left (not_lt.1 c2)]
  rw [e0]
  refine ⟨⟨a, b, max p a, min q b, rfl, rfl, rfl, rfl, le_max_right _ _, max_le (le_min h1 h2) (le_min h3 (by linarith)), min_le_right _ _, h4, h5, h6⟩, ?_, ?_, ?_⟩
  · intro hc he
    rw [he, compareDistance_self] at hc
    cases hc
  · rintro c ⟨a', b', d, ea, eb, rfl, c1, c2, -⟩ ⟨a3, b3, p3, q3, d3, ea3, eb3, ep3, eq3, ed3, m1, m2⟩
    injection ea with ea; injection eb with eb
    injection ea3 with ea3; injection eb3 with eb3; injection ep3 with ep3; injection eq3 with eq3; injection ed3 with ed3
    subst ea eb ea3 eb3 ep3 eq3 ed3
    refine ⟨a, b, _, _, d, rfl, rfl, rfl, rfl, rfl, ?_, ?_⟩
    · rcases le_total p a with h | h
      · exact Or.inl ⟨max_eq_right h, c1⟩
      · rw [max_eq_left h]; exact Or.inr m1
    · rcases le_total q b with h | h
      · rw [min_eq_left h]; exact Or.inr m2
      · exact Or.inl ⟨min_eq_right h, c2⟩
  · rintro c ⟨a3, b3, p3, q3, d3, ea3, eb3, ep3, eq3, rfl, m1, m2⟩
    injection ea3 with ea3; injection eb3 with eb3; injection ep3 with ep3; injection eq3 with eq3
    subst ea3 eb3 ep3 eq3
    refine ⟨a, b, p, q, d3, rfl, rfl, rfl, rfl, rfl, ?_, ?_⟩
    · have := le_max_left p a; linarith
    · have := min_le_left q b; linarith

/-- C44 with the window as it is given to `SetFilterValues`: it need not be within the bounds of the index, only meet them on every axis. An axis
on which the window, cut to the bounds, has no extent is not filtered. -/
theorem index_window_partial {g : Grid} {pts : List Pt} (hg : GridOK g) (ht : g.temp = true) (hl : pts.length ≤ 2 ^ 28)
    (hz0 : 0 < g.cellsZ) (hz : g.cellsZ < 2 ^ 29) (hb : AllInside g pts) {i : Info} (hif : InfoFits i) (hver : 1 < i.major ∨ (i.major = 1 ∧ 2 ≤ i.minor))
    (hd : Describes i g) {pre post : List VLR} (hpre : ∀ v ∈ pre, NotIndex v) (hpost : ∀ v ∈ post, NotIndex v) {lo hi : Pt}
    (mx : Meets g.min.x g.max.x lo.x hi.x) (my : Meets g.min.y g.max.y lo.y hi.y) (mz : Meets g.min.z g.max.z lo.z hi.z) {q : Query}
    (hset : q = Query.set g lo hi) (hsome : q.noX = false ∨ q.noY = false ∨ q.noZ = false)
    (hqz : q.noZ = true ∨ (g.cellsZ = 1 ∧ ∀ p ∈ pts, Between g.min.z g.max.z p.z)) (r : RPos) :
    ∃ out dvs R, buildIndex g pts = .ok (some out) ∧ outputIndex out = .ok dvs ∧ filter pts (pre ++ headerRecord i :: (dvs ++ post)) q r = .ok R ∧
      R.Nodup ∧
      (∀ id ∈ R, ∃ p, pts[id]? = some p ∧ (q.noX = false → Near g.min.x g.max.x lo.x hi.x p.x) ∧ (q.noY = false → Near g.min.y g.max.y lo.y hi.y p.y) ∧
        (q.noZ = false → Near g.min.z g.max.z lo.z hi.z p.z)) ∧
      ∀ id p, pts[id]? = some p → (q.noX = false → Deeper g.min.x g.max.x lo.x hi.x p.x) → (q.noY = false → Deeper g.min.y g.max.y lo.y hi.y p.y) →
        (q.noZ = false → Deeper g.min.z g.max.z lo.z hi.z p.z) → (∀ e ∈ out, id ∈ cellIds e.2 → cellSize e.2 ≤ 65511) → id ∈ R := by
  obtain ⟨x1, x2, x3, x4⟩ := clip_within mx
  obtain ⟨y1, y2, y3, y4⟩ := clip_within my
  obtain ⟨z1, z2, z3, z4⟩ := clip_within mz
  subst hset
  obtain ⟨out, dvs, R, h1, h2, h3, h4, h5, h6⟩ := index_query_partial hg ht hl hz0 hz hb hif hver hd hpre hpost
    (q := Query.set g lo hi) ⟨x1, y1, z1, hsome, x2, y2, z2⟩ hqz r
  refine ⟨out, dvs, R, h1, h2, h3, h4, ?_, ?_⟩
  · intro id hid
    obtain ⟨p, p1, n1, n2, n3⟩ := h5 id hid
    exact ⟨p, p1, fun h => x4 _ (n1 h), fun h => y4 _ (n2 h), fun h => z4 _ (n3 h)⟩
  · intro id p hp dx dy dz hs
    have hpm : p ∈ pts := List.mem_of_getElem? hp
    refine h6 id p hp ⟨fun h => x3 _ (hb p hpm).1 (dx h), fun h => y3 _ (hb p hpm).2.1 (dy h), fun h => ?_⟩ hs
    rcases hqz with k | ⟨-, k⟩
    · rw [k] at h; cases h
    · exact z3 _ (k p hpm) (dz h)

theorem within_int {a b p q : Int} (h1 : a ≤ p) (h2 : p ≤ q) (h3 : q ≤ b) (h4 : a < b) (h5 : |a| ≤ 1000) (h6 : |b| ≤ 1000) :
    Within (.fin a) (.fin b) (.fin p) (.fin q) := by
  have big : ∀ n : Int, |n| ≤ 1000 → |(n : ℚ)| ≤ 2 ^ 200 := by
    intro n hn
    have h6 : |(n : ℚ)| ≤ 1000 := by exact_mod_cast hn
    have h7 : (1000 : ℚ) ≤ 2 ^ 200 := by
      calc (1000 : ℚ) ≤ 2 ^ 10 := by norm_num
        _ ≤ 2 ^ 200 := pow_le_pow_right₀ (by norm_num) (by norm_num)
    exact h6.trans h7
  refine ⟨a, b, p, q, rfl, rfl, rfl, rfl, by exact_mod_cast h1, by exact_mod_cast h2, by exact_mod_cast h3, big a h5, big b h6, ?_⟩
  have h8 : (1 : ℚ) ≤ b - a := by
    have : (1 : Int) ≤ b - a := by omega
    exact_mod_cast this
  have h9 : (1 : ℚ) / 2 ^ 200 ≤ 1 := by
    rw [div_le_one (by positivity)]
    exact one_le_pow₀ (by norm_num)
  linarith

/-- A window with whole numbers on the sample grid. -/
theorem query_int {x0 y0 z0 x1 y1 z1 : Int} {nx ny nz : Bool} (h : 0 ≤ x0 ∧ x0 < x1 ∧ x1 ≤ 10 ∧ 0 ≤ y0 ∧ y0 < y1 ∧ y1 ≤ 10 ∧ 0 ≤ z0 ∧ z0 ≤ z1 ∧ z1 ≤ 10)
    (hz : nz = false → z0 < z1) (hn : nx = false ∨ ny = false ∨ nz = false) : QueryOK sampleGrid ⟨pt x0 y0 z0, pt x1 y1 z1, nx, ny, nz⟩ := by
  have ne : ∀ {a b : Int}, a < b → Fl.fin (a : ℚ) ≠ Fl.fin (b : ℚ) := by
    intro a b h k
    injection k with k
    have : a = b := by exact_mod_cast k
    omega
  obtain ⟨h1, h2, h3, h4, h5, h6, h7, h8, h9⟩ := h
  exact ⟨within_int h1 h2.le h3 (by decide) (by decide) (by decide), within_int h4 h5.le h6 (by decide) (by decide) (by decide),
    within_int h7 h8 h9 (by decide) (by decide) (by decide), hn, fun _ => ne h2, fun _ => ne h5, fun h => ne (hz h)⟩

/-- A window in cell (1,0) of the sample grid. -/
def sampleLate : Query := ⟨pt 6 0 0, pt 8 2 0, false, false, true⟩

theorem sample_describes : Describes sampleIndexInfo sampleGrid := by constructor <;> decide +kernel

/-- The hypotheses hold of the sample, and the point (3,3,3) is in the window, not at its edges. -/
example : (∃ out dvs R, buildIndex sampleGrid samplePts = .ok (some out) ∧ outputIndex out = .ok dvs ∧
      filter samplePts ([VLR.new] ++ headerRecord sampleIndexInfo :: (dvs ++ [])) sampleQuery 4 = .ok R ∧ R.Nodup ∧
      (∀ id ∈ R, ∃ p, samplePts[id]? = some p ∧ NearIn sampleGrid sampleQuery p) ∧
      ∀ id p, samplePts[id]? = some p → DeepIn sampleGrid sampleQuery p → (∀ e ∈ out, id ∈ cellIds e.2 → cellSize e.2 ≤ 65511) → id ∈ R) ∧
    DeepIn sampleGrid sampleQuery (pt 3 3 3) :=
  ⟨index_query_partial ⟨by decide, by decide, by decide⟩ rfl (by decide) (by decide) (by decide) sample_inside (by constructor <;> decide) (Or.inr ⟨rfl, le_refl _⟩)
    sample_describes (by intro v hv; rw [List.mem_singleton.1 hv]; unfold NotIndex; decide) (by simp) (query_int (by decide) (by decide) (by decide)) (Or.inl rfl) 4,
    ⟨fun _ => ⟨0, 10, 2, 8, 3, by decide +kernel, by decide +kernel, by decide +kernel, by decide +kernel, by decide +kernel, Or.inr (by decide +kernel), Or.inr (by decide +kernel)⟩,
     fun _ => ⟨0, 10, 2, 8, 3, by decide +kernel, by decide +kernel, by decide +kernel, by decide +kernel, by decide +kernel, Or.inr (by decide +kernel), Or.inr (by decide +kernel)⟩,
     fun h => by cases h⟩⟩

/-- The hypotheses of `index_window_partial` on a window that reaches beyond the bounds. -/
example : (Query.set sampleGrid (pt 2 (-5) 0) (pt 80 8 0)).noX = false ∧ (Query.set sampleGrid (pt 2 (-5) 0) (pt 80 8 0)).noZ = true ∧
    Meets sampleGrid.min.x sampleGrid.max.x (pt 2 (-5) 0).x (pt 80 8 0).x ∧ Meets sampleGrid.min.y sampleGrid.max.y (pt 2 (-5) 0).y (pt 80 8 0).y ∧
    Meets sampleGrid.min.z sampleGrid.max.z (pt 2 (-5) 0).z (pt 80 8 0).z :=
  ⟨by decide +kernel, by decide +kernel,
    ⟨0, 10, 2, 80, by decide +kernel, by decide +kernel, by decide +kernel, by decide +kernel, by norm_num, by norm_num, by norm_num, by norm_num, by norm_num, by norm_num⟩,
    ⟨0, 10, -5, 8, by decide +kernel, by decide +kernel, by decide +kernel, by decide +kernel, by norm_num, by norm_num, by norm_num, by norm_num, by norm_num, by norm_num⟩,
    ⟨0, 10, 0, 0, by decide +kernel, by decide +kernel, by decide +kernel, by decide +kernel, by norm_num, by norm_num, by norm_num, by norm_num, by norm_num, by norm_num⟩⟩

/-- The answer of a new index of the points, with the header given. -/
def answer (g : Grid) (i : Info) (pts : List Pt) (q : Query) : Outcome (List Nat) :=
  buildIndex g pts >>= fun o => outputIndex (o.getD []) >>= fun vs => filter pts (headerRecord i :: vs) q 0

/-- What is missing in C44, first: a point exactly at the upper edge of the window is not returned if the edge is a border of cells; one at
the lower edge is. -/
theorem index_query_refuted_edge : ∃ pts q, AllInside sampleGrid pts ∧ QueryOK sampleGrid q ∧ (∀ p ∈ pts, InWindow q p) ∧ q.noZ = true ∧
    answer sampleGrid sampleIndexInfo pts q = .ok [1] ∧ pts.length = 2 := by
  refine ⟨[pt 5 1 1, pt 2 1 1], ⟨pt 2 0 0, pt 5 4 0, false, false, true⟩, ?_, query_int (by decide) (by decide) (by decide), by decide +kernel, rfl, by decide +kernel, rfl⟩
  intro p hp
  simp only [List.mem_cons, List.not_mem_nil, or_false] at hp
  rcases hp with rfl | rfl
  · exact ⟨between_int (a := 0) (b := 10) (c := 5) (by decide) (by decide) (by decide) (by decide) (by decide),
      between_int (a := 0) (b := 10) (c := 1) (by decide) (by decide) (by decide) (by decide) (by decide),
      fun _ => between_int (a := 0) (b := 10) (c := 1) (by decide) (by decide) (by decide) (by decide) (by decide)⟩
  · exact ⟨between_int (a := 0) (b := 10) (c := 2) (by decide) (by decide) (by decide) (by decide) (by decide),
      between_int (a := 0) (b := 10) (c := 1) (by decide) (by decide) (by decide) (by decide) (by decide),
      fun _ => between_int (a := 0) (b := 10) (c := 1) (by decide) (by decide) (by decide) (by decide) (by decide)⟩

/-- Two points of one cell with near z. -/
def nearZ : List Pt := [pt 1 1 9, pt 1 1 8]

theorem nearZ_inside : AllInside sampleGrid nearZ := by
  intro p hp
  simp only [nearZ, List.mem_cons, List.not_mem_nil, or_false] at hp
  rcases hp with rfl | rfl
  · exact ⟨between_int (a := 0) (b := 10) (c := 1) (by decide) (by decide) (by decide) (by decide) (by decide),
      between_int (a := 0) (b := 10) (c := 1) (by decide) (by decide) (by decide) (by decide) (by decide),
      fun _ => between_int (a := 0) (b := 10) (c := 9) (by decide) (by decide) (by decide) (by decide) (by decide)⟩
  · exact ⟨between_int (a := 0) (b := 10) (c := 1) (by decide) (by decide) (by decide) (by decide) (by decide),
      between_int (a := 0) (b := 10) (c := 1) (by decide) (by decide) (by decide) (by decide) (by decide),
      fun _ => between_int (a := 0) (b := 10) (c := 8) (by decide) (by decide) (by decide) (by decide) (by decide)⟩

/-- Second: with a window in z and an index whose cells are divided in z, the points of a cell that was not divided are all taken for points
of the lowest part. Here both points are in the window and none is returned. -/
theorem index_query_refuted_z_lost : ∃ q, QueryOK sampleGrid q ∧ (∀ p ∈ nearZ, InWindow q p) ∧ answer sampleGrid sampleIndexInfo nearZ q = .ok [] :=
  ⟨⟨pt 0 0 7, pt 4 4 10, false, false, false⟩, query_int (by decide) (by decide) (by decide), by decide +kernel, by decide +kernel⟩

/-- Here both points, at z 8 and 9, are returned, with a window in z from 0 to 5. -/
theorem index_query_refuted_z_wrong : ∃ q, QueryOK sampleGrid q ∧ (∀ p ∈ nearZ, ¬ InWindow q p) ∧ answer sampleGrid sampleIndexInfo nearZ q = .ok [0, 1] :=
  ⟨⟨pt 0 0 0, pt 4 4 5, false, false, false⟩, query_int (by decide) (by decide) (by decide), by decide +kernel, by decide +kernel⟩

/-- Third: a window that only touches the bounds, here in x from 10 on, is cut to one without extent in x; x is then not filtered at all and both points, at x = 1, are
returned. -/
theorem index_query_refuted_touch : Meets sampleGrid.min.x sampleGrid.max.x (pt 10 0 0).x (pt 20 4 0).x ∧
    answer sampleGrid sampleIndexInfo nearZ (Query.set sampleGrid (pt 10 0 0) (pt 20 4 0)) = .ok [0, 1] := by
  refine ⟨?_, by decide +kernel⟩
  exact ⟨0, 10, 10, 20, by decide +kernel, by decide +kernel, by decide +kernel, by decide +kernel, by norm_num, by norm_num, by norm_num, by norm_num, by norm_num, by norm_num⟩

/-- A window far outside of the bounds, as `SetFilterValues` takes it, makes the query undefined (a double too large for an `int32_t`). -/
theorem index_query_refuted_far : answer sampleGrid sampleIndexInfo nearZ (Query.set sampleGrid (pt (2 ^ 40) 0 0) (pt (2 ^ 41) 4 10)) = .ub := by
  decide +kernel

end LibLAS.Index
