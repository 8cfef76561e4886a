import Verif.Lemmas.IndexAll
import Verif.Props.RoundTrip
/-
C41, C42: the cells of the spatial index.
-/
namespace LibLAS.Index
open Spec

theorem located {g : Grid} (hg : GridOK g) (pts : List Pt) : Located g pts := by
  intro p _
  unfold identifyCell
  rcases identify1_total g.min.x g.rangeX hg.x hg.bounds.1 p.x with h | ⟨x, h, hx⟩
  · rw [h]; exact Or.inl rfl
  · rw [h]
    rcases identify1_total g.min.y g.rangeY hg.y hg.bounds.2 p.y with h' | ⟨y, h', hy⟩
    · left; show (identify1 _ _ _ _ >>= _) = _; rw [h']; rfl
    · right; refine ⟨x, y, ?_, hx, hy⟩; show (identify1 _ _ _ _ >>= _) = _; rw [h']; rfl

/-- No coordinates whatever, not even NaNs or infinities, lead outside the matrix of cells or to an undefined conversion: the
loop over the points always ends in a state. -/
theorem index_points_defined {g : Grid} (hg : GridOK g) (pts : List Pt) (s : Build) : ∃ s', Build.loop g s pts = .ok s' := by
  induction pts generalizing s with
  | nil => exact ⟨s, rfl⟩
  | cons p pts ih =>
    have hstep : ∃ s1, s.step g p = .ok s1 := by
      unfold Build.step
      rcases located hg [p] p (by simp) with h | ⟨x, y, h, hx, hy⟩
      · rw [h]; exact ⟨_, rfl⟩
      · rw [h]
        refine ⟨{ s.visit g x y p.z with pointId := ((s.visit g x y p.z).pointId + 1) % 2 ^ 32 }, ?_⟩
        · show (if x < g.cellsX ∧ y < g.cellsY then _ else _) = _
          rw [if_pos ⟨hx, hy⟩]; rfl
    obtain ⟨s1, h1⟩ := hstep
    obtain ⟨s2, h2⟩ := ih s1
    exact ⟨s2, by show (s.step g p >>= fun s => Build.loop g s pts) = _; rw [h1]; exact h2⟩

/-- The z part of the hypotheses, in the model's terms. -/
theorem _root_.LibLAS.Spec.AllInside.zPlaced {g : Grid} {pts : List Pt} (h : AllInside g pts) (hz : g.cellsZ < 2 ^ 32) :
    1 < g.cellsZ → ∀ p ∈ pts, ∃ a, identifyCellZ g p = .ok (some a) ∧ a < 2 ^ 32 - 1 := by
  intro h1 p hp
  obtain ⟨a, a1, a2, -⟩ := between_cell ((h p hp).2.2 h1) (by omega) hz
  exact ⟨a, a1, by omega⟩

/-- C41. If every point lies inside the bounds, building the index succeeds; the index has one entry for every cell of the
grid; the entries together hold every point's id exactly once; each id is in the entry of the cell in which the point
lies; and each part of a divided cell holds only points of that part. Missing: points outside the bounds
(`index_refuted_outside` shows that one such point spoils the ids of others). -/
theorem index_cells_partial {g : Grid} {pts : List Pt} (hg : GridOK g) (ht : g.temp = true) (hl : pts.length < 2 ^ 32)
    (hz : g.cellsZ < 2 ^ 32) (hb : AllInside g pts) :
    ∃ out, buildIndex g pts = .ok (some out) ∧ out.map Prod.fst = g.cells ∧
      (out.flatMap fun e => cellIds e.2).Perm (List.range pts.length) ∧
      ∀ e ∈ out, e.2.numPoints = (cellIds e.2).length ∧
        (∀ i ∈ cellIds e.2, ∃ p, pts[i]? = some p ∧ InPart g.min.x g.max.x p.x g.cellsX e.1.1 ∧
          InPart g.min.y g.max.y p.y g.cellsY e.1.2) ∧
        (∀ s ∈ e.2.zCells, ∀ i ∈ ids s.2, ∃ p, pts[i]? = some p ∧ InPart g.min.z g.max.z p.z g.cellsZ s.1) ∧
        (∀ s ∈ e.2.subCells, ∀ i ∈ ids s.2, ∃ p, pts[i]? = some p ∧ identifySubCell g p e.1.1 e.1.2 = s.1) := by
  have hp := placed_of_inside hg hb
  obtain ⟨out, o1, o2, o3⟩ := build_shaped hg ht hp (AllInside.zPlaced hb hz) hl
  have hok : ∀ e ∈ out, CellOK g pts e.1 e.2 := fun e he => (o3 e he).cellOK (AllInside.zPlaced hb hz)
  refine ⟨out, o1, o2, all_ids hp o2 hok, ?_⟩
  intro e he
  have h := hok e he
  refine ⟨by rw [h.num, h.perm.length_eq], ?_, ?_, h.parts.sub⟩
  · intro i hi
    rw [h.perm.mem_iff, mem_positions] at hi
    obtain ⟨p, -, p1, p2⟩ := hi
    rw [Nat.sub_zero] at p1
    refine ⟨p, p1, ?_⟩
    obtain ⟨hx, hy, -⟩ := hb p (List.mem_of_getElem? p1)
    obtain ⟨x, y, q1, -, -, q2, q3⟩ := inside_cell hg hx hy
    unfold inCell at p2
    simp only [decide_eq_true_eq] at p2
    rw [q1] at p2
    simp only [Outcome.ok.injEq, Option.some.injEq] at p2
    rw [← p2]
    exact ⟨q2, q3⟩
  · intro s hs i hi
    obtain ⟨p, p1, p2⟩ := h.parts.z s hs i hi
    refine ⟨p, p1, ?_⟩
    have hcz : 1 < g.cellsZ := by
      have hsh := (o3 e he).parts
      by_contra hc
      have : ¬ g.splitZ e.2 = true := by unfold Grid.splitZ; simp [hc]
      rw [if_neg this] at hsh
      split at hsh
      · rw [hsh.2.1] at hs; simp at hs
      · rw [hsh.1] at hs; simp at hs
    obtain ⟨a, a1, -, a2⟩ := between_cell ((hb p (List.mem_of_getElem? p1)).2.2 hcz) (by omega) hz
    unfold identifyCellZ at p2
    have : identify1 g.min.z g.rangeZ g.cellsZ p.z = .ok (some a) := a1
    rw [this] at p2
    simp only [Outcome.ok.injEq, Option.some.injEq] at p2
    rw [← p2]; exact a2

/-- C42. The memory limit makes no difference, whatever the points, inside the bounds or not: building the index ends
the same way, and with the same runs in the same parts of the same cells, the same counts and z ranges. It needs a name
for the temporary file: `index_refuted_no_temp`. -/
theorem index_limit {g : Grid} {pts : List Pt} (l : Nat) (hg : GridOK g) (ht : g.temp = true) (hl : pts.length < 2 ^ 32) :
    forgetOffsets (buildIndex { g with limit := l } pts) = forgetOffsets (buildIndex g pts) := by
  have hg' : GridOK { g with limit := l } := ⟨hg.x, hg.y, hg.small⟩
  rw [build_abs hg ht (located hg pts) hl, build_abs hg' ht (located hg' pts) hl]
  have h1 : ∀ (a : Abs) n, Abs.run { g with limit := l } n a pts = Abs.run g n a pts := by
    clear hl
    induction pts with
    | nil => intro a n; rfl
    | cons p ps ih => intro a n; exact ih _ _
  have h2 : ∀ cs R, absOutput { g with limit := l } pts R cs = absOutput g pts R cs := by
    intro cs R
    induction cs with
    | nil => rfl
    | cons c cs ih =>
      obtain ⟨x, y⟩ := c
      unfold absOutput
      rw [ih]; rfl
  rw [h1, h2]
  rfl

def pt (x y z : Int) : Pt := ⟨.fin x, .fin y, .fin z⟩

/-- A grid of 2 by 2 cells over (0,0)-(10,10), split in z into two. -/
def sampleGrid : Grid := ⟨pt 0 0 0, pt 10 10 10, 2, 2, 2, .fin 5, 1, true⟩
def samplePts : List Pt := [pt 1 1 1, pt 2 2 9, pt 7 1 1, pt 3 3 3, pt 10 10 10, pt 5 5 5]

theorem between_int {a b c : Int} (h1 : a ≤ c) (h2 : c ≤ b) (h3 : a < b) (h4 : |a| ≤ 1000) (h5 : |b| ≤ 1000) :
    Between (.fin a) (.fin b) (.fin c) := by
  have big : ∀ n : Int, |n| ≤ 1000 → |(n : ℚ)| ≤ 2 ^ 1000 := by
    intro n hn
    have h6 : |(n : ℚ)| ≤ 1000 := by exact_mod_cast hn
    have h7 : (1000 : ℚ) ≤ 2 ^ 1000 := by
      calc (1000 : ℚ) ≤ 2 ^ 10 := by norm_num
        _ ≤ 2 ^ 1000 := pow_le_pow_right₀ (by norm_num) (by norm_num)
    exact h6.trans h7
  refine ⟨a, b, c, rfl, rfl, rfl, by exact_mod_cast h1, by exact_mod_cast h2, big a h4, big b h5, ?_⟩
  have h8 : (1 : ℚ) ≤ b - a := by
    have : (1 : Int) ≤ b - a := by omega
    exact_mod_cast this
  refine le_trans ?_ h8
  rw [div_le_one (by positivity)]
  exact one_le_pow₀ (by norm_num)

theorem sample_inside : AllInside sampleGrid samplePts := by
  intro p hp
  have : ∃ x y z : Int, p = pt x y z ∧ 0 ≤ x ∧ x ≤ 10 ∧ 0 ≤ y ∧ y ≤ 10 ∧ 0 ≤ z ∧ z ≤ 10 := by
    simp only [samplePts, List.mem_cons, List.not_mem_nil, or_false] at hp
    rcases hp with rfl | rfl | rfl | rfl | rfl | rfl
    · exact ⟨1, 1, 1, rfl, by decide⟩
    · exact ⟨2, 2, 9, rfl, by decide⟩
    · exact ⟨7, 1, 1, rfl, by decide⟩
    · exact ⟨3, 3, 3, rfl, by decide⟩
    · exact ⟨10, 10, 10, rfl, by decide⟩
    · exact ⟨5, 5, 5, rfl, by decide⟩
  obtain ⟨x, y, z, rfl, h1, h2, h3, h4, h5, h6⟩ := this
  exact ⟨between_int h1 h2 (by decide) (by decide) (by decide), between_int h3 h4 (by decide) (by decide) (by decide),
    fun _ => between_int h5 h6 (by decide) (by decide) (by decide)⟩

/-- The hypotheses of the two theorems hold of a grid with cells divided in z, and a memory limit of one record. -/
example : GridOK sampleGrid ∧ sampleGrid.temp = true ∧ samplePts.length < 2 ^ 32 ∧ sampleGrid.cellsZ < 2 ^ 32 ∧
    AllInside sampleGrid samplePts := ⟨⟨by decide, by decide, by decide⟩, rfl, by decide, by decide, sample_inside⟩

instance : DecidableEq ((Nat × Nat) × Cell) := inferInstance

/-- The index of the sample, as the theorems say: the first cell is divided in z, the point (10,10,10) is in the last. -/
example : (buildIndex sampleGrid samplePts >>= fun o => .ok (o.map fun l => l.map viewOf)) =
    .ok (some [⟨(0, 0), [], [(0, [0, 3]), (1, [1])], [], 3, 1, 9⟩, ⟨(0, 1), [], [], [], 0, 32767, -32768⟩,
      ⟨(1, 0), [2], [], [], 1, 1, 1⟩, ⟨(1, 1), [4, 5], [], [], 2, 5, 10⟩]) := by decide +kernel

/-- The same points, with one outside the bounds between two points of one cell. -/
def outsidePts : List Pt := [pt 1 1 1, pt 20 20 1, pt 2 2 1]
def flatGrid : Grid := ⟨pt 0 0 0, pt 10 10 10, 2, 2, 1, .fin 0, 100, true⟩

/-- C41 is false in general: the run of the first point is made longer for the third, so that the cell holds the id of
the second point, which lies outside, and not that of the third. -/
theorem index_refuted_outside :
    (buildIndex flatGrid outsidePts >>= fun o => .ok (o.map fun l => (l.map viewOf).head?)) =
      .ok (some (some ⟨(0, 0), [0, 1], [], [], 2, 1, 1⟩)) := by decide +kernel

/-- With a limit of one record and one of 100 the indexes differ in the offsets, so that leaving these out is needed; and
the limit of one does write cells out twice. -/
example : buildIndex { flatGrid with limit := 1 } [pt 1 1 1, pt 7 7 1, pt 2 2 1] ≠ buildIndex flatGrid [pt 1 1 1, pt 7 7 1, pt 2 2 1] ∧
    forgetOffsets (buildIndex { flatGrid with limit := 1 } [pt 1 1 1, pt 7 7 1, pt 2 2 1]) =
      forgetOffsets (buildIndex flatGrid [pt 1 1 1, pt 7 7 1, pt 2 2 1]) := by
  decide +kernel

/-- C42 is false without a name for the temporary file: no cell is ever written, and the reload uses a null file. -/
theorem index_refuted_no_temp {g : Grid} {pts : List Pt} (hg : GridOK g) (ht : g.temp = false) : buildIndex g pts = .ub := by
  obtain ⟨s, hs⟩ := index_points_defined hg pts Build.start
  have htemp : ∀ (pts : List Pt) (s s' : Build), s.temp = none → Build.loop g s pts = .ok s' → s'.temp = none := by
    intro pts
    induction pts with
    | nil =>
      intro s s' h hs
      simp only [Build.loop, Outcome.ok.injEq] at hs
      subst hs; exact h
    | cons p pts ih =>
      intro s s' h hs
      have hs : (s.step g p >>= fun s => Build.loop g s pts) = .ok s' := hs
      cases h1 : s.step g p with
      | ub => rw [h1] at hs; simp [bind, Outcome.bind] at hs
      | throw e => rw [h1] at hs; simp [bind, Outcome.bind] at hs
      | ok s1 =>
        rw [h1] at hs
        refine ih s1 s' ?_ hs
        have hadd : ∀ x y, (s.add g x y).temp = none := by
          intro x y
          unfold Build.add
          have hf : ¬ (g.temp && decide (g.limit ≤ s.inMemory)) = true := by rw [ht]; simp
          simp only [if_neg hf]
          exact h
        have hvisit : ∀ x y, (s.visit g x y p.z).temp = none := by
          intro x y
          unfold Build.visit
          simp only
          split
          · split
            · exact h
            · exact hadd x y
          · exact hadd x y
        unfold Build.step at h1
        cases hid : identifyCell g p with
        | ub => rw [hid] at h1; simp [bind, Outcome.bind] at h1
        | throw e => rw [hid] at h1; simp [bind, Outcome.bind] at h1
        | ok o =>
          rw [hid] at h1
          cases o with
          | none =>
            have h1 : Outcome.ok { s with pointId := (s.pointId + 1) % 2 ^ 32 } = .ok s1 := h1
            injection h1 with h1
            subst h1; exact h
          | some xy =>
            obtain ⟨x, y⟩ := xy
            have h1 : (if x < g.cellsX ∧ y < g.cellsY then
              Outcome.ok { s.visit g x y p.z with pointId := ((s.visit g x y p.z).pointId + 1) % 2 ^ 32 } else .ub) = .ok s1 := h1
            split at h1
            · injection h1 with h1
              subst h1
              exact hvisit x y
            · simp at h1
  have hn := htemp pts _ _ rfl hs
  unfold buildIndex
  rw [hs]
  show outputLoop g pts (s.finish g).temp (s.finish g).block g.cells = _
  unfold Build.finish
  rw [if_neg (by rw [ht]; simp), hn]
  have hne : g.cells ≠ [] := by
    intro hc
    have := cells_length g
    rw [hc] at this
    have := Nat.mul_pos hg.x hg.y
    simp at *; omega
  obtain ⟨xy, rest, hcons⟩ := List.exists_cons_of_ne_nil hne
  rw [hcons]
  rfl

end LibLAS.Index
