import Verif.Lemmas.IndexLoad
import Verif.Lemmas.IndexSub
import Verif.Lemmas.IndexPlace
import Verif.Lemmas.IndexZ
/-
The whole build.
-/
namespace LibLAS.Index
open Spec Fl

theorem range_ne {a b : ℚ} (h : 1 / 2 ^ 900 ≤ b - a) (ha : |a| ≤ 2 ^ 1000) (hb : |b| ≤ 2 ^ 1000) : Fl.sub (.fin b) (.fin a) ≠ .fin 0 := by
  have hbig : |b - a| ≤ 2 ^ 1023 := by
    refine (abs_sub b a).trans ?_
    have : (2 : ℚ) ^ 1000 + 2 ^ 1000 = 2 ^ 1001 := by rw [pow_succ _ 1000]; ring
    refine (add_le_add hb ha).trans ?_
    rw [this]
    exact pow_le_pow_right₀ (by norm_num) (by norm_num)
  have er : Fl.sub (.fin b) (.fin a) = .fin (rnd (b - a)) := by
    show ofRat (b + -a) = _
    rw [← sub_eq_add_neg]; exact ofRat_fin hbig
  rw [er]
  intro hc
  injection hc with hc
  have hd : 0 < b - a := lt_of_lt_of_le (by positivity) h
  have he := rnd_err (b - a)
  rw [hc, zero_sub, abs_neg, abs_of_pos hd] at he
  have ht := tiny_le h
  generalize (1 : ℚ) / 2 ^ 1075 = e at *
  norm_num at *
  linarith

theorem between_cell {lo hi c : Fl} {n : Nat} (h : Between lo hi c) (h0 : 0 < n) (h1 : n < 2 ^ 32) :
    ∃ k, identify1 lo (Fl.sub hi lo) n c = .ok (some k) ∧ k < n ∧ InPart lo hi c n k := by
  obtain ⟨a, b, d, rfl, rfl, rfl, h2, h3, h4, h5, h6⟩ := h
  obtain ⟨k, k1, k2⟩ := identify1_inside h0 h1 h4 h5 h2 h3 (range_ne h6 h4 h5)
  have := identify1_near h0 h1 h4 h5 h2 h3 h6 k1
  exact ⟨k, k1, k2, a, b, d, rfl, rfl, rfl, this.1, this.2⟩

theorem _root_.LibLAS.Spec.GridOK.bounds {g : Grid} (hg : GridOK g) : g.cellsX < 2 ^ 32 ∧ g.cellsY < 2 ^ 32 := by
  have := hg.small
  have hx := hg.x
  have hy := hg.y
  constructor
  · have := Nat.le_mul_of_pos_right g.cellsX hy; omega
  · have := Nat.le_mul_of_pos_left g.cellsY hx; omega

theorem inside_cell {g : Grid} (hg : GridOK g) {p : Pt} (hx : Between g.min.x g.max.x p.x) (hy : Between g.min.y g.max.y p.y) :
    ∃ x y, identifyCell g p = .ok (some (x, y)) ∧ x < g.cellsX ∧ y < g.cellsY ∧
      InPart g.min.x g.max.x p.x g.cellsX x ∧ InPart g.min.y g.max.y p.y g.cellsY y := by
  obtain ⟨x, a1, a2, a3⟩ := between_cell hx hg.x hg.bounds.1
  obtain ⟨y, b1, b2, b3⟩ := between_cell hy hg.y hg.bounds.2
  refine ⟨x, y, ?_, a2, b2, a3, b3⟩
  unfold identifyCell Grid.rangeX Grid.rangeY
  rw [a1, b1]; rfl

theorem placed_of_inside {g : Grid} (hg : GridOK g) {pts : List Pt} (h : AllInside g pts) : Placed g pts := by
  intro p hp
  obtain ⟨hx, hy, -⟩ := h p hp
  obtain ⟨x, y, h1, h2, h3, -⟩ := inside_cell hg hx hy
  exact ⟨x, y, h1, h2, h3⟩

/-- The parts of an output cell are made of the right points. -/
structure Parts (g : Grid) (pts : List Pt) (xy : Nat × Nat) (c : Cell) : Prop where
  z : ∀ e ∈ c.zCells, ∀ i ∈ ids e.2, ∃ p, pts[i]? = some p ∧ identifyCellZ g p = .ok (some e.1)
  sub : ∀ e ∈ c.subCells, ∀ i ∈ ids e.2, ∃ p, pts[i]? = some p ∧ identifySubCell g p xy.1 xy.2 = e.1

theorem SubInv.part {place : Pt → Outcome (Option Nat)} {pts : List Pt} {L : List Nat} {hi : Nat} {m : List (Nat × Runs)}
    (hp : ∀ p ∈ pts, ∃ a, place p = .ok (some a) ∧ a < 2 ^ 32 - 1) (h : SubInv (subOf place pts) L hi m)
    (hL : ∀ i ∈ L, i < pts.length) : ∀ e ∈ m, ∀ i ∈ Spec.ids e.2, ∃ p, pts[i]? = some p ∧ place p = .ok (some e.1) := by
  intro e he i hi'
  have hf := h.sorted.find e he
  have := h.ids e.1
  rw [hf, Option.getD_some] at this
  rw [this] at hi'
  obtain ⟨h1, h2⟩ := List.mem_filter.1 hi'
  have hlt := hL i h1
  obtain ⟨a, ha, -⟩ := hp pts[i] (List.getElem_mem hlt)
  have hg := List.getElem?_eq_getElem hlt
  refine ⟨pts[i], hg, ?_⟩
  have h3 : subOf place pts i = a := by unfold subOf; rw [hg]; dsimp only; rw [ha]
  rw [h3] at h2
  rw [ha]
  simp only [decide_eq_true_eq] at h2
  rw [h2]

theorem RunsOK.ids_lt {r : Runs} : ∀ {lo hi : Nat}, RunsOK lo r hi → ∀ i ∈ ids r, i < hi := by
  intro lo hi h i hi'
  unfold ids at hi'
  obtain ⟨e, he, h2⟩ := List.mem_flatMap.1 hi'
  obtain ⟨k, h3, rfl⟩ := List.mem_map.1 h2
  have := h.mem e he
  have := List.mem_range.1 h3
  omega

/-- A cell holding the points `L` with z range `z`, split as required. -/
structure Shape (g : Grid) (pts : List Pt) (xy : Nat × Nat) (L : List Nat) (z : Int × Int) (c : Cell) : Prop where
  num : c.numPoints = L.length
  z : zb c = z
  parts : if g.splitZ c = true then c.pts = [] ∧ c.subCells = [] ∧ ∃ hi, SubInv (subOf (identifyCellZ g) pts) L hi c.zCells
    else if 1000 < c.numPoints then c.pts = [] ∧ c.zCells = [] ∧
      ∃ hi, SubInv (subOf (fun p => .ok (some (identifySubCell g p xy.1 xy.2))) pts) L hi c.subCells
    else c.zCells = [] ∧ c.subCells = [] ∧ ids c.pts = L ∧ RunsOK 0 c.pts pts.length

theorem sub_place (g : Grid) (pts : List Pt) (x y : Nat) :
    ∀ p ∈ pts, ∃ a, (fun p => Outcome.ok (some (identifySubCell g p x y))) p = .ok (some a) ∧ a < 2 ^ 32 - 1 := by
  intro p _
  refine ⟨_, rfl, ?_⟩
  unfold identifySubCell
  simp only
  split <;> split <;> omega

theorem subdivide_ok {g : Grid} {pts : List Pt} {x y : Nat} {c : Cell}
    (hz : 1 < g.cellsZ → ∀ p ∈ pts, ∃ a, identifyCellZ g p = .ok (some a) ∧ a < 2 ^ 32 - 1)
    (hr : RunsOK 0 c.pts pts.length) (h1 : c.zCells = []) (h2 : c.subCells = []) (hn : c.numPoints = (ids c.pts).length) :
    ∃ c', subdivide g pts x y c = .ok (some c') ∧ Shape g pts (x, y) (ids c.pts) (zb c) c' := by
  unfold subdivide
  by_cases hsz : g.splitZ c = true
  · rw [if_pos (by rw [hsz]; rfl), if_pos hsz]
    have hcz : 1 < g.cellsZ := by
      unfold Grid.splitZ at hsz
      simp only [Bool.and_eq_true, decide_eq_true_eq] at hsz
      exact hsz.1
    obtain ⟨m, m1, hi, m2⟩ := runs_ok (hz hcz) c.pts (SubInv.nil _) hr
    rw [List.nil_append] at m2
    rw [h1, m1]
    refine ⟨_, rfl, hn, rfl, ?_⟩
    have : g.splitZ { c with zCells := m }.removeMainRecords = true := hsz
    rw [if_pos this]
    exact ⟨rfl, h2, hi, m2⟩
  · by_cases hk : 1000 < c.numPoints
    · rw [if_pos (by simp [hk]), if_neg hsz]
      obtain ⟨m, m1, hi, m2⟩ := runs_ok (sub_place g pts x y) c.pts (SubInv.nil _) hr
      rw [List.nil_append] at m2
      rw [h2, m1]
      refine ⟨_, rfl, hn, rfl, ?_⟩
      have h3 : ¬ g.splitZ { c with subCells := m }.removeMainRecords = true := hsz
      have h4 : 1000 < ({ c with subCells := m }.removeMainRecords).numPoints := hk
      rw [if_neg h3, if_pos h4]
      exact ⟨rfl, h1, hi, m2⟩
    · rw [if_neg (by simp [hsz, hk])]
      refine ⟨c, rfl, hn, rfl, ?_⟩
      rw [if_neg hsz, if_neg hk]
      exact ⟨h1, h2, rfl, hr⟩

/-- What is known of a cell of the index. -/
structure CellOK (g : Grid) (pts : List Pt) (xy : Nat × Nat) (c : Cell) : Prop where
  perm : (cellIds c).Perm (positions (inCell g xy) 0 pts)
  num : c.numPoints = (positions (inCell g xy) 0 pts).length
  parts : Parts g pts xy c

theorem Shape.cellOK {g : Grid} {pts : List Pt} {xy : Nat × Nat} {z : Int × Int} {c : Cell}
    (hz : 1 < g.cellsZ → ∀ p ∈ pts, ∃ a, identifyCellZ g p = .ok (some a) ∧ a < 2 ^ 32 - 1)
    (h : Shape g pts xy (positions (inCell g xy) 0 pts) z c) : CellOK g pts xy c := by
  have hids : ∀ i ∈ positions (inCell g xy) 0 pts, i < pts.length := by
    intro i hi
    rw [mem_positions] at hi
    obtain ⟨p, -, h2, -⟩ := hi
    exact (List.getElem?_eq_some_iff.1 h2).1
  have hp := h.parts
  obtain ⟨x, y⟩ := xy
  by_cases c1 : g.splitZ c = true
  · rw [if_pos c1] at hp
    obtain ⟨a1, a2, hi, a3⟩ := hp
    have hcz : 1 < g.cellsZ := by
      unfold Grid.splitZ at c1
      simp only [Bool.and_eq_true, decide_eq_true_eq] at c1
      exact c1.1
    refine ⟨?_, h.num, ⟨a3.part (hz hcz) hids, ?_⟩⟩
    · unfold cellIds; rw [a1, a2]; simpa [Spec.ids] using a3.perm
    · rw [a2]; simp
  · rw [if_neg c1] at hp
    by_cases c2 : 1000 < c.numPoints
    · rw [if_pos c2] at hp
      obtain ⟨a1, a2, hi, a3⟩ := hp
      refine ⟨?_, h.num, ⟨?_, ?_⟩⟩
      · unfold cellIds; rw [a1, a2]; simpa [Spec.ids] using a3.perm
      · rw [a2]; simp
      · intro e he i hi'
        obtain ⟨p, p1, p2⟩ := a3.part (sub_place g pts x y) hids e he i hi'
        exact ⟨p, p1, by simpa using p2⟩
    · rw [if_neg c2] at hp
      obtain ⟨a1, a2, a3, -⟩ := hp
      refine ⟨?_, h.num, ⟨?_, ?_⟩⟩
      · unfold cellIds; rw [a1, a2, a3]; simp
      · rw [a1]; simp
      · rw [a2]; simp

/-- The shape of every cell of the index. -/
abbrev Shaped (g : Grid) (pts : List Pt) (e : (Nat × Nat) × Cell) : Prop :=
  Shape g pts e.1 (positions (inCell g e.1) 0 pts) (zHull (32767, -32768) ((pts.filter (inCell g e.1)).map Pt.z)) e.2

theorem outputLoop_ok {g : Grid} {pts : List Pt} {R : Nat → Nat → Runs} {bl : List ((Nat × Nat) × Runs)} {t : Temp} {b : Block} (hg : GridOK g)
    (hz : 1 < g.cellsZ → ∀ p ∈ pts, ∃ a, identifyCellZ g p = .ok (some a) ∧ a < 2 ^ 32 - 1)
    (hc : CellsInv g pts R bl b) (hf : FileInv g t (fun x y => (b x y).fileOffset) bl) (hl : pts.length < 2 ^ 32)
    (hR : ∀ x y, ids (R x y) = positions (inCell g (x, y)) 0 pts)
    (he : ∀ x y, x < g.cellsX → y < g.cellsY → (b x y).pts = [])
    (hb : ∀ x y, zb (b x y) = zHull (32767, -32768) ((pts.filter (inCell g (x, y))).map Pt.z)) (rest : List (Nat × Nat)) :
    (∀ c ∈ rest, c.1 < g.cellsX ∧ c.2 < g.cellsY) → ∃ out, outputLoop g pts (some t) b rest = .ok (some out) ∧
      out.map Prod.fst = rest ∧ ∀ e ∈ out, Shaped g pts e := by
  induction rest with
  | nil => intro _; exact ⟨[], rfl, rfl, by simp⟩
  | cons xy rest ih =>
    intro hr
    obtain ⟨x, y⟩ := xy
    obtain ⟨hx, hy⟩ := hr (x, y) (by simp)
    obtain ⟨out, o1, o2, o3⟩ := ih fun c hc => hr c (by simp [hc])
    obtain ⟨c, c1, c2, c3, c4, c5, c6, c7, c8⟩ := loadCell_ok hg hc hf hl he hx hy
    have c3' : ids c.pts = positions (inCell g (x, y)) 0 pts := by rw [c3, hR]
    obtain ⟨c', d1, d2⟩ := subdivide_ok (x := x) (y := y) hz c2 c5 c6 (by rw [c3']; exact c4)
    have hzb : zb c = zb (b x y) := by unfold zb; rw [c7, c8]
    rw [c3', hzb, hb] at d2
    refine ⟨((x, y), c') :: out, ?_, ?_, ?_⟩
    · unfold outputLoop
      rw [c1]
      show (subdivide g pts x y c).bind _ = _
      rw [d1]
      show (outputLoop g pts (some t) b rest).bind _ = _
      rw [o1]; rfl
    · rw [List.map_cons, o2]
    · intro e he'
      rcases List.mem_cons.1 he' with rfl | he'
      · exact d2
      · exact o3 e he'

theorem _root_.LibLAS.Spec.Placed.located {g : Grid} {pts : List Pt} (h : Placed g pts) : Located g pts := fun p hp => Or.inr (h p hp)

theorem build_shaped {g : Grid} {pts : List Pt} (hg : GridOK g) (ht : g.temp = true) (hp : Placed g pts)
    (hz : 1 < g.cellsZ → ∀ p ∈ pts, ∃ a, identifyCellZ g p = .ok (some a) ∧ a < 2 ^ 32 - 1) (hl : pts.length < 2 ^ 32) :
    ∃ out, buildIndex g pts = .ok (some out) ∧ out.map Prod.fst = g.cells ∧ ∀ e ∈ out, Shaped g pts e := by
  obtain ⟨s, bl, e1, i1⟩ := loop_ok pts (LoopInv.start hg) hp.located (by simpa using hl)
  rw [List.nil_append] at i1
  have ha := (AbsInv.start g).run pts hp
  rw [List.nil_append] at ha
  obtain ⟨bl', c1, f1, p1⟩ := purge_ok i1.cells i1.temp
  have hb := build_zb e1
  unfold Build.finish at hb
  rw [if_pos ht] at hb
  obtain ⟨out, o1, o2⟩ := outputLoop_ok hg hz c1 f1 hl ha.ids p1 hb g.cells fun c hc => mem_cells.1 (by exact hc)
  refine ⟨out, ?_, o2⟩
  unfold buildIndex
  rw [e1]
  show outputLoop g pts (s.finish g).temp (s.finish g).block g.cells = _
  unfold Build.finish
  rw [if_pos ht]
  exact o1

/-- A reloaded cell, as it is whatever the memory limit, up to its place in the temporary file. -/
def absCell (g : Grid) (pts : List Pt) (R : Nat → Nat → Runs) (x y : Nat) : Cell :=
  let z := zHull (32767, -32768) ((pts.filter (inCell g (x, y))).map Pt.z)
  ⟨0, (positions (inCell g (x, y)) 0 pts).length, z.1, z.2, R x y, [], []⟩

def absOutput (g : Grid) (pts : List Pt) (R : Nat → Nat → Runs) : List (Nat × Nat) → Outcome (Option (List ((Nat × Nat) × Cell)))
  | [] => .ok (some [])
  | (x, y) :: rest =>
    (subdivide g pts x y (absCell g pts R x y)).bind fun c =>
      match c with
      | none => .ok none
      | some c => (absOutput g pts R rest).bind fun l => .ok (l.map fun l => ((x, y), c) :: l)

theorem subdivide_forget (g : Grid) (pts : List Pt) (x y : Nat) (c : Cell) :
    subdivide g pts x y { c with fileOffset := 0 } =
      (subdivide g pts x y c).bind fun o => .ok (o.map fun c => { c with fileOffset := 0 }) := by
  unfold subdivide
  have h1 : g.splitZ { c with fileOffset := 0 } = g.splitZ c := rfl
  rw [h1]
  show (if (g.splitZ c || decide (1000 < c.numPoints)) = true then _ else _) = _
  split
  · split
    · show ((Sub.runs (identifyCellZ g) pts c.pts c.zCells).bind _) = _
      cases Sub.runs (identifyCellZ g) pts c.pts c.zCells with
      | ub => rfl
      | throw e => rfl
      | ok o => cases o <;> rfl
    · show ((Sub.runs (fun p => .ok (some (identifySubCell g p x y))) pts c.pts c.subCells).bind _) = _
      cases Sub.runs (fun p => .ok (some (identifySubCell g p x y))) pts c.pts c.subCells with
      | ub => rfl
      | throw e => rfl
      | ok o => cases o <;> rfl
  · rfl

theorem outputLoop_abs {g : Grid} {pts : List Pt} {R : Nat → Nat → Runs} {bl : List ((Nat × Nat) × Runs)} {t : Temp} {b : Block} (hg : GridOK g)
    (hc : CellsInv g pts R bl b) (hf : FileInv g t (fun x y => (b x y).fileOffset) bl) (hl : pts.length < 2 ^ 32)
    (he : ∀ x y, x < g.cellsX → y < g.cellsY → (b x y).pts = [])
    (hb : ∀ x y, zb (b x y) = zHull (32767, -32768) ((pts.filter (inCell g (x, y))).map Pt.z)) (rest : List (Nat × Nat)) :
    (∀ c ∈ rest, c.1 < g.cellsX ∧ c.2 < g.cellsY) →
      forgetOffsets (outputLoop g pts (some t) b rest) = absOutput g pts R rest := by
  induction rest with
  | nil => intro _; rfl
  | cons xy rest ih =>
    intro hr
    obtain ⟨x, y⟩ := xy
    obtain ⟨hx, hy⟩ := hr (x, y) (by simp)
    have ih := ih fun c hc => hr c (by simp [hc])
    obtain ⟨c, c1, c2, c3, c4, c5, c6, c7, c8⟩ := loadCell_ok hg hc hf hl he hx hy
    have hzb : zb c = zb (b x y) := by unfold zb; rw [c7, c8]
    have hcell : absCell g pts R x y = { c with fileOffset := 0 } := by
      unfold absCell
      rw [← hb, ← hzb, ← c3, ← c4]
      obtain ⟨f, n, mn, mx, ps, z, sb⟩ := c
      simp only [] at c5 c6
      subst c5 c6
      rfl
    unfold outputLoop absOutput
    rw [c1, hcell, subdivide_forget, ← ih]
    show forgetOffsets ((subdivide g pts x y c).bind _) = _
    cases subdivide g pts x y c with
    | ub => rfl
    | throw e => rfl
    | ok o =>
      cases o with
      | none => rfl
      | some c' =>
        show forgetOffsets ((outputLoop g pts (some t) b rest).bind _) = (forgetOffsets (outputLoop g pts (some t) b rest)).bind _
        cases outputLoop g pts (some t) b rest with
        | ub => rfl
        | throw e => rfl
        | ok o => cases o <;> rfl

theorem build_abs {g : Grid} {pts : List Pt} (hg : GridOK g) (ht : g.temp = true) (hp : Located g pts) (hl : pts.length < 2 ^ 32) :
    forgetOffsets (buildIndex g pts) = absOutput g pts (Abs.run g 0 Abs.start pts).R g.cells := by
  obtain ⟨s, bl, e1, i1⟩ := loop_ok pts (LoopInv.start hg) hp (by simpa using hl)
  rw [List.nil_append] at i1
  obtain ⟨bl', c1, f1, p1⟩ := purge_ok i1.cells i1.temp
  have hb := build_zb e1
  unfold Build.finish at hb
  rw [if_pos ht] at hb
  have := outputLoop_abs hg c1 f1 hl p1 hb g.cells fun c hc => mem_cells.1 (by exact hc)
  refine Eq.trans ?_ this
  unfold buildIndex
  rw [e1]
  show forgetOffsets (outputLoop g pts (s.finish g).temp (s.finish g).block g.cells) = _
  unfold Build.finish
  rw [if_pos ht]

theorem positions_nodup (f : Pt → Bool) (a : List Pt) : ∀ n, (positions f n a).Nodup ∧ ∀ i ∈ positions f n a, n ≤ i := by
  induction a with
  | nil => intro n; simp [positions]
  | cons p a ih =>
    intro n
    obtain ⟨h1, h2⟩ := ih (n + 1)
    unfold positions
    split
    · refine ⟨List.nodup_cons.2 ⟨fun h => ?_, h1⟩, ?_⟩
      · have := h2 n h; omega
      · intro i hi
        rcases List.mem_cons.1 hi with rfl | hi
        · exact le_refl _
        · have := h2 i hi; omega
    · exact ⟨h1, fun i hi => by have := h2 i hi; omega⟩

/-- All the cells together hold every point once. -/
theorem all_ids {g : Grid} {pts : List Pt} (hp : Placed g pts) {out : List ((Nat × Nat) × Cell)}
    (hk : out.map Prod.fst = g.cells) (h : ∀ e ∈ out, CellOK g pts e.1 e.2) :
    (out.flatMap fun e => cellIds e.2).Perm (List.range pts.length) := by
  have hcell : ∀ i xy, i ∈ positions (inCell g xy) 0 pts ↔ ∃ p, pts[i]? = some p ∧ identifyCell g p = .ok (some xy) := by
    intro i xy
    rw [mem_positions]
    simp [inCell]
  have hnd : (out.flatMap fun e => cellIds e.2).Nodup := by
    rw [List.nodup_flatMap]
    refine ⟨fun e he => ((h e he).perm.nodup_iff).2 (positions_nodup _ _ _).1, ?_⟩
    have hpw : (out.map Prod.fst).Pairwise (· ≠ ·) := by rw [hk]; exact cells_nodup g
    rw [List.pairwise_map] at hpw
    refine hpw.imp_of_mem ?_
    intro a b ha hb hab
    show List.Disjoint _ _
    intro i hi1 hi2
    rw [(h a ha).perm.mem_iff, hcell] at hi1
    rw [(h b hb).perm.mem_iff, hcell] at hi2
    obtain ⟨p, p1, p2⟩ := hi1
    obtain ⟨q, q1, q2⟩ := hi2
    rw [p1] at q1
    injection q1 with q1
    subst q1
    rw [p2] at q2
    simp only [Outcome.ok.injEq, Option.some.injEq] at q2
    exact hab q2
  refine (List.perm_ext_iff_of_nodup hnd List.nodup_range).2 ?_
  intro i
  rw [List.mem_flatMap, List.mem_range]
  constructor
  · rintro ⟨e, he, hi⟩
    rw [(h e he).perm.mem_iff, hcell] at hi
    obtain ⟨p, p1, -⟩ := hi
    exact (List.getElem?_eq_some_iff.1 p1).1
  · intro hi
    obtain ⟨x, y, h1, h2, h3⟩ := hp pts[i] (List.getElem_mem hi)
    have hm : (x, y) ∈ out.map Prod.fst := by rw [hk]; exact mem_cells.2 ⟨h2, h3⟩
    obtain ⟨e, he, hxy⟩ := List.mem_map.1 hm
    refine ⟨e, he, ?_⟩
    rw [(h e he).perm.mem_iff, hcell]
    exact ⟨pts[i], List.getElem?_eq_getElem hi, by rw [hxy]; exact h1⟩

end LibLAS.Index
