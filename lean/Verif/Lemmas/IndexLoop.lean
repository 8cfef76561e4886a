import Verif.Lemmas.IndexPurge
/-
The loop over the points.
-/
namespace LibLAS.Index
open Spec

/-- All the records of a cell: those in the temporary file, then those in memory. -/
def allRuns (bl : List ((Nat × Nat) × Runs)) (b : Block) (x y : Nat) : Runs := runsOf (x, y) bl ++ (b x y).pts

/-- The runs of the cells as they would be without a temporary file, and the place of the last one. -/
structure Abs where
  R : Nat → Nat → Runs
  lastX : Nat
  lastY : Nat
  lastPoint : Nat

def setR (R : Nat → Nat → Runs) (x y : Nat) (r : Runs) : Nat → Nat → Runs := fun i j => if i = x ∧ j = y then r else R i j

theorem setR_same (R : Nat → Nat → Runs) (x y : Nat) (r : Runs) : setR R x y r x y = r := by simp [setR]
theorem setR_other (R : Nat → Nat → Runs) {x y i j : Nat} (r : Runs) (h : (i, j) ≠ (x, y)) : setR R x y r i j = R i j := by
  unfold setR
  rw [if_neg]
  rintro ⟨rfl, rfl⟩
  exact h rfl

def Abs.start : Abs := ⟨fun _ _ => [], 2 ^ 32 - 1, 2 ^ 32 - 1, 0⟩

def Abs.step (g : Grid) (a : Abs) (n : Nat) (p : Pt) : Abs :=
  match identifyCell g p with
  | .ok (some (x, y)) =>
    match (if x = a.lastX ∧ y = a.lastY then Cell.incremented (a.R x y) a.lastPoint else none) with
    | some r => { a with R := setR a.R x y r }
    | none => ⟨setR a.R x y (a.R x y ++ [(n, 1)]), x, y, n⟩
  | _ => a

def Abs.run (g : Grid) : Nat → Abs → List Pt → Abs
  | _, a, [] => a
  | n, a, p :: ps => Abs.run g (n + 1) (a.step g n p) ps

/-- What is known of the cells after the points `ps`; the cells have the runs `R`. -/
structure CellsInv (g : Grid) (ps : List Pt) (R : Nat → Nat → Runs) (bl : List ((Nat × Nat) × Runs)) (b : Block) : Prop where
  runs : ∀ x y, x < g.cellsX → y < g.cellsY → RunsOK 0 (R x y) ps.length
  eq : ∀ x y, x < g.cellsX → y < g.cellsY → allRuns bl b x y = R x y
  len : ∀ x y, x < g.cellsX → y < g.cellsY → (ids (R x y)).length = (positions (inCell g (x, y)) 0 ps).length
  num : ∀ x y, x < g.cellsX → y < g.cellsY → (b x y).numPoints = (positions (inCell g (x, y)) 0 ps).length
  subs : ∀ x y, (b x y).zCells = [] ∧ (b x y).subCells = []
  labels : ∀ e ∈ bl, e.1 ∈ g.cells ∧ e.2 ≠ []

/-- What is known of the temporary file. -/
def TempInv (g : Grid) (t : Option Temp) (b : Block) (bl : List ((Nat × Nat) × Runs)) : Prop :=
  match t with
  | none => bl = [] ∧ ∀ x y, (b x y).fileOffset = 0
  | some t => FileInv g t (fun x y => (b x y).fileOffset) bl

structure LoopInv (g : Grid) (ps : List Pt) (a : Abs) (bl : List ((Nat × Nat) × Runs)) (s : Build) : Prop where
  cells : CellsInv g ps a.R bl s.block
  temp : TempInv g s.temp s.block bl
  id : s.pointId = ps.length
  lx : s.lastX = a.lastX
  ly : s.lastY = a.lastY
  lp : s.lastPoint = a.lastPoint
  last : s.lastX < g.cellsX → s.lastY < g.cellsY ∧ ∃ r n, (s.block s.lastX s.lastY).pts = r ++ [(s.lastPoint, n)] ∧
    s.lastPoint + n ≤ ps.length

theorem LoopInv.start {g : Grid} (hg : GridOK g) : LoopInv g [] Abs.start [] Build.start := by
  refine ⟨⟨?_, ?_, ?_, ?_, ?_, ?_⟩, ⟨rfl, fun _ _ => rfl⟩, rfl, rfl, rfl, rfl, ?_⟩
  · intro x y _ _; exact Nat.zero_le _
  · intro x y _ _; rfl
  · intro x y _ _; rfl
  · intro x y _ _; rfl
  · intro x y; exact ⟨rfl, rfl⟩
  · simp
  · intro h
    have h : 2 ^ 32 - 1 < g.cellsX := h
    have := hg.small
    have := Nat.le_mul_of_pos_right g.cellsX hg.y
    omega

/-- Purging keeps everything known of the cells. -/
theorem purge_ok {g : Grid} {ps : List Pt} {R : Nat → Nat → Runs} {bl : List ((Nat × Nat) × Runs)} {t : Option Temp} {b : Block}
    (hc : CellsInv g ps R bl b) (ht : TempInv g t b bl) :
    ∃ bl', CellsInv g ps R bl' (purge g t b).2 ∧ FileInv g (purge g t b).1 (fun x y => ((purge g t b).2 x y).fileOffset) bl' ∧
      ∀ x y, x < g.cellsX → y < g.cellsY → ((purge g t b).2 x y).pts = [] := by
  have hF : FileInv g (t.getD (Temp.fresh g)) (fun x y => (b x y).fileOffset) bl := by
    cases t with
    | none => obtain ⟨rfl, h2⟩ := ht; exact FileInv.fresh g _ h2
    | some t => exact ht
  obtain ⟨new, n1, n2, n3⟩ := purgeLoop_ok g.cells hF (cells_nodup g) (fun c hc => mem_cells.1 (by exact hc))
  have hall : ∀ x y, allRuns (bl ++ new) (purge g t b).2 x y = allRuns bl b x y := fun x y => (n3 x y).2.1
  refine ⟨bl ++ new, ⟨hc.runs, ?_, hc.len, ?_, ?_, ?_⟩, n1, fun x y hx hy => (n3 x y).2.2 (mem_cells.2 ⟨hx, hy⟩)⟩
  · intro x y hx hy; rw [hall]; exact hc.eq x y hx hy
  · intro x y hx hy; rw [← hc.num x y hx hy]; exact (n3 x y).1.1
  · intro x y
    obtain ⟨-, -, -, h4, h5⟩ := (n3 x y).1
    have := hc.subs x y
    exact ⟨h4.trans this.1, h5.trans this.2⟩
  · intro e he
    rcases List.mem_append.1 he with he | he
    · exact hc.labels e he
    · exact n2 e he

theorem updateZBounds_fields (c : Cell) (z : Fl) : (c.updateZBounds z).pts = c.pts ∧
    (c.updateZBounds z).numPoints = c.numPoints ∧ (c.updateZBounds z).zCells = c.zCells ∧
    (c.updateZBounds z).subCells = c.subCells ∧ (c.updateZBounds z).fileOffset = c.fileOffset := by
  unfold Cell.updateZBounds
  split
  · simp
  · split
    · simp
    · dsimp only
      split <;> split <;> simp

theorem positions_snoc (f : Pt → Bool) (ps : List Pt) (p : Pt) :
    positions f 0 (ps ++ [p]) = positions f 0 ps ++ if f p then [ps.length] else [] := by
  rw [positions_append]
  simp [positions]

theorem inCell_iff {g : Grid} {p : Pt} {x y i j : Nat} (h : identifyCell g p = .ok (some (x, y))) :
    inCell g (i, j) p = decide ((i, j) = (x, y)) := by
  unfold inCell
  rw [h]
  simp only [Outcome.ok.injEq, Option.some.injEq]
  exact decide_eq_decide.2 ⟨fun e => e.symm, fun e => e.symm⟩

/-- Replacing the cell of the new point by one which has the point appended. -/
theorem CellsInv.push {g : Grid} {ps : List Pt} {R : Nat → Nat → Runs} {bl : List ((Nat × Nat) × Runs)} {b : Block} {p : Pt} {x y : Nat} {c : Cell}
    (h : CellsInv g ps R bl b) (hp : identifyCell g p = .ok (some (x, y))) (hlen : ps.length + 1 < 2 ^ 32)
    (hr : RunsOK 0 (runsOf (x, y) bl ++ c.pts) (ps.length + 1))
    (hi : (Spec.ids (runsOf (x, y) bl ++ c.pts)).length = (Spec.ids (R x y)).length + 1)
    (hn : c.numPoints = ((b x y).numPoints + 1) % 2 ^ 32) (hz : c.zCells = (b x y).zCells) (hs : c.subCells = (b x y).subCells) :
    CellsInv g (ps ++ [p]) (setR R x y (runsOf (x, y) bl ++ c.pts)) bl (b.set x y c) := by
  have hl : (ps ++ [p]).length = ps.length + 1 := by simp
  refine ⟨?_, ?_, ?_, ?_, ?_, h.labels⟩
  · intro i j hi' hj
    rw [hl]
    by_cases hij : (i, j) = (x, y)
    · simp only [Prod.mk.injEq] at hij
      obtain ⟨rfl, rfl⟩ := hij
      rw [setR_same]; exact hr
    · rw [setR_other _ _ hij]
      exact (h.runs i j hi' hj).mono (le_refl _) (by omega)
  · intro i j hi' hj
    by_cases hij : (i, j) = (x, y)
    · simp only [Prod.mk.injEq] at hij
      obtain ⟨rfl, rfl⟩ := hij
      unfold allRuns; rw [Block.set_same, setR_same]
    · unfold allRuns; rw [Block.set_other _ _ hij, setR_other _ _ hij]
      exact h.eq i j hi' hj
  · intro i j hi' hj
    rw [positions_snoc, inCell_iff hp]
    by_cases hij : (i, j) = (x, y)
    · simp only [Prod.mk.injEq] at hij
      obtain ⟨rfl, rfl⟩ := hij
      rw [setR_same, hi, h.len _ _ hi' hj]; simp
    · rw [setR_other _ _ hij, h.len i j hi' hj]; simp [hij]
  · intro i j hi' hj
    rw [positions_snoc, inCell_iff hp]
    by_cases hij : (i, j) = (x, y)
    · simp only [Prod.mk.injEq] at hij
      obtain ⟨rfl, rfl⟩ := hij
      rw [Block.set_same, hn, h.num _ _ hi' hj]
      have := positions_length_le (inCell g (i, j)) ps 0
      rw [Nat.mod_eq_of_lt (by omega)]; simp
    · rw [Block.set_other _ _ hij, h.num _ _ hi' hj]; simp [hij]
  · intro i j
    by_cases hij : (i, j) = (x, y)
    · simp only [Prod.mk.injEq] at hij
      obtain ⟨rfl, rfl⟩ := hij
      rw [Block.set_same, hz, hs]; exact h.subs i j
    · rw [Block.set_other _ _ hij]; exact h.subs i j

/-- A point which has no cell changes nothing. -/
theorem CellsInv.skip {g : Grid} {ps : List Pt} {R : Nat → Nat → Runs} {bl : List ((Nat × Nat) × Runs)} {b : Block} {p : Pt}
    (h : CellsInv g ps R bl b) (hp : identifyCell g p = .ok none) : CellsInv g (ps ++ [p]) R bl b := by
  have hin : ∀ xy, inCell g xy p = false := by intro xy; unfold inCell; rw [hp]; simp
  have hpos : ∀ xy, positions (inCell g xy) 0 (ps ++ [p]) = positions (inCell g xy) 0 ps := by
    intro xy; rw [positions_snoc, hin]; simp
  refine ⟨?_, h.eq, ?_, ?_, h.subs, h.labels⟩
  · intro x y hx hy; exact (h.runs x y hx hy).mono (le_refl _) (by simp)
  · intro x y hx hy; rw [hpos]; exact h.len x y hx hy
  · intro x y hx hy; rw [hpos]; exact h.num x y hx hy

theorem TempInv.set {g : Grid} {t : Option Temp} {b : Block} {bl : List ((Nat × Nat) × Runs)} {x y : Nat} {c : Cell}
    (h : TempInv g t b bl) (hc : c.fileOffset = (b x y).fileOffset) : TempInv g t (b.set x y c) bl := by
  have he : ∀ i j, (b i j).fileOffset = (b.set x y c i j).fileOffset := by
    intro i j
    by_cases hij : (i, j) = (x, y)
    · simp only [Prod.mk.injEq] at hij
      obtain ⟨rfl, rfl⟩ := hij
      rw [Block.set_same, hc]
    · rw [Block.set_other _ _ hij]
  cases t with
  | none => exact ⟨h.1, fun i j => by rw [← he]; exact h.2 i j⟩
  | some t => exact FileInv.congr h he

/-- Adding a record for the next point. -/
theorem add_ok {g : Grid} {ps : List Pt} {R : Nat → Nat → Runs} {bl : List ((Nat × Nat) × Runs)} {s : Build} {p : Pt} {x y : Nat}
    (hc : CellsInv g ps R bl s.block) (ht : TempInv g s.temp s.block bl) (hid : s.pointId = ps.length)
    (hp : identifyCell g p = .ok (some (x, y))) (hx : x < g.cellsX) (hy : y < g.cellsY) (hlen : ps.length + 1 < 2 ^ 32) :
    ∃ bl', CellsInv g (ps ++ [p]) (setR R x y (R x y ++ [(ps.length, 1)])) bl' (s.add g x y).block ∧
      TempInv g (s.add g x y).temp (s.add g x y).block bl' ∧
      (s.add g x y).pointId = ps.length ∧ (s.add g x y).lastX = x ∧ (s.add g x y).lastY = y ∧
      (s.add g x y).lastPoint = ps.length ∧
      ∃ r, ((s.add g x y).block x y).pts = r ++ [(ps.length, 1)] := by
  -- the state after a possible purge
  have key : ∀ (b : Block) (t : Option Temp) (bl : List ((Nat × Nat) × Runs)), CellsInv g ps R bl b → TempInv g t b bl →
      CellsInv g (ps ++ [p]) (setR R x y (R x y ++ [(ps.length, 1)])) bl (b.set x y ((b x y).addPointRecord ps.length)) ∧
      TempInv g t (b.set x y ((b x y).addPointRecord ps.length)) bl ∧
      ∃ r, ((b.set x y ((b x y).addPointRecord ps.length)) x y).pts = r ++ [(ps.length, 1)] := by
    intro b t bl hc ht
    have hok := hc.runs x y hx hy
    have heq := hc.eq x y hx hy
    have hk : ∀ e ∈ (b x y).pts, e.1 < ps.length := by
      intro e he
      rw [← heq] at hok
      exact hok.keys_lt e (List.mem_append_right _ he)
    have hpts : ((b x y).addPointRecord ps.length).pts = (b x y).pts ++ [(ps.length, 1)] := setKey_append _ _ _ hk
    have hR : runsOf (x, y) bl ++ ((b x y).addPointRecord ps.length).pts = R x y ++ [(ps.length, 1)] := by
      rw [hpts, ← List.append_assoc, ← heq]; rfl
    refine ⟨?_, ht.set rfl, (b x y).pts, by rw [Block.set_same, hpts]⟩
    rw [← hR]
    apply hc.push hp hlen
    · rw [hR]
      exact hok.append (RunsOK.one (le_refl _))
    · rw [hR, ids_append, ids_single]; simp
    · rfl
    · rfl
    · rfl
  by_cases hpu : (g.temp && decide (g.limit ≤ s.inMemory)) = true
  · obtain ⟨bl', c1, c2, -⟩ := purge_ok hc ht
    have e : s.add g x y =
        { s with
          block := (purge g s.temp s.block).2.set x y (((purge g s.temp s.block).2 x y).addPointRecord s.pointId)
          temp := some (purge g s.temp s.block).1
          lastPoint := s.pointId
          lastX := x
          lastY := y
          inMemory := (0 + 1) % 2 ^ 32 } := by
      unfold Build.add
      rw [if_pos hpu]
    obtain ⟨k1, k2, k3⟩ := key _ (some (purge g s.temp s.block).1) bl' c1 c2
    rw [e, hid]
    exact ⟨bl', k1, k2, rfl, rfl, rfl, rfl, k3⟩
  · have e : s.add g x y =
        { s with
          block := s.block.set x y ((s.block x y).addPointRecord s.pointId)
          lastPoint := s.pointId
          lastX := x
          lastY := y
          inMemory := (s.inMemory + 1) % 2 ^ 32 } := by
      unfold Build.add
      rw [if_neg hpu]
    obtain ⟨k1, k2, k3⟩ := key _ s.temp bl hc ht
    rw [e, hid]
    exact ⟨bl, k1, k2, rfl, rfl, rfl, rfl, k3⟩

/-- Updating the Z bounds changes nothing of interest here. -/
theorem zBounds_ok {g : Grid} {ps : List Pt} {R : Nat → Nat → Runs} {bl : List ((Nat × Nat) × Runs)} {b : Block} {t : Option Temp} {x y : Nat} {z : Fl}
    (hc : CellsInv g ps R bl b) (ht : TempInv g t b bl) :
    CellsInv g ps R bl (b.set x y ((b x y).updateZBounds z)) ∧ TempInv g t (b.set x y ((b x y).updateZBounds z)) bl ∧
    ∀ i j, ((b.set x y ((b x y).updateZBounds z)) i j).pts = (b i j).pts := by
  obtain ⟨h1, h2, h3, h4, h5⟩ := updateZBounds_fields (b x y) z
  have hf : ∀ i j, ((b.set x y ((b x y).updateZBounds z)) i j).pts = (b i j).pts ∧
      ((b.set x y ((b x y).updateZBounds z)) i j).numPoints = (b i j).numPoints ∧
      ((b.set x y ((b x y).updateZBounds z)) i j).zCells = (b i j).zCells ∧
      ((b.set x y ((b x y).updateZBounds z)) i j).subCells = (b i j).subCells := by
    intro i j
    by_cases hij : (i, j) = (x, y)
    · simp only [Prod.mk.injEq] at hij
      obtain ⟨rfl, rfl⟩ := hij
      rw [Block.set_same]; exact ⟨h1, h2, h3, h4⟩
    · rw [Block.set_other _ _ hij]; exact ⟨rfl, rfl, rfl, rfl⟩
  refine ⟨⟨hc.runs, ?_, hc.len, ?_, ?_, hc.labels⟩, ht.set h5, fun i j => (hf i j).1⟩
  · intro i j hi hj; unfold allRuns; rw [(hf i j).1]; exact hc.eq i j hi hj
  · intro i j hi hj; rw [(hf i j).2.1]; exact hc.num i j hi hj
  · intro i j; rw [(hf i j).2.2.1, (hf i j).2.2.2]; exact hc.subs i j

/-- One point. -/
theorem step_ok {g : Grid} {ps : List Pt} {a : Abs} {bl : List ((Nat × Nat) × Runs)} {s : Build} {p : Pt} {x y : Nat}
    (h : LoopInv g ps a bl s) (hp : identifyCell g p = .ok (some (x, y))) (hx : x < g.cellsX) (hy : y < g.cellsY)
    (hlen : ps.length + 1 < 2 ^ 32) :
    ∃ s' bl', s.step g p = .ok s' ∧ LoopInv g (ps ++ [p]) (a.step g ps.length p) bl' s' := by
  -- the state before the Z bounds are updated
  have key : ∃ s1 : Build, (s.visit g x y p.z = { s1 with block := s1.block.set x y ((s1.block x y).updateZBounds p.z) }) ∧
      ∃ bl', CellsInv g (ps ++ [p]) (a.step g ps.length p).R bl' s1.block ∧ TempInv g s1.temp s1.block bl' ∧ s1.pointId = ps.length ∧ s1.lastX = x ∧
        s1.lastY = y ∧ (a.step g ps.length p).lastX = x ∧ (a.step g ps.length p).lastY = y ∧
        s1.lastPoint = (a.step g ps.length p).lastPoint ∧
        ∃ r n, (s1.block x y).pts = r ++ [(s1.lastPoint, n)] ∧ s1.lastPoint + n ≤ ps.length + 1 := by
    have hadd : (if x = a.lastX ∧ y = a.lastY then Cell.incremented (a.R x y) a.lastPoint else none) = none →
        ∃ bl', CellsInv g (ps ++ [p]) (a.step g ps.length p).R bl' (s.add g x y).block ∧
        TempInv g (s.add g x y).temp (s.add g x y).block bl' ∧
        (s.add g x y).pointId = ps.length ∧ (s.add g x y).lastX = x ∧ (s.add g x y).lastY = y ∧
        (a.step g ps.length p).lastX = x ∧ (a.step g ps.length p).lastY = y ∧
        (s.add g x y).lastPoint = (a.step g ps.length p).lastPoint ∧
        ∃ r n, ((s.add g x y).block x y).pts = r ++ [((s.add g x y).lastPoint, n)] ∧
          (s.add g x y).lastPoint + n ≤ ps.length + 1 := by
      intro hnone
      obtain ⟨bl', a1, a2, a3, a4, a5, a6, r, a7⟩ := add_ok h.cells h.temp h.id hp hx hy hlen
      have e : a.step g ps.length p = ⟨setR a.R x y (a.R x y ++ [(ps.length, 1)]), x, y, ps.length⟩ := by
        unfold Abs.step; rw [hp]; dsimp only; rw [hnone]
      rw [e]
      exact ⟨bl', a1, a2, a3, a4, a5, rfl, rfl, a6, r, 1, by rw [a6]; exact a7, by rw [a6]⟩
    by_cases hsame : x = s.lastX ∧ y = s.lastY
    · -- the last record is made longer, if it is not full
      have hsame' : x = a.lastX ∧ y = a.lastY := by rw [← h.lx, ← h.ly]; exact hsame
      obtain ⟨e1, e2⟩ := hsame
      obtain ⟨l2, r, n, l3, l4⟩ := h.last (e1 ▸ hx)
      rw [← e1, ← e2] at l3
      have hok := h.cells.runs x y hx hy
      have heq := h.cells.eq x y hx hy
      have hR : a.R x y = (runsOf (x, y) bl ++ r) ++ [(s.lastPoint, n)] := by
        rw [← heq]; unfold allRuns; rw [l3, List.append_assoc]
      rw [hR] at hok
      obtain ⟨mid, o1, o2⟩ := hok.split
      have hlast := o2.mem (s.lastPoint, n) (by simp)
      simp only [] at hlast
      have hkeys : ∀ e ∈ runsOf (x, y) bl ++ r, e.1 < s.lastPoint := by
        intro e he
        have := o1.keys_lt e he
        omega
      have hkeys' : ∀ e ∈ r, e.1 < s.lastPoint := fun e he => hkeys e (List.mem_append_right _ he)
      have hinc1 : Cell.incremented (s.block x y).pts s.lastPoint = if n < 255 then some (r ++ [(s.lastPoint, n + 1)]) else none := by
        rw [Cell.incremented, l3, findKey_last _ _ _ hkeys']
        dsimp only
        rw [setKey_last _ _ _ _ hkeys']
      have hinc2 : Cell.incremented (a.R x y) a.lastPoint =
          if n < 255 then some (runsOf (x, y) bl ++ r ++ [(s.lastPoint, n + 1)]) else none := by
        rw [← h.lp, Cell.incremented, hR, findKey_last _ _ _ hkeys]
        dsimp only
        rw [setKey_last _ _ _ _ hkeys]
      by_cases hn : n < 255
      · rw [if_pos hn] at hinc1 hinc2
        have estep : a.step g ps.length p = { a with R := setR a.R x y (runsOf (x, y) bl ++ r ++ [(s.lastPoint, n + 1)]) } := by
          unfold Abs.step; rw [hp]; dsimp only; rw [if_pos hsame', hinc2]
        obtain ⟨c, hc⟩ : ∃ c, (s.block x y).incrementPointRecord s.lastPoint = some c := by
          unfold Cell.incrementPointRecord; rw [hinc1]; exact ⟨_, rfl⟩
        refine ⟨{ s with block := s.block.set x y c }, ?_, bl, ?_⟩
        · unfold Build.visit
          rw [if_pos ⟨e1, e2⟩, hc]
        · unfold Cell.incrementPointRecord at hc
          rw [hinc1] at hc
          simp only [Option.map_some, Option.some.injEq] at hc
          have hcp : c.pts = r ++ [(s.lastPoint, n + 1)] := by rw [← hc]
          rw [estep]
          refine ⟨?_, ?_, h.id, e1.symm, e2.symm, hsame'.1.symm, hsame'.2.symm, h.lp, r, n + 1, ?_, ?_⟩
          · show CellsInv g (ps ++ [p]) (setR a.R x y (runsOf (x, y) bl ++ r ++ [(s.lastPoint, n + 1)])) bl (s.block.set x y c)
            have hE : runsOf (x, y) bl ++ r ++ [(s.lastPoint, n + 1)] = runsOf (x, y) bl ++ c.pts := by
              rw [hcp, List.append_assoc]
            rw [hE]
            apply h.cells.push hp hlen
            · rw [← hE]
              exact o1.append ⟨hlast.1, by omega, by omega, by show _ ≤ _; omega⟩
            · rw [← hE, ids_succ, hR]; simp
            · rw [← hc]
            · rw [← hc]
            · rw [← hc]
          · apply h.temp.set; rw [← hc]
          · show ((s.block.set x y c) x y).pts = _
            rw [Block.set_same, hcp]
          · show s.lastPoint + (n + 1) ≤ _
            omega
      · rw [if_neg hn] at hinc1 hinc2
        refine ⟨s.add g x y, ?_, hadd ?_⟩
        · have : (s.block x y).incrementPointRecord s.lastPoint = none := by
            unfold Cell.incrementPointRecord; rw [hinc1]; rfl
          unfold Build.visit
          rw [if_pos ⟨e1, e2⟩, this]
        · rw [if_pos hsame', hinc2]
    · refine ⟨s.add g x y, ?_, hadd ?_⟩
      · unfold Build.visit
        rw [if_neg hsame]
      · rw [if_neg]; rw [← h.lx, ← h.ly]; exact hsame
  obtain ⟨s1, hv, bl', c1, c2, c3, c4, c5, c8, c9, c10, r, n, c6, c7⟩ := key
  obtain ⟨d1, d2, d3⟩ := zBounds_ok (x := x) (y := y) (z := p.z) c1 c2
  refine ⟨{ s.visit g x y p.z with pointId := ((s.visit g x y p.z).pointId + 1) % 2 ^ 32 }, bl', ?_, ?_⟩
  · unfold Build.step
    rw [hp]
    show (if x < g.cellsX ∧ y < g.cellsY then _ else _) = _
    rw [if_pos ⟨hx, hy⟩]
    rfl
  · rw [hv]
    refine ⟨d1, d2, ?_, ?_, ?_, c10, ?_⟩
    · show (s1.pointId + 1) % 2 ^ 32 = _
      rw [c3, Nat.mod_eq_of_lt hlen]; simp
    · show s1.lastX = _; rw [c4, c8]
    · show s1.lastY = _; rw [c5, c9]
    · intro _
      show s1.lastY < _ ∧ ∃ r n, ((s1.block.set x y ((s1.block x y).updateZBounds p.z)) s1.lastX s1.lastY).pts = r ++ [(s1.lastPoint, n)] ∧ _
      rw [c4, c5]
      refine ⟨hy, r, n, ?_, ?_⟩
      · rw [d3]; exact c6
      · show s1.lastPoint + n ≤ _
        simp only [List.length_append, List.length_singleton]; exact c7

/-- One point which has no cell. -/
theorem step_skip {g : Grid} {ps : List Pt} {a : Abs} {bl : List ((Nat × Nat) × Runs)} {s : Build} {p : Pt}
    (h : LoopInv g ps a bl s) (hp : identifyCell g p = .ok none) (hlen : ps.length + 1 < 2 ^ 32) :
    ∃ s', s.step g p = .ok s' ∧ LoopInv g (ps ++ [p]) (a.step g ps.length p) bl s' := by
  have e : a.step g ps.length p = a := by unfold Abs.step; rw [hp]
  rw [e]
  refine ⟨{ s with pointId := (s.pointId + 1) % 2 ^ 32 }, by unfold Build.step; rw [hp]; rfl, h.cells.skip hp, h.temp, ?_, h.lx, h.ly, h.lp, ?_⟩
  · show (s.pointId + 1) % 2 ^ 32 = _
    rw [h.id, Nat.mod_eq_of_lt hlen]; simp
  · intro hl
    obtain ⟨h1, r, n, h2, h3⟩ := h.last hl
    refine ⟨h1, r, n, h2, ?_⟩
    show s.lastPoint + n ≤ _
    simp only [List.length_append, List.length_singleton]; omega

/-- Every point has a cell inside the matrix, or none. -/
def Located (g : Grid) (ps : List Pt) : Prop :=
  ∀ p ∈ ps, identifyCell g p = .ok none ∨ ∃ x y, identifyCell g p = .ok (some (x, y)) ∧ x < g.cellsX ∧ y < g.cellsY

/-- The whole loop. -/
theorem loop_ok {g : Grid} (ps' : List Pt) : ∀ {ps : List Pt} {a : Abs} {bl : List ((Nat × Nat) × Runs)} {s : Build},
    LoopInv g ps a bl s → Located g ps' → ps.length + ps'.length < 2 ^ 32 →
    ∃ s' bl', s.loop g ps' = .ok s' ∧ LoopInv g (ps ++ ps') (a.run g ps.length ps') bl' s' := by
  induction ps' with
  | nil => intro ps a bl s h _ _; exact ⟨s, bl, rfl, by simpa [Abs.run] using h⟩
  | cons p ps' ih =>
    intro ps a bl s h hp hl
    rw [List.length_cons] at hl
    have hstep : ∃ s1 bl1, s.step g p = .ok s1 ∧ LoopInv g (ps ++ [p]) (a.step g ps.length p) bl1 s1 := by
      rcases hp p (by simp) with h1 | ⟨x, y, h1, h2, h3⟩
      · obtain ⟨s1, e1, i1⟩ := step_skip h h1 (by omega)
        exact ⟨s1, bl, e1, i1⟩
      · exact step_ok h h1 h2 h3 (by omega)
    obtain ⟨s1, bl1, e1, i1⟩ := hstep
    obtain ⟨s2, bl2, e2, i2⟩ := ih i1 (fun q hq => hp q (by simp [hq])) (by simp; omega)
    refine ⟨s2, bl2, ?_, ?_⟩
    · show (s.step g p >>= fun s => s.loop g ps') = _
      rw [e1]; exact e2
    · have : (ps ++ [p]).length = ps.length + 1 := by simp
      rw [this] at i2
      simpa [Abs.run] using i2

/-- Without points outside, the runs hold exactly the positions of the points of their cells. -/
structure AbsInv (g : Grid) (ps : List Pt) (a : Abs) : Prop where
  runs : ∀ x y, RunsOK 0 (a.R x y) ps.length
  ids : ∀ x y, ids (a.R x y) = positions (inCell g (x, y)) 0 ps
  last : ps ≠ [] → ∃ r n, a.R a.lastX a.lastY = r ++ [(a.lastPoint, n)] ∧ a.lastPoint + n = ps.length

theorem AbsInv.step {g : Grid} {ps : List Pt} {a : Abs} {p : Pt} {x y : Nat} (h : AbsInv g ps a)
    (hp : identifyCell g p = .ok (some (x, y))) : AbsInv g (ps ++ [p]) (a.step g ps.length p) := by
  have hl : (ps ++ [p]).length = ps.length + 1 := by simp
  -- in general: the runs `r` with the new id at the end
  have key : ∀ r lx ly lp n r', RunsOK 0 r (ps.length + 1) → Spec.ids r = Spec.ids (a.R x y) ++ [ps.length] →
      lx = x → ly = y → r = r' ++ [(lp, n)] → lp + n = ps.length + 1 → AbsInv g (ps ++ [p]) ⟨setR a.R x y r, lx, ly, lp⟩ := by
    intro r lx ly lp n r' h1 h2 h3 h4 h5 h6
    subst h3 h4
    refine ⟨?_, ?_, ?_⟩
    · intro i j
      rw [hl]
      by_cases hij : (i, j) = (lx, ly)
      · simp only [Prod.mk.injEq] at hij
        obtain ⟨rfl, rfl⟩ := hij
        show RunsOK 0 (setR a.R i j r i j) _
        rw [setR_same]; exact h1
      · show RunsOK 0 (setR a.R lx ly r i j) _
        rw [setR_other _ _ hij]; exact (h.runs i j).mono (le_refl _) (by omega)
    · intro i j
      rw [positions_snoc, inCell_iff hp]
      by_cases hij : (i, j) = (lx, ly)
      · simp only [Prod.mk.injEq] at hij
        obtain ⟨rfl, rfl⟩ := hij
        show Spec.ids (setR a.R i j r i j) = _
        rw [setR_same, h2, h.ids]; simp
      · show Spec.ids (setR a.R lx ly r i j) = _
        rw [setR_other _ _ hij, h.ids]; simp [hij]
    · intro _
      refine ⟨r', n, ?_, by rw [hl]; exact h6⟩
      show setR a.R lx ly r lx ly = _
      rw [setR_same, h5]
  have hnew : AbsInv g (ps ++ [p]) ⟨setR a.R x y (a.R x y ++ [(ps.length, 1)]), x, y, ps.length⟩ := by
    refine key _ _ _ _ 1 (a.R x y) ((h.runs x y).append (RunsOK.one (le_refl _))) ?_ rfl rfl rfl rfl
    rw [ids_append, ids_single]; simp
  unfold Abs.step
  rw [hp]
  dsimp only
  by_cases hsame : x = a.lastX ∧ y = a.lastY
  · rw [if_pos hsame]
    cases hinc : Cell.incremented (a.R x y) a.lastPoint with
    | none => exact hnew
    | some r =>
      have hne : ps ≠ [] := by
        rintro rfl
        have h0 := h.runs x y
        have : a.R x y = [] := by
          cases hq : a.R x y with
          | nil => rfl
          | cons e t =>
            exfalso
            have := h0.mem e (by rw [hq]; simp)
            simp at this; omega
        rw [Cell.incremented, this] at hinc
        simp [findKey] at hinc
      obtain ⟨r', n, l1, l2⟩ := h.last hne
      rw [← hsame.1, ← hsame.2] at l1
      have hok := h.runs x y
      rw [l1] at hok
      obtain ⟨mid, o1, o2⟩ := hok.split
      have hlast := o2.mem (a.lastPoint, n) (by simp)
      simp only [] at hlast
      have hkeys : ∀ e ∈ r', e.1 < a.lastPoint := by
        intro e he
        have := o1.keys_lt e he
        omega
      rw [Cell.incremented, l1, findKey_last _ _ _ hkeys] at hinc
      dsimp only at hinc
      by_cases hn : n < 255
      · rw [if_pos hn, setKey_last _ _ _ _ hkeys] at hinc
        injection hinc with hinc
        refine key r _ _ _ (n + 1) r' ?_ ?_ hsame.1.symm hsame.2.symm hinc.symm (by omega)
        · rw [← hinc]
          exact o1.append ⟨hlast.1, by omega, by omega, by show _ ≤ _; omega⟩
        · rw [← hinc, ids_succ, l1, l2]
      · rw [if_neg hn] at hinc; simp at hinc
  · rw [if_neg hsame]; exact hnew

theorem AbsInv.run {g : Grid} (ps' : List Pt) : ∀ {ps : List Pt} {a : Abs}, AbsInv g ps a → Placed g ps' →
    AbsInv g (ps ++ ps') (a.run g ps.length ps') := by
  induction ps' with
  | nil => intro ps a h _; simpa [Abs.run] using h
  | cons p ps' ih =>
    intro ps a h hp
    obtain ⟨x, y, h1, -, -⟩ := hp p (by simp)
    have := ih (h.step h1) fun q hq => hp q (by simp [hq])
    have hl : (ps ++ [p]).length = ps.length + 1 := by simp
    rw [hl] at this
    simpa [Abs.run] using this

theorem AbsInv.start (g : Grid) : AbsInv g [] Abs.start :=
  ⟨fun _ _ => Nat.zero_le _, fun _ _ => rfl, fun h => absurd rfl h⟩

end LibLAS.Index
