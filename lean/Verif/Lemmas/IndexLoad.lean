import Verif.Lemmas.IndexLoop
import Verif.Lemmas.IndexSub
/-
Reloading the cells.
-/
namespace LibLAS.Index
open Spec

theorem render_split (a b : List Piece) : ∀ base, ∃ pre, pre.length = sizeOf' a ∧
    render base (a ++ b) = pre ++ render (base + sizeOf' a) b := by
  induction a with
  | nil => intro base; exact ⟨[], rfl, by simp [sizeOf']⟩
  | cons p a ih =>
    intro base
    obtain ⟨c, x⟩ := p
    obtain ⟨pre, h1, h2⟩ := ih (base + 8 + x.length)
    refine ⟨put64 (nextOff c (base + 8 + x.length) (a ++ b)) ++ (x ++ pre), ?_, ?_⟩
    · rw [sizeOf'_cons]; simp [put64_length, h1]; omega
    · show put64 _ ++ (x ++ render (base + 8 + x.length) (a ++ b)) = _
      rw [h2, sizeOf'_cons, show base + 8 + x.length + sizeOf' a = base + (8 + x.length + sizeOf' a) by omega]
      simp

theorem addRuns_fields (r : Runs) : ∀ {c : Cell} {lo hi : Nat}, RunsOK lo r hi → (∀ e ∈ c.pts, e.1 < lo) →
    (addRuns c r).pts = c.pts ++ r ∧ (addRuns c r).numPoints % 2 ^ 32 = (c.numPoints + (ids r).length) % 2 ^ 32 ∧
    (r ≠ [] → (addRuns c r).numPoints < 2 ^ 32) ∧
    (addRuns c r).zCells = c.zCells ∧ (addRuns c r).subCells = c.subCells ∧ (addRuns c r).minZ = c.minZ ∧
    (addRuns c r).maxZ = c.maxZ := by
  induction r with
  | nil => intro c lo hi _ _; exact ⟨by simp [addRuns], by simp [addRuns, Spec.ids], by simp, rfl, rfl, rfl, rfl⟩
  | cons e t ih =>
    intro c lo hi h hk
    obtain ⟨a, n⟩ := e
    obtain ⟨h1, h2, h3, h4⟩ := h
    have hp : (c.addPointRecords a n).pts = c.pts ++ [(a, n)] :=
      setKey_append _ _ _ fun e he => by have := hk e he; omega
    obtain ⟨i1, i2, i3, i4, i5, i6, i7⟩ := ih (c := c.addPointRecords a n) h4 (by
      rw [hp]; intro e he
      rcases List.mem_append.1 he with he | he
      · have := hk e he; omega
      · simp only [List.mem_singleton] at he; subst he; simp only []; omega)
    have e0 : addRuns c ((a, n) :: t) = addRuns (c.addPointRecords a n) t := rfl
    rw [e0]
    refine ⟨by rw [i1, hp]; simp, ?_, ?_, i4, i5, i6, i7⟩
    · rw [i2, ids_cons]
      show ((c.numPoints + n) % 2 ^ 32 + _) % 2 ^ 32 = _
      rw [List.length_append, List.length_map, List.length_range]
      omega
    · intro _
      cases t with
      | nil => show (c.numPoints + n) % 2 ^ 32 < _; omega
      | cons e t => exact i3 (by simp)

theorem sum_update {α : Type} [DecidableEq α] (l : List α) (hn : l.Nodup) (f f' : α → Nat) (c : α) (hc : c ∈ l) (k : Nat)
    (h1 : f' c = f c + k) (h2 : ∀ d, d ≠ c → f' d = f d) : (l.map f').sum = (l.map f).sum + k := by
  induction l with
  | nil => simp at hc
  | cons a l ih =>
    rw [List.nodup_cons] at hn
    simp only [List.map_cons, List.sum_cons]
    by_cases ha : a = c
    · subst ha
      have : l.map f' = l.map f := by
        apply List.map_congr_left
        intro d hd
        apply h2; rintro rfl; exact hn.1 hd
      rw [this, h1]; omega
    · rw [ih hn.2 (by rcases List.mem_cons.1 hc with h | h; exact absurd h.symm ha; exact h), h2 a ha]; omega

/-- The number of records in blocks, counted cell by cell. -/
theorem records_by_cell {g : Grid} (bl : List ((Nat × Nat) × Runs)) (h : ∀ e ∈ bl, e.1 ∈ g.cells) :
    (bl.map fun e => e.2.length).sum = (g.cells.map fun c => (runsOf c bl).length).sum := by
  induction bl with
  | nil =>
    have : (fun c => (runsOf c []).length) = fun _ : Nat × Nat => 0 := by funext c; simp [runsOf]
    rw [this]
    simp
  | cons e bl ih =>
    rw [sum_update g.cells (cells_nodup g) (fun c => (runsOf c bl).length) _ e.1 (h e (by simp)) e.2.length]
    · simp only [List.map_cons, List.sum_cons]
      rw [ih fun e he => h e (by simp [he])]; omega
    · simp [runsOf]; omega
    · intro d hd
      have : ¬ e.1 = d := fun h => hd h.symm
      simp [runsOf, this]

/-- Every point is in at most one cell. -/
theorem points_by_cell (g : Grid) (ps : List Pt) : ∀ n,
    (g.cells.map fun c => (positions (inCell g c) n ps).length).sum ≤ ps.length := by
  induction ps with
  | nil => intro n; simp [positions]
  | cons p ps ih =>
    intro n
    have ih' := ih (n + 1)
    by_cases h : ∃ c ∈ g.cells, inCell g c p = true
    · obtain ⟨c, hc, hin⟩ := h
      rw [sum_update g.cells (cells_nodup g) (fun c => (positions (inCell g c) (n + 1) ps).length) _ c hc 1]
      · simp only [List.length_cons]; omega
      · show (if inCell g c p then _ else _ : List Nat).length = _
        rw [if_pos hin]; rfl
      · intro d hd
        show (if inCell g d p then _ else _ : List Nat).length = _
        rw [if_neg]
        intro hin'
        unfold inCell at hin hin'
        rw [decide_eq_true_eq] at hin hin'
        rw [hin] at hin'
        simp only [Outcome.ok.injEq, Option.some.injEq] at hin'
        exact hd hin'.symm
    · have e : (g.cells.map fun c => (positions (inCell g c) n (p :: ps)).length) =
          g.cells.map fun c => (positions (inCell g c) (n + 1) ps).length := by
        apply List.map_congr_left
        intro c hc
        show (if inCell g c p then _ else _ : List Nat).length = _
        rw [if_neg]
        intro hin; exact h ⟨c, hc, hin⟩
      rw [e, List.length_cons]; omega

theorem sum_mono {α : Type} (l : List α) (f h : α → Nat) (hh : ∀ a ∈ l, f a ≤ h a) : (l.map f).sum ≤ (l.map h).sum := by
  induction l with
  | nil => simp
  | cons a l ih =>
    simp only [List.map_cons, List.sum_cons]
    have := hh a (by simp)
    have := ih fun a ha => hh a (by simp [ha])
    omega

theorem sizeOf'_pieces (bl : List ((Nat × Nat) × Runs)) (h : ∀ e ∈ bl, e.2 ≠ []) :
    sizeOf' (pieces bl) ≤ 17 * (bl.map fun e => e.2.length).sum ∧ 8 * bl.length ≤ sizeOf' (pieces bl) := by
  induction bl with
  | nil => simp [sizeOf', pieces]
  | cons e bl ih =>
    have hp : pieces (e :: bl) = (e.1, body e.2) :: pieces bl := rfl
    have h0 : e.2.length ≠ 0 := by simpa using h e (by simp)
    obtain ⟨i1, i2⟩ := ih fun e he => h e (by simp [he])
    rw [hp, sizeOf'_cons, body_length]
    simp only [List.map_cons, List.sum_cons, List.length_cons]
    omega

theorem runsOf_mem {c : Nat × Nat} {bl : List ((Nat × Nat) × Runs)} {e : (Nat × Nat) × Runs} (he : e ∈ bl) (hc : e.1 = c) :
    ∀ r ∈ e.2, r ∈ runsOf c bl := by
  intro r hr
  unfold runsOf
  rw [List.mem_flatMap]
  exact ⟨e, by simp [he, hc], hr⟩

theorem runsOf_length_le {c : Nat × Nat} (bl : List ((Nat × Nat) × Runs)) : (runsOf c bl).length ≤ (bl.map fun e => e.2.length).sum := by
  induction bl with
  | nil => simp [runsOf]
  | cons e bl ih =>
    simp only [List.map_cons, List.sum_cons]
    have : (runsOf c (e :: bl)).length ≤ e.2.length + (runsOf c bl).length := by
      by_cases h : e.1 = c
      · simp [runsOf, h]
      · simp [runsOf, h]
    omega

theorem length_le_sum (bl : List ((Nat × Nat) × Runs)) {e : (Nat × Nat) × Runs} (he : e ∈ bl) :
    e.2.length ≤ (bl.map fun e => e.2.length).sum := by
  induction bl with
  | nil => simp at he
  | cons x bl ih =>
    simp only [List.map_cons, List.sum_cons]
    rcases List.mem_cons.1 he with rfl | he
    · omega
    · have := ih he; omega

/-- Reloading a cell gives back all its records. -/
theorem loadCell_ok {g : Grid} {ps : List Pt} {R : Nat → Nat → Runs} {bl : List ((Nat × Nat) × Runs)} {t : Temp} {b : Block} (hg : GridOK g)
    (hc : CellsInv g ps R bl b) (hf : FileInv g t (fun x y => (b x y).fileOffset) bl) (hl : ps.length < 2 ^ 32)
    (he : ∀ x y, x < g.cellsX → y < g.cellsY → (b x y).pts = []) {x y : Nat} (hx : x < g.cellsX) (hy : y < g.cellsY) :
    ∃ c, loadCell g (some t) x y (b x y) = .ok (some c) ∧ RunsOK 0 c.pts ps.length ∧
      c.pts = R x y ∧ c.numPoints = (positions (inCell g (x, y)) 0 ps).length ∧
      c.zCells = [] ∧ c.subCells = [] ∧ c.minZ = (b x y).minZ ∧ c.maxZ = (b x y).maxZ := by
  -- all records of a cell are in the file
  have hall : ∀ x y, x < g.cellsX → y < g.cellsY → R x y = runsOf (x, y) bl := by
    intro x y hx hy; rw [← hc.eq x y hx hy]; unfold allRuns; rw [he x y hx hy, List.append_nil]
  have hrec : (bl.map fun e => e.2.length).sum ≤ ps.length := by
    rw [records_by_cell bl fun e he => (hc.labels e he).1]
    refine le_trans ?_ (points_by_cell g ps 0)
    apply sum_mono
    intro c hcm
    obtain ⟨i, j⟩ := c
    obtain ⟨hi, hj⟩ := mem_cells.1 hcm
    have h1 := hc.runs i j hi hj
    have h2 := hc.len i j hi hj
    rw [hall i j hi hj] at h1 h2
    rw [← h2]
    exact h1.length_le
  obtain ⟨s1, s2⟩ := sizeOf'_pieces bl fun e he => (hc.labels e he).2
  have hslots : sizeOf' (slots g) = 8 * (g.cellsX * g.cellsY) := by rw [slots, sizeOf'_slots, cells_length]
  have hpos : 0 < g.cellsX * g.cellsY := Nat.mul_pos hg.x hg.y
  have hsmall := hg.small
  -- the file
  obtain ⟨pre, p1, p2⟩ := render_split (slots g) (pieces bl) 0
  rw [Nat.zero_add, ← p1] at p2
  have hlen : t.bytes.length = pre.length + sizeOf' (pieces bl) := by
    rw [hf.bytes, p2, List.length_append, render_length]
  -- the first pointer
  obtain ⟨a, d, e1, e2⟩ := rows_split g.cellsX g.cellsY x y hx hy
  have e1' : g.cells = a ++ (x, y) :: d := e1
  have hnd := nodup_split (e1' ▸ cells_nodup g)
  have hsl : slots g = (a.map fun c => (c, [])) ++ ((x, y), []) :: (d.map fun c => (c, [])) := by
    rw [slots, e1', List.map_append, List.map_cons]
  have hptr : freadNat t.bytes ((x * g.cellsY + y) * 8) 8 = some (nextOff (x, y) pre.length (pieces bl)) := by
    obtain ⟨q, q1, q2⟩ := render_split (a.map fun c => (c, [])) (((x, y), []) :: (d.map fun c => (c, [])) ++ pieces bl) 0
    rw [← List.append_assoc, ← hsl, Nat.zero_add] at q2
    rw [hf.bytes, q2]
    have hn : nextOff (x, y) (sizeOf' (a.map fun c => (c, ([] : List Byte))) + 8 + ([] : List Byte).length)
        ((d.map fun c => (c, ([] : List Byte))) ++ pieces bl) = nextOff (x, y) pre.length (pieces bl) := by
      rw [nextOff_append_not_mem _ _ _ (by simpa [Function.comp_def] using hnd)]
      congr 1
      rw [p1, hsl, sizeOf'_append, sizeOf'_cons]; simp only [List.length_nil]; omega
    show freadNat (q ++ (put64 (nextOff (x, y) (sizeOf' (a.map fun c => (c, ([] : List Byte))) + 8 + ([] : List Byte).length)
        ((d.map fun c => (c, ([] : List Byte))) ++ pieces bl)) ++ _)) _ 8 = _
    rw [hn]
    apply freadNat_64
    · rw [q1, sizeOf'_slots, e2]; ring
    · have := nextOff_le (c := (x, y)) (pieces bl) pre.length
      rw [p1, hslots] at this ⊢
      omega
  have hwell : ∀ e ∈ bl, e.2.length < 2 ^ 32 ∧ ∀ r ∈ e.2, r.1 < 2 ^ 32 ∧ r.2 < 2 ^ 8 := by
    intro e he'
    refine ⟨by have := length_le_sum bl he'; omega, ?_⟩
    intro r hr
    obtain ⟨hm, -⟩ := hc.labels e he'
    obtain ⟨hi, hj⟩ := mem_cells.1 hm
    have h1 := hc.runs _ _ hi hj
    rw [hall _ _ hi hj] at h1
    have := h1.mem r (runsOf_mem he' rfl r hr)
    omega
  have hchain := loadChain_render (x, y) bl pre (t.bytes.length + 1) { b x y with numPoints := 0 } (by omega) (by omega)
    (by rw [p1, hslots]; omega) hwell
  rw [← p2, ← hf.bytes] at hchain
  have hr := hc.runs x y hx hy
  have hi := hc.len x y hx hy
  rw [hall x y hx hy] at hr hi
  obtain ⟨f1, f2, f3, f4, f5, f6, f7⟩ := addRuns_fields (runsOf (x, y) bl) (c := { b x y with numPoints := 0 }) hr
    (by show ∀ e ∈ (b x y).pts, _; rw [he x y hx hy]; simp)
  have hcount := positions_length_le (inCell g (x, y)) ps 0
  have hnum : (addRuns { b x y with numPoints := 0 } (runsOf (x, y) bl)).numPoints = (positions (inCell g (x, y)) 0 ps).length := by
    rw [hi] at f2
    by_cases hz : runsOf (x, y) bl = []
    · rw [hz]
      rw [hz] at hi
      rw [← hi]; rfl
    · have h3 := f3 hz
      rw [Nat.mod_eq_of_lt h3, Nat.mod_eq_of_lt (by show 0 + _ < _; omega)] at f2
      exact f2.trans (Nat.zero_add _)
  refine ⟨addRuns { b x y with numPoints := 0 } (runsOf (x, y) bl), ?_, ?_, ?_, hnum, ?_, ?_, f6, f7⟩
  · unfold loadCell
    simp only [hptr]
    rw [hchain]
    show (if _ ≠ _ then _ else _) = _
    rw [if_neg]
    rw [hnum, hc.num x y hx hy]; simp
  · rw [f1]; show RunsOK 0 ((b x y).pts ++ _) _; rw [he x y hx hy]; exact hr
  · rw [f1]; show (b x y).pts ++ _ = _; rw [he x y hx hy, hall x y hx hy]; rfl
  · rw [f4]; exact (hc.subs x y).1
  · rw [f5]; exact (hc.subs x y).2

end LibLAS.Index
