import Verif.Lemmas.IndexTemp
import Mathlib.Tactic.Ring
import Mathlib.Data.List.Nodup
/-
Purging the cells to the temporary file.
-/
namespace LibLAS.Index
open Spec

theorem mem_cells {g : Grid} {x y : Nat} : (x, y) ∈ g.cells ↔ x < g.cellsX ∧ y < g.cellsY := by
  unfold Grid.cells
  simp only [List.mem_flatMap, List.mem_range, List.mem_map, Prod.mk.injEq]
  constructor
  · rintro ⟨a, h1, b, h2, rfl, rfl⟩; exact ⟨h1, h2⟩
  · rintro ⟨h1, h2⟩; exact ⟨x, h1, y, h2, rfl, rfl⟩

theorem cells_nodup (g : Grid) : g.cells.Nodup := by
  unfold Grid.cells
  rw [List.nodup_flatMap]
  constructor
  · intro x _
    apply List.Nodup.map
    · intro a b h; simpa using h
    · exact List.nodup_range
  · apply List.Pairwise.imp _ (List.nodup_range (n := g.cellsX))
    intro a b hab
    simp only [Function.onFun, List.disjoint_left, List.mem_map, List.mem_range]
    rintro c ⟨y, -, h1⟩ ⟨z, -, h2⟩
    rw [← h1] at h2
    simp only [Prod.mk.injEq] at h2
    exact hab h2.1.symm

theorem row_length (m x : Nat) : ((List.range m).map fun y => (x, y)).length = m := by simp

theorem rows_length (n m : Nat) : ((List.range n).flatMap fun x => (List.range m).map fun y => (x, y)).length = n * m := by
  induction n with
  | zero => simp
  | succ n ih => rw [List.range_succ, List.flatMap_append, List.length_append, ih]; simp; ring

theorem cells_length (g : Grid) : g.cells.length = g.cellsX * g.cellsY := rows_length _ _

theorem rows_split (n m x y : Nat) (hx : x < n) (hy : y < m) :
    ∃ a b, ((List.range n).flatMap fun x => (List.range m).map fun y => (x, y)) = a ++ (x, y) :: b ∧ a.length = x * m + y := by
  obtain ⟨d, rfl⟩ : ∃ d, n = x + (d + 1) := ⟨n - x - 1, by omega⟩
  obtain ⟨e, rfl⟩ : ∃ e, m = y + (e + 1) := ⟨m - y - 1, by omega⟩
  have hr : ∀ a b, List.range (a + (b + 1)) = List.range a ++ a :: (List.range b).map (a + 1 + ·) := by
    intro a b
    rw [List.range_add, List.range_succ_eq_map]
    simp [Function.comp_def, Nat.add_comm, Nat.add_left_comm]
  rw [hr x d, List.flatMap_append, List.flatMap_cons]
  refine ⟨((List.range x).flatMap fun x => (List.range (y + (e + 1))).map fun y => (x, y)) ++ (List.range y).map fun y => (x, y),
    ((List.range e).map (y + 1 + ·)).map (fun y => (x, y)) ++
      ((List.range d).map (x + 1 + ·)).flatMap fun x => (List.range (y + (e + 1))).map fun y => (x, y), ?_, ?_⟩
  · have : (List.range (y + (e + 1))).map (fun y => (x, y)) =
        (List.range y).map (fun y => (x, y)) ++ (x, y) :: ((List.range e).map (y + 1 + ·)).map (fun y => (x, y)) := by
      rw [hr y e, List.map_append, List.map_cons]
    rw [this]
    simp only [List.append_assoc, List.cons_append]
  · rw [List.length_append, rows_length]; simp

/-- The part of the temporary file written when it is opened. -/
def slots (g : Grid) : List Piece := g.cells.map fun c => (c, [])

theorem sizeOf'_slots (l : List (Nat × Nat)) : sizeOf' (l.map fun c => (c, ([] : List Byte))) = 8 * l.length := by
  induction l with
  | nil => rfl
  | cons c l ih => rw [List.map_cons, sizeOf'_cons, ih]; simp; ring

/-- The temporary file holds the blocks `bl`, and every cell knows its last piece. -/
structure FileInv (g : Grid) (t : Temp) (off : Nat → Nat → Nat) (bl : List ((Nat × Nat) × Runs)) : Prop where
  bytes : t.bytes = render 0 (slots g ++ pieces bl)
  written : t.written = sizeOf' (slots g ++ pieces bl)
  last : ∀ x y, x < g.cellsX → y < g.cellsY → ∃ l1 b0 l2, slots g ++ pieces bl = l1 ++ ((x, y), b0) :: l2 ∧
    (x, y) ∉ l2.map Prod.fst ∧ sizeOf' l1 = if off x y = 0 then (x * g.cellsY + y) * 8 else off x y

theorem nodup_split {α : Type} {a b : List α} {x : α} (h : (a ++ x :: b).Nodup) : x ∉ b := by
  rw [List.nodup_append] at h
  exact (List.nodup_cons.1 h.2.1).1

theorem render_slots (l : List (Nat × Nat)) (h : l.Nodup) : ∀ base,
    render base (l.map fun c => (c, ([] : List Byte))) = l.flatMap fun _ => put64 0 := by
  induction l with
  | nil => intro; rfl
  | cons c l ih =>
    intro base
    rw [List.nodup_cons] at h
    show put64 (nextOff c _ (l.map fun c => (c, ([] : List Byte)))) ++ ([] ++ render _ (l.map fun c => (c, ([] : List Byte)))) = _
    rw [ih h.2, nextOff_not_mem _ _ (by simpa [Function.comp_def] using h.1)]
    rfl

theorem flatMap_const {α β : Type} (l : List α) (m : List β) (b : List Byte) (h : l.length = m.length) :
    (l.flatMap fun _ => b) = m.flatMap fun _ => b := by
  induction l generalizing m with
  | nil => cases m with
    | nil => rfl
    | cons _ _ => simp at h
  | cons a l ih =>
    cases m with
    | nil => simp at h
    | cons c m => simp only [List.flatMap_cons]; rw [ih m (by simpa using h)]

theorem FileInv.fresh (g : Grid) (off : Nat → Nat → Nat) (h : ∀ x y, off x y = 0) : FileInv g (Temp.fresh g) off [] := by
  refine ⟨?_, ?_, ?_⟩
  · show _ = render 0 (slots g ++ [])
    rw [List.append_nil, slots, render_slots _ (cells_nodup g)]
    exact flatMap_const _ _ _ (by rw [cells_length]; simp)
  · show _ = sizeOf' (slots g ++ [])
    rw [List.append_nil, slots, sizeOf'_slots, cells_length]
    show g.cellsX * g.cellsY * 8 = _
    ring
  · intro x y hx hy
    obtain ⟨a, b, e, hl⟩ := rows_split g.cellsX g.cellsY x y hx hy
    have e' : g.cells = a ++ (x, y) :: b := e
    refine ⟨a.map fun c => (c, []), [], b.map fun c => (c, []), ?_, ?_, ?_⟩
    · show slots g ++ [] = _
      rw [List.append_nil, slots, e', List.map_append, List.map_cons]
    · have := cells_nodup g
      rw [e'] at this
      simpa [Function.comp_def] using nodup_split this
    · rw [sizeOf'_slots, hl, h, if_pos rfl]; ring

theorem FileInv.congr {g t off off' bl} (h : FileInv g t off bl) (ho : ∀ x y, off x y = off' x y) : FileInv g t off' bl :=
  ⟨h.bytes, h.written, by intro x y hx hy; rw [← ho]; exact h.last x y hx hy⟩

/-- Purging one cell. -/
theorem FileInv.purgeCell {g : Grid} {t : Temp} {off : Nat → Nat → Nat} {bl : List ((Nat × Nat) × Runs)} {c : Cell} {x y : Nat}
    (h : FileInv g t off bl) (hx : x < g.cellsX) (hy : y < g.cellsY) (hc : c.fileOffset = off x y) (hp : c.pts ≠ []) :
    purgeCell g t x y c = ((purgeCell g t x y c).1, { c with fileOffset := t.written, pts := [] }) ∧
    FileInv g (Index.purgeCell g t x y c).1 (fun i j => if i = x ∧ j = y then t.written else off i j)
      (bl ++ [((x, y), c.pts)]) := by
  have hl : c.pts.length ≠ 0 := by simpa using hp
  obtain ⟨l1, b0, l2, e1, e2, e3⟩ := h.last x y hx hy
  have hpos : 0 < t.written := by
    rw [h.written, e1, sizeOf'_append, sizeOf'_cons]; omega
  have hlen : t.bytes.length = t.written := by rw [h.bytes, render_length, h.written]
  have hin : sizeOf' l1 + 8 ≤ t.bytes.length := by
    rw [hlen, h.written, e1, sizeOf'_append, sizeOf'_cons]; omega
  have hov : (overlay t.bytes (sizeOf' l1) (put64 t.written)).length = t.bytes.length := by
    rw [overlay_length, put64_length]
    split <;> omega
  have ep : pieces (bl ++ [((x, y), c.pts)]) = pieces bl ++ [((x, y), body c.pts)] := by simp [pieces]
  have hval : (Index.purgeCell g t x y c) =
      (⟨overlay t.bytes (sizeOf' l1) (put64 t.written) ++ (put64 0 ++ body c.pts), t.written + (8 + (body c.pts).length)⟩,
        { c with fileOffset := t.written, pts := [] }) := by
    unfold Index.purgeCell
    rw [if_neg hl, hc, ← e3]
    dsimp only [Cell.removeMainRecords]
    rw [overlay_end]
    congr 1
    rw [show put64 0 ++ put32 c.pts.length ++ putRuns c.pts = put64 0 ++ body c.pts by simp [body],
      show (put64 0 ++ body c.pts).length = 8 + (body c.pts).length by rw [List.length_append, put64_length]]
  refine ⟨by rw [hval], ?_⟩
  rw [hval]
  refine ⟨?_, ?_, ?_⟩
  · show overlay _ _ _ ++ _ = _
    rw [ep, ← List.append_assoc (slots g), e1, render_append _ _ _ _ _ _ e2, h.bytes, e1, h.written, e1, Nat.zero_add]
  · show t.written + (8 + (body c.pts).length) = _
    rw [ep, ← List.append_assoc (slots g), sizeOf'_append, h.written]
    simp [sizeOf']
  · intro i j hi hj
    by_cases hij : i = x ∧ j = y
    · obtain ⟨rfl, rfl⟩ := hij
      refine ⟨slots g ++ pieces bl, body c.pts, [], by rw [ep, ← List.append_assoc (slots g)], by simp, ?_⟩
      have hz : ∀ a b : Nat, (if i = i ∧ j = j then a else b) = a := fun a b => if_pos ⟨rfl, rfl⟩
      show _ = if (if i = i ∧ j = j then t.written else off i j) = 0 then _ else (if i = i ∧ j = j then t.written else off i j)
      rw [hz, if_neg (by omega), h.written]
    · obtain ⟨m1, c0, m2, f1, f2, f3⟩ := h.last i j hi hj
      refine ⟨m1, c0, m2 ++ [((x, y), body c.pts)], ?_, ?_, ?_⟩
      · rw [ep, ← List.append_assoc (slots g), f1]; simp
      · rw [List.map_append, List.mem_append]
        rintro (hm | hm)
        · exact f2 hm
        · simp at hm; exact hij hm
      · have hz : (if i = x ∧ j = y then t.written else off i j) = off i j := if_neg hij
        simp only [hz]; exact f3

theorem Block.set_same (b : Block) (x y : Nat) (c : Cell) : b.set x y c x y = c := by simp [Block.set]
theorem Block.set_other (b : Block) {x y i j : Nat} (c : Cell) (h : (i, j) ≠ (x, y)) : b.set x y c i j = b i j := by
  unfold Block.set
  rw [if_neg]
  rintro ⟨rfl, rfl⟩; exact h rfl

theorem runsOf_append (c : Nat × Nat) (a b : List ((Nat × Nat) × Runs)) : runsOf c (a ++ b) = runsOf c a ++ runsOf c b := by
  simp [runsOf]

/-- A cell apart from where its records are. -/
def SameCell (c d : Cell) : Prop :=
  c.numPoints = d.numPoints ∧ c.minZ = d.minZ ∧ c.maxZ = d.maxZ ∧ c.zCells = d.zCells ∧ c.subCells = d.subCells

theorem purgeLoop_ok {g : Grid} (rest : List (Nat × Nat)) : ∀ {t : Temp} {b : Block} {bl : List ((Nat × Nat) × Runs)},
    FileInv g t (fun x y => (b x y).fileOffset) bl → rest.Nodup → (∀ c ∈ rest, c.1 < g.cellsX ∧ c.2 < g.cellsY) →
    ∃ new, FileInv g (purgeLoop g t b rest).1 (fun x y => ((purgeLoop g t b rest).2 x y).fileOffset) (bl ++ new) ∧
      (∀ e ∈ new, e.1 ∈ rest ∧ e.2 ≠ []) ∧
      ∀ x y, SameCell ((purgeLoop g t b rest).2 x y) (b x y) ∧
        (runsOf (x, y) (bl ++ new) ++ ((purgeLoop g t b rest).2 x y).pts = runsOf (x, y) bl ++ (b x y).pts) ∧
        ((x, y) ∈ rest → ((purgeLoop g t b rest).2 x y).pts = []) := by
  induction rest with
  | nil =>
    intro t b bl h _ _
    refine ⟨[], by simpa [purgeLoop] using h, by simp, ?_⟩
    intro x y
    exact ⟨⟨rfl, rfl, rfl, rfl, rfl⟩, by simp [purgeLoop], by simp⟩
  | cons c rest ih =>
    intro t b bl h hn hin
    obtain ⟨x, y⟩ := c
    rw [List.nodup_cons] at hn
    obtain ⟨hx, hy⟩ := hin (x, y) (by simp)
    have hin' : ∀ c ∈ rest, c.1 < g.cellsX ∧ c.2 < g.cellsY := fun c hc => hin c (by simp [hc])
    show ∃ new, FileInv g (purgeLoop g (purgeCell g t x y (b x y)).1 (b.set x y (purgeCell g t x y (b x y)).2) rest).1
      (fun i j => ((purgeLoop g (purgeCell g t x y (b x y)).1 (b.set x y (purgeCell g t x y (b x y)).2) rest).2 i j).fileOffset) (bl ++ new) ∧
      (∀ e ∈ new, e.1 ∈ (x, y) :: rest ∧ e.2 ≠ []) ∧
      ∀ i j, SameCell ((purgeLoop g (purgeCell g t x y (b x y)).1 (b.set x y (purgeCell g t x y (b x y)).2) rest).2 i j) (b i j) ∧
        (runsOf (i, j) (bl ++ new) ++ ((purgeLoop g (purgeCell g t x y (b x y)).1 (b.set x y (purgeCell g t x y (b x y)).2) rest).2 i j).pts
          = runsOf (i, j) bl ++ (b i j).pts) ∧
        ((i, j) ∈ (x, y) :: rest → ((purgeLoop g (purgeCell g t x y (b x y)).1 (b.set x y (purgeCell g t x y (b x y)).2) rest).2 i j).pts = [])
    by_cases hp : (b x y).pts = []
    · have he : purgeCell g t x y (b x y) = (t, b x y) := by unfold purgeCell; rw [if_pos (by simp [hp])]
      rw [he]
      have hb : b.set x y (b x y) = b := by
        funext i j
        unfold Block.set
        split
        · rename_i hij; rw [hij.1, hij.2]
        · rfl
      dsimp only
      rw [hb]
      obtain ⟨new, n1, n2, n3⟩ := ih h hn.2 hin'
      refine ⟨new, n1, fun e he => ⟨List.mem_cons_of_mem _ (n2 e he).1, (n2 e he).2⟩, ?_⟩
      intro i j
      obtain ⟨m1, m2, m3⟩ := n3 i j
      refine ⟨m1, m2, ?_⟩
      intro hm
      rcases List.mem_cons.1 hm with hm | hm
      · have hnone : runsOf (i, j) new = [] := by
          unfold runsOf
          rw [List.filter_eq_nil_iff.2]
          · rfl
          · intro e he hc
            have h1 := (n2 e he).1
            have h2 : e.1 = (i, j) := by simpa using hc
            rw [h2, hm] at h1
            exact hn.1 h1
        rw [runsOf_append, hnone, List.append_nil] at m2
        have := List.append_cancel_left m2
        simp only [Prod.mk.injEq] at hm
        rw [this, hm.1, hm.2]; exact hp
      · exact m3 hm
    · obtain ⟨e1, e2⟩ := h.purgeCell (c := b x y) hx hy rfl hp
      have hc : (purgeCell g t x y (b x y)).2 = { b x y with fileOffset := t.written, pts := [] } := by rw [e1]
      have hF : FileInv g (purgeCell g t x y (b x y)).1
          (fun i j => (b.set x y (purgeCell g t x y (b x y)).2 i j).fileOffset) (bl ++ [((x, y), (b x y).pts)]) := by
        apply e2.congr
        intro i j
        by_cases hij : i = x ∧ j = y
        · obtain ⟨rfl, rfl⟩ := hij
          rw [Block.set_same, hc]; simp
        · rw [if_neg hij, Block.set_other]
          intro hh; exact hij (by simpa using hh)
      have hsame : b.set x y (purgeCell g t x y (b x y)).2 x y = { b x y with fileOffset := t.written, pts := [] } := by
        rw [Block.set_same, hc]
      have hother : ∀ i j, (i, j) ≠ (x, y) → b.set x y (purgeCell g t x y (b x y)).2 i j = b i j :=
        fun i j h => Block.set_other _ _ h
      generalize b.set x y (purgeCell g t x y (b x y)).2 = b' at *
      obtain ⟨new, n1, n2, n3⟩ := ih hF hn.2 hin'
      refine ⟨((x, y), (b x y).pts) :: new, by simpa using n1, ?_, ?_⟩
      · intro e he
        rcases List.mem_cons.1 he with rfl | he
        · exact ⟨by simp, hp⟩
        · exact ⟨List.mem_cons_of_mem _ (n2 e he).1, (n2 e he).2⟩
      · intro i j
        obtain ⟨m1, m2, m3⟩ := n3 i j
        rw [List.append_assoc] at m2
        by_cases hij : (i, j) = (x, y)
        · simp only [Prod.mk.injEq] at hij
          obtain ⟨rfl, rfl⟩ := hij
          rw [hsame] at m1 m2
          refine ⟨⟨m1.1, m1.2.1, m1.2.2.1, m1.2.2.2.1, m1.2.2.2.2⟩, ?_, ?_⟩
          · have : runsOf (i, j) (bl ++ [((i, j), (b i j).pts)]) = runsOf (i, j) bl ++ (b i j).pts := by
              rw [runsOf_append]; simp [runsOf]
            rw [this] at m2
            simpa using m2
          · intro _
            have hnone : runsOf (i, j) new = [] := by
              unfold runsOf
              rw [List.filter_eq_nil_iff.2]
              · rfl
              · intro e he hc
                have h1 := (n2 e he).1
                have h2 : e.1 = (i, j) := by simpa using hc
                rw [h2] at h1
                exact hn.1 h1
            have e5 : runsOf (i, j) (bl ++ ([((i, j), (b i j).pts)] ++ new)) = runsOf (i, j) (bl ++ [((i, j), (b i j).pts)]) := by
              rw [← List.append_assoc, runsOf_append, hnone, List.append_nil]
            rw [e5] at m2
            exact List.append_cancel_left m2
        · rw [hother _ _ hij] at m1 m2
          have hne : runsOf (i, j) (bl ++ [((x, y), (b x y).pts)]) = runsOf (i, j) bl := by
            rw [runsOf_append]
            have : runsOf (i, j) [((x, y), (b x y).pts)] = [] := by
              unfold runsOf
              rw [List.filter_eq_nil_iff.2]
              · rfl
              · intro e he hc
                simp only [List.mem_singleton] at he
                subst he
                simp only [decide_eq_true_eq] at hc
                exact hij hc.symm
            rw [this, List.append_nil]
          rw [hne] at m2
          refine ⟨m1, by simpa using m2, ?_⟩
          intro hm
          rcases List.mem_cons.1 hm with hm | hm
          · exact absurd hm hij
          · exact m3 hm

end LibLAS.Index
