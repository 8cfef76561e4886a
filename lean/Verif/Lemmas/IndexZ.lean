import Verif.Lemmas.IndexLoop
/-
The z range of the cells.
-/
namespace LibLAS.Index
open Spec

def zb (c : Cell) : Int × Int := (c.minZ, c.maxZ)

theorem zHull_append (a b : List Fl) : ∀ s, zHull s (a ++ b) = zHull (zHull s a) b := by
  induction a with
  | nil => intro s; rfl
  | cons z a ih =>
    intro s
    obtain ⟨lo, hi⟩ := s
    simp only [List.cons_append, zHull]
    split
    · exact ih _
    · split
      · exact ih _
      · exact ih _

theorem zb_update (c : Cell) (z : Fl) : zb (c.updateZBounds z) = zHull (zb c) [z] := by
  unfold Cell.updateZBounds zb
  simp only [zHull]
  by_cases h1 : Fl.lt (.fin 32767) z = true
  · rw [if_pos h1, if_pos h1]
  · rw [if_neg h1, if_neg h1]
    by_cases h2 : Fl.lt z (.fin (-32768)) = true
    · rw [if_pos h2, if_pos h2]
    · rw [if_neg h2, if_neg h2]
      by_cases h3 : Fl.lt (.fin c.maxZ) z = true
      · simp only [if_pos h3]
        split <;> rfl
      · simp only [if_neg h3]
        split <;> rfl

theorem purgeCell_zb (g : Grid) (t : Temp) (x y : Nat) (c : Cell) : zb (purgeCell g t x y c).2 = zb c := by
  unfold purgeCell
  split
  · rfl
  · rfl

theorem purgeLoop_zb (g : Grid) (rest : List (Nat × Nat)) : ∀ (t : Temp) (b : Block) (i j : Nat),
    zb ((purgeLoop g t b rest).2 i j) = zb (b i j) := by
  induction rest with
  | nil => intro t b i j; rfl
  | cons c rest ih =>
    intro t b i j
    obtain ⟨x, y⟩ := c
    show zb ((purgeLoop g (purgeCell g t x y (b x y)).1 (b.set x y (purgeCell g t x y (b x y)).2) rest).2 i j) = _
    rw [ih]
    by_cases h : (i, j) = (x, y)
    · simp only [Prod.mk.injEq] at h
      obtain ⟨rfl, rfl⟩ := h
      rw [Block.set_same, purgeCell_zb]
    · rw [Block.set_other _ _ h]

theorem set_zb {b : Block} {x y : Nat} {c : Cell} (h : zb c = zb (b x y)) (i j : Nat) : zb (b.set x y c i j) = zb (b i j) := by
  by_cases hij : (i, j) = (x, y)
  · simp only [Prod.mk.injEq] at hij
    obtain ⟨rfl, rfl⟩ := hij
    rw [Block.set_same, h]
  · rw [Block.set_other _ _ hij]

theorem add_zb (g : Grid) (s : Build) (x y i j : Nat) : zb ((s.add g x y).block i j) = zb (s.block i j) := by
  unfold Build.add
  by_cases h : (g.temp && decide (g.limit ≤ s.inMemory)) = true
  · simp only [if_pos h]
    show zb (((purge g s.temp s.block).2.set x y (((purge g s.temp s.block).2 x y).addPointRecord s.pointId)) i j) = _
    refine (set_zb (by rfl) i j).trans ?_
    exact purgeLoop_zb _ _ _ _ _ _
  · simp only [if_neg h]
    exact set_zb (by rfl) i j

theorem visit_zb (g : Grid) (s : Build) (x y : Nat) (z : Fl) (i j : Nat) :
    zb ((s.visit g x y z).block i j) = if (i, j) = (x, y) then zHull (zb (s.block i j)) [z] else zb (s.block i j) := by
  have key : ∃ s1 : Build, s.visit g x y z = { s1 with block := s1.block.set x y ((s1.block x y).updateZBounds z) } ∧
      ∀ i j, zb (s1.block i j) = zb (s.block i j) := by
    by_cases hsame : x = s.lastX ∧ y = s.lastY
    · cases hinc : (s.block x y).incrementPointRecord s.lastPoint with
      | none =>
        refine ⟨s.add g x y, ?_, fun i j => add_zb g s x y i j⟩
        unfold Build.visit
        rw [if_pos hsame, hinc]
      | some c =>
        refine ⟨{ s with block := s.block.set x y c }, ?_, fun i j => ?_⟩
        · unfold Build.visit
          rw [if_pos hsame, hinc]
        · apply set_zb
          unfold Cell.incrementPointRecord at hinc
          obtain ⟨m, -, rfl⟩ := Option.map_eq_some_iff.1 hinc
          rfl
    · refine ⟨s.add g x y, ?_, fun i j => add_zb g s x y i j⟩
      unfold Build.visit
      rw [if_neg hsame]
  obtain ⟨s1, h1, h2⟩ := key
  rw [h1]
  show zb ((s1.block.set x y ((s1.block x y).updateZBounds z)) i j) = _
  by_cases hij : (i, j) = (x, y)
  · rw [if_pos hij]
    simp only [Prod.mk.injEq] at hij
    obtain ⟨rfl, rfl⟩ := hij
    rw [Block.set_same, zb_update, h2]
  · rw [if_neg hij, Block.set_other _ _ hij, h2]

theorem loop_zb (g : Grid) (ps : List Pt) : ∀ {s s' : Build}, Build.loop g s ps = .ok s' → ∀ i j,
    zb (s'.block i j) = zHull (zb (s.block i j)) ((ps.filter (inCell g (i, j))).map Pt.z) := by
  induction ps with
  | nil =>
    intro s s' h i j
    simp only [Build.loop, Outcome.ok.injEq] at h
    subst h; rfl
  | cons p ps ih =>
    intro s s' h i j
    have h : (s.step g p >>= fun s => Build.loop g s ps) = .ok s' := h
    cases hs : s.step g p with
    | ub => rw [hs] at h; simp [bind, Outcome.bind] at h
    | throw e => rw [hs] at h; simp [bind, Outcome.bind] at h
    | ok s1 =>
      rw [hs] at h
      have h : Build.loop g s1 ps = .ok s' := h
      rw [ih h i j]
      unfold Build.step at hs
      cases hid : identifyCell g p with
      | ub => rw [hid] at hs; simp [bind, Outcome.bind] at hs
      | throw e => rw [hid] at hs; simp [bind, Outcome.bind] at hs
      | ok o =>
        rw [hid] at hs
        cases o with
        | none =>
          have hs : Outcome.ok { s with pointId := (s.pointId + 1) % 2 ^ 32 } = .ok s1 := hs
          injection hs with hs
          subst hs
          have : inCell g (i, j) p = false := by unfold inCell; rw [hid]; simp
          rw [List.filter_cons, this]; rfl
        | some xy =>
          obtain ⟨x, y⟩ := xy
          have hs : (if x < g.cellsX ∧ y < g.cellsY then
              Outcome.ok { s.visit g x y p.z with pointId := ((s.visit g x y p.z).pointId + 1) % 2 ^ 32 } else .ub) = .ok s1 := hs
          split at hs
          · injection hs with hs
            subst hs
            show zHull (zb ((s.visit g x y p.z).block i j)) _ = _
            rw [visit_zb]
            by_cases hij : (i, j) = (x, y)
            · have : inCell g (i, j) p = true := by unfold inCell; rw [hid, hij]; simp
              rw [if_pos hij, List.filter_cons, this]
              simp only [if_true, List.map_cons]
              rw [← zHull_append]; rfl
            · have : inCell g (i, j) p = false := by
                unfold inCell; rw [hid]
                simp only [Outcome.ok.injEq, Option.some.injEq, decide_eq_false_iff_not]
                exact fun h => hij h.symm
              rw [if_neg hij, List.filter_cons, this]; rfl
          · simp at hs

/-- The z range of every cell after the build loop and the last purge. -/
theorem build_zb {g : Grid} {ps : List Pt} {s : Build} (h : Build.start.loop g ps = .ok s) (i j : Nat) :
    zb ((s.finish g).block i j) = zHull (32767, -32768) ((ps.filter (inCell g (i, j))).map Pt.z) := by
  have h1 := loop_zb g ps h i j
  unfold Build.finish
  split
  · show zb ((purge g s.temp s.block).2 i j) = _
    rw [show zb ((purge g s.temp s.block).2 i j) = zb (s.block i j) from purgeLoop_zb _ _ _ _ _ _, h1]; rfl
  · rw [h1]; rfl

end LibLAS.Index
