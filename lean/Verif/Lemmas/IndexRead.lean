import Verif.Lemmas.IndexGroups
import Verif.Lemmas.IndexAll
/-
The index is read back from its data records.
-/
namespace LibLAS.Index
open Spec

theorem putSubs_length (m : List (Nat × Runs)) : (putSubs m).length = (m.map fun s => 8 + 5 * s.2.length).sum := by
  induction m with
  | nil => rfl
  | cons e m ih => rw [putSubs_cons]; simp [put32_length, putRuns_length, ih]; omega

theorem entryLen_eq {e : (Nat × Nat) × Cell} (h : Fits e) : Grouping.entryLen e = cellSize e.2 := by
  unfold Grouping.entryLen cellSize
  rw [cellBytes_eq]
  unfold partBytes
  rcases h.one with h1 | h1
  · by_cases h2 : e.2.subCells = []
    · simp [h1, h2, put32_length, put16_length, putRuns_length]; omega
    · simp [h1, h2, put32_length, put16_length, putSubs_length]; omega
  · by_cases h2 : e.2.zCells = []
    · simp [h1, h2, put32_length, put16_length, putRuns_length]; omega
    · simp [h1, h2, put32_length, put16_length, putSubs_length]; omega

theorem foldRuns_log (x y : Nat) (p : Place) (r : Runs) : ∀ s, foldRuns logger x y p r s = s ++ r.map fun e => .run x y p e.1 e.2 := by
  induction r with
  | nil => intro s; simp [foldRuns]
  | cons e r ih =>
    intro s
    unfold foldRuns
    simp only [show ∀ t, logger.full t = false from fun _ => rfl, Bool.false_eq_true, if_false]
    rw [ih]
    show (s ++ [_]) ++ _ = _
    simp

theorem foldSubs_log (x y : Nat) (p : Nat → Place) (m : List (Nat × Runs)) :
    ∀ s, foldSubs logger x y p m s = s ++ m.flatMap fun s => s.2.map fun e => .run x y (p s.1) e.1 e.2 := by
  induction m with
  | nil => intro s; simp [foldSubs]
  | cons e r ih =>
    intro s
    unfold foldSubs
    simp only [show ∀ t, logger.full t = false from fun _ => rfl, Bool.false_eq_true, if_false]
    rw [ih, foldRuns_log]
    simp

theorem foldCell_log (e : (Nat × Nat) × Cell) (s : List Seen) (pos : Nat) :
    foldCell logger e (logger.start s pos) = s ++ seenOf e := by
  unfold foldCell seenOf
  show (if _ then foldSubs logger _ _ _ _ (s ++ [Seen.cell]) else _) = _
  split
  · rw [foldSubs_log]; simp
  · split
    · show foldSubs logger _ _ _ _ (s ++ [.cell]) = _; rw [foldSubs_log]; simp
    · show foldRuns logger _ _ _ _ (s ++ [.cell]) = _; rw [foldRuns_log]; simp

theorem foldCells_log (cs : List ((Nat × Nat) × Cell)) : ∀ pos s, foldCells logger pos cs s = s ++ cs.flatMap seenOf := by
  induction cs with
  | nil => intro pos s; simp [foldCells]
  | cons e cs ih =>
    intro pos s
    unfold foldCells
    simp only [show ∀ t, logger.full t = false from fun _ => rfl, Bool.false_eq_true, if_false]
    rw [ih, foldCell_log]; simp

/-- Any visitor walks over the cells of a group. -/
theorem walk_group {σ : Type} (v : Visitor σ) {g : Grp} (h : GrpFits g) (pad : List Byte) (s : σ) :
    walkCells v (g.bytes ++ pad) g.size (g.size + 1) s 24 = .ok (foldCells v 24 g.cells s, true) := by
  refine walkCells_ok g.cells (a := Grp.frame g.first g.last g.size (g.points % 2 ^ 32)) (c := pad) s h.cells ?_ (Grp.frame_length _ _ _ _) ?_ ?_
  · show Grp.frame _ _ _ _ ++ g.body ++ pad = _
    rw [List.append_assoc]; rfl
  · rfl
  · show g.body.length < 24 + g.body.length + 1; omega

theorem Holds.length_pos {g : Grp} {vs : List VLR} (h : Holds g vs) : 0 < vs.length := by
  obtain ⟨v, rs, -, -, -, rfl, -⟩ := h.data
  simp

theorem readAll_groups {gs : List Grp} {vss : List (List VLR)} (h : List.Forall₂ Holds gs vss) (hf : ∀ g ∈ gs, GrpFits g) :
    ∀ fuel, vss.flatten.length ≤ fuel → readAll fuel vss.flatten = .ok (some ((gs.flatMap Grp.cells).flatMap seenOf)) := by
  induction h with
  | nil => intro fuel _; cases fuel <;> rfl
  | cons hg hr ih =>
    rename_i g vs gs vss
    intro fuel hfu
    obtain ⟨v, rs, pad, rfl, e1⟩ := gather_ok hg (hf g (by simp)) vss.flatten
    simp only [List.flatten_cons, List.length_append, List.length_cons] at hfu
    obtain ⟨fuel, rfl⟩ : ∃ k, fuel = k + 1 := ⟨fuel - 1, by omega⟩
    rw [List.flatten_cons, List.cons_append]
    unfold readAll
    rw [e1]
    simp only [Outcome.bind, walk_group logger (hf g (by simp)), foldCells_log, if_true]
    have hdrop : (rs ++ vss.flatten).drop ((v :: rs).length - 1) = vss.flatten := by simp
    rw [hdrop, ih (fun g hg => hf g (by simp [hg])) fuel (by omega)]
    simp

theorem Shape.fits {g : Grid} {pts : List Pt} {xy : Nat × Nat} {z : Int × Int} {c : Cell} (hx : xy.1 < 2 ^ 32) (hy : xy.2 < 2 ^ 32)
    (hz : 1 < g.cellsZ → ∀ p ∈ pts, ∃ a, identifyCellZ g p = .ok (some a) ∧ a < 2 ^ 32 - 1)
    (h : Shape g pts xy (positions (inCell g xy) 0 pts) z c) (hl : pts.length < 2 ^ 32) :
    Fits (xy, c) ∧ cellSize c ≤ 28 + 13 * pts.length ∧ (cellIds c).length = c.numPoints := by
  have hok := h.cellOK hz
  have hlen : (cellIds c).length = c.numPoints := by rw [hok.num, hok.perm.length_eq]
  have hids : ∀ i ∈ positions (inCell g xy) 0 pts, i < pts.length := by
    intro i hi
    rw [mem_positions] at hi
    obtain ⟨p, -, h2, -⟩ := hi
    exact (List.getElem?_eq_some_iff.1 h2).1
  have hnum : c.numPoints ≤ pts.length := by
    rw [hok.num]
    have hnd := (positions_nodup (inCell g xy) pts 0).1
    have : (positions (inCell g xy) 0 pts) ⊆ List.range pts.length := fun i hi => List.mem_range.2 (hids i hi)
    simpa using (List.subperm_of_subset hnd this).length_le
  -- lists of parts
  have hparts : ∀ (place : Pt → Outcome (Option Nat)) (hi : Nat) (m : List (Nat × Runs)),
      (∀ p ∈ pts, ∃ a, place p = .ok (some a) ∧ a < 2 ^ 32 - 1) → SubInv (subOf place pts) (positions (inCell g xy) 0 pts) hi m →
      SubsFit m ∧ (m.map fun s => 8 + 5 * s.2.length).sum ≤ 13 * pts.length := by
    intro place hi m hp hs
    have hrun : ∀ e ∈ m, RunsOK 0 e.2 hi ∧ e.2 ≠ [] ∧ ∀ i ∈ Spec.ids e.2, i < pts.length ∧ subOf place pts i = e.1 := by
      intro e he
      have hf := hs.sorted.find e he
      refine ⟨hs.runs _ _ hf, hs.ne _ _ hf, ?_⟩
      intro i hi'
      have := hs.ids e.1
      rw [hf, Option.getD_some] at this
      rw [this] at hi'
      obtain ⟨h1, h2⟩ := List.mem_filter.1 hi'
      exact ⟨hids i h1, by simpa using h2⟩
    have hsum : (m.map fun s => (Spec.ids s.2).length).sum ≤ pts.length := by
      have := hs.perm.length_eq
      rw [List.length_flatMap, ← hok.num] at this
      rw [this]; exact hnum
    have hone : ∀ e ∈ m, 1 ≤ e.2.length ∧ e.2.length ≤ (Spec.ids e.2).length := by
      intro e he
      obtain ⟨h1, h2, -⟩ := hrun e he
      exact ⟨List.length_pos_iff.2 h2, h1.length_le⟩
    have hb : ∀ m' : List (Nat × Runs), (∀ e ∈ m', 1 ≤ e.2.length ∧ e.2.length ≤ (Spec.ids e.2).length) →
        m'.length ≤ (m'.map fun s => (Spec.ids s.2).length).sum ∧
        (m'.map fun s => 8 + 5 * s.2.length).sum ≤ 13 * (m'.map fun s => (Spec.ids s.2).length).sum ∧
        ∀ e ∈ m', e.2.length ≤ (m'.map fun s => (Spec.ids s.2).length).sum := by
      intro m'
      induction m' with
      | nil => intro _; simp
      | cons e m' ih =>
        intro hm
        obtain ⟨i1, i2, i3⟩ := ih fun e he => hm e (by simp [he])
        obtain ⟨k1, k2⟩ := hm e (by simp)
        simp only [List.length_cons, List.map_cons, List.sum_cons]
        refine ⟨by omega, by omega, ?_⟩
        intro e' he'
        rcases List.mem_cons.1 he' with rfl | he'
        · omega
        · have := i3 e' he'; omega
    obtain ⟨b1, b2, b3⟩ := hb m hone
    refine ⟨⟨by omega, fun e he => ?_⟩, by omega⟩
    obtain ⟨h1, h2, h3⟩ := hrun e he
    obtain ⟨r, t, hrt⟩ := List.exists_cons_of_ne_nil h2
    have hrm : ∀ q ∈ e.2, q.1 ∈ Spec.ids e.2 ∧ q.2 < 2 ^ 8 := by
      intro q hq
      have := h1.mem q hq
      refine ⟨List.mem_flatMap.2 ⟨q, hq, List.mem_map.2 ⟨0, List.mem_range.2 (by omega), by simp⟩⟩, by omega⟩
    refine ⟨?_, by have := b3 e he; omega, fun q hq => ⟨?_, (hrm q hq).2⟩⟩
    · have hm := (hrm r (by rw [hrt]; simp)).1
      obtain ⟨h4, h5⟩ := h3 _ hm
      obtain ⟨a, a1, a2⟩ := hp pts[r.1] (List.getElem_mem h4)
      unfold subOf at h5
      rw [List.getElem?_eq_getElem h4] at h5
      simp only [a1] at h5
      omega
    · have := (h3 _ (hrm q hq).1).1; omega
  have hrnil : RunsFit [] := ⟨by simp, by simp⟩
  have hsnil : SubsFit [] := ⟨by simp, by simp⟩
  have hp := h.parts
  by_cases c1 : g.splitZ c = true
  · rw [if_pos c1] at hp
    obtain ⟨a1, a2, hi, a3⟩ := hp
    have hcz : 1 < g.cellsZ := by
      unfold Grid.splitZ at c1
      simp only [Bool.and_eq_true, decide_eq_true_eq] at c1
      exact c1.1
    obtain ⟨b1, b2⟩ := hparts _ hi _ (hz hcz) a3
    refine ⟨⟨hx, hy, by show c.numPoints < _; omega, by show RunsFit c.pts; rw [a1]; exact hrnil, b1, by show SubsFit c.subCells; rw [a2]; exact hsnil, Or.inr a2⟩, ?_, hlen⟩
    unfold cellSize
    rw [a1, a2]
    simp only [List.length_nil, ne_eq, not_true_eq_false, if_false]
    split <;> omega
  · rw [if_neg c1] at hp
    by_cases c2 : 1000 < c.numPoints
    · rw [if_pos c2] at hp
      obtain ⟨a1, a2, hi, a3⟩ := hp
      obtain ⟨b1, b2⟩ := hparts _ hi _ (sub_place g pts xy.1 xy.2) a3
      refine ⟨⟨hx, hy, by show c.numPoints < _; omega, by show RunsFit c.pts; rw [a1]; exact hrnil, by show SubsFit c.zCells; rw [a2]; exact hsnil, b1, Or.inl a2⟩, ?_, hlen⟩
      unfold cellSize
      rw [a1, a2]
      simp only [List.length_nil, ne_eq, not_true_eq_false, if_false]
      split <;> omega
    · rw [if_neg c2] at hp
      obtain ⟨a1, a2, a3, a4⟩ := hp
      have h3 := a4.length_le
      rw [a3, ← hok.num] at h3
      refine ⟨⟨hx, hy, by show c.numPoints < _; omega, ⟨by show c.pts.length < _; omega, fun q hq => ?_⟩, by show SubsFit c.zCells; rw [a1]; exact hsnil, by show SubsFit c.subCells; rw [a2]; exact hsnil, Or.inl a1⟩, ?_, hlen⟩
      · have := a4.mem q hq
        exact ⟨by omega, by omega⟩
      · unfold cellSize
        rw [a1, a2]; simp; omega

end LibLAS.Index
