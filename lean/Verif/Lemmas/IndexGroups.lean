import Verif.Lemmas.IndexWalk
/-
What the groups of a list of cells look like.
-/
namespace LibLAS.Index
open Spec

/-- The order in which cells are written. -/
def CellLE (a b : Nat × Nat) : Prop := a.1 < b.1 ∨ (a.1 = b.1 ∧ a.2 ≤ b.2)

theorem CellLE.refl (a : Nat × Nat) : CellLE a a := Or.inr ⟨rfl, le_refl _⟩
theorem CellLE.trans {a b c : Nat × Nat} (h : CellLE a b) (k : CellLE b c) : CellLE a c := by
  unfold CellLE at *; omega

/-- What holds of a group made from cells among `seen`. -/
structure GOK (seen : List ((Nat × Nat) × Cell)) (g : Grp) : Prop where
  first : ∃ e ∈ seen, g.first = e.1
  last : ∃ e ∈ seen, g.last = e.1
  cells : ∀ e ∈ g.cells, e ∈ seen ∧ e.2.numPoints ≠ 0
  size : g.size ≤ maxVLR ∨ ∃ e, g.cells = [e]
  order : g.size ≤ maxVLR → seen.Pairwise (fun a b => CellLE a.1 b.1) → ∀ e ∈ g.cells, CellLE g.first e.1 ∧ CellLE e.1 g.last

theorem GOK.more {seen : List ((Nat × Nat) × Cell)} {g : Grp} (h : GOK seen g) (e : (Nat × Nat) × Cell) : GOK (seen ++ [e]) g := by
  obtain ⟨⟨a, a1, a2⟩, ⟨b, b1, b2⟩, hc, hs, ho⟩ := h
  refine ⟨⟨a, by simp [a1], a2⟩, ⟨b, by simp [b1], b2⟩, fun e he => ⟨by simp [(hc e he).1], (hc e he).2⟩, hs, fun h1 h2 => ho h1 ?_⟩
  exact (List.pairwise_append.1 h2).1

theorem entry_mem_le {seen : List ((Nat × Nat) × Cell)} {e : (Nat × Nat) × Cell}
    (h : (seen ++ [e]).Pairwise fun a b => CellLE a.1 b.1) {a : (Nat × Nat) × Cell} (ha : a ∈ seen ++ [e]) : CellLE a.1 e.1 := by
  rcases List.mem_append.1 ha with ha | ha
  · exact (List.pairwise_append.1 h).2.2 a ha e (by simp)
  · simp only [List.mem_singleton] at ha
    subst ha; exact CellLE.refl _

structure GInv (seen : List ((Nat × Nat) × Cell)) (s : Grouping) : Prop where
  done : ∀ g ∈ s.done, GOK seen g
  cur : ∀ g, s.cur = some g → GOK seen g ∧ g.size ≤ maxVLR

theorem GInv.step {seen : List ((Nat × Nat) × Cell)} {s : Grouping} (h : GInv seen s) (e : (Nat × Nat) × Cell) :
    GInv (seen ++ [e]) (s.step e) := by
  have hnew : GOK (seen ++ [e]) ⟨e.1, e.1, []⟩ ∧ (Grp.mk e.1 e.1 []).size ≤ maxVLR := by
    have hsz : (Grp.mk e.1 e.1 []).size ≤ maxVLR := by simp [Grp.size, Grp.body, maxVLR]
    exact ⟨⟨⟨e, by simp, rfl⟩, ⟨e, by simp, rfl⟩, by simp, Or.inl hsz, by simp⟩, hsz⟩
  have hd : ∀ g ∈ s.done, GOK (seen ++ [e]) g := fun g hg => (h.done g hg).more e
  have hc : GOK (seen ++ [e]) (s.cur.getD ⟨e.1, e.1, []⟩) ∧ (s.cur.getD ⟨e.1, e.1, []⟩).size ≤ maxVLR := by
    cases hs : s.cur with
    | none => exact hnew
    | some g => exact ⟨(h.cur g hs).1.more e, (h.cur g hs).2⟩
  unfold Grouping.step
  generalize s.cur.getD ⟨e.1, e.1, []⟩ = g at *
  simp only
  split
  · exact ⟨hd, fun g' hg' => by simp only [Option.some.injEq] at hg'; subst hg'; exact hc⟩
  · rename_i hn
    have hfl : (∀ g' ∈ (Grouping.flush (s.done, g) e).1, GOK (seen ++ [e]) g') ∧ GOK (seen ++ [e]) (Grouping.flush (s.done, g) e).2 ∧
        (Grouping.flush (s.done, g) e).2.size ≤ maxVLR ∧
        ((Grouping.flush (s.done, g) e).2.cells ≠ [] → Grouping.entryLen e + (Grouping.flush (s.done, g) e).2.size ≤ maxVLR) := by
      unfold Grouping.flush
      simp only
      split
      · refine ⟨?_, hnew.1, hnew.2, by simp⟩
        intro g' hg'
        rcases List.mem_append.1 hg' with hg' | hg'
        · exact hd g' hg'
        · simp only [List.mem_singleton] at hg'; subst hg'; exact hc.1
      · rename_i hx
        refine ⟨hd, hc.1, hc.2, fun h1 => ?_⟩
        by_contra h2
        exact hx ⟨h1, by simp only [] at h2 ⊢; omega⟩
    obtain ⟨k1, k2, k3, k4⟩ := hfl
    generalize Grouping.flush (s.done, g) e = r at *
    unfold Grouping.add
    split
    · rename_i hfit
      refine ⟨k1, fun g' hg' => ?_⟩
      simp only [Option.some.injEq] at hg'
      subst hg'
      have hsz : (Grp.mk r.2.first e.1 (r.2.cells ++ [e])).size ≤ maxVLR := by
        unfold Grp.size
        rw [body_snoc _ _ r.2.first r.2.last, List.length_append]
        have : r.2.size = 24 + r.2.body.length := rfl
        have h2 : (cellBytes e.1.1 e.1.2 e.2).length = Grouping.entryLen e := rfl
        have h3 : (Grp.mk r.2.first r.2.last r.2.cells).body = r.2.body := rfl
        rw [h2, h3]; omega
      refine ⟨⟨k2.first, ⟨e, by simp, rfl⟩, ?_, Or.inl hsz, ?_⟩, hsz⟩
      · intro e' he'
        rcases List.mem_append.1 he' with he' | he'
        · exact k2.cells e' he'
        · simp only [List.mem_singleton] at he'; subst he'; exact ⟨by simp, hn⟩
      · intro _ hp e' he'
        have hle : CellLE e'.1 e.1 := by
          rcases List.mem_append.1 he' with he' | he'
          · exact entry_mem_le hp (k2.cells e' he').1
          · simp only [List.mem_singleton] at he'; subst he'; exact CellLE.refl _
        refine ⟨?_, hle⟩
        rcases List.mem_append.1 he' with he' | he'
        · exact (k2.order k3 hp e' he').1
        · simp only [List.mem_singleton] at he'; subst he'
          obtain ⟨f, f1, f2⟩ := k2.first
          show CellLE r.2.first _
          rw [f2]; exact entry_mem_le hp f1
    · rename_i hfit
      refine ⟨?_, fun g' hg' => by simp at hg'⟩
      intro g' hg'
      rcases List.mem_append.1 hg' with hg' | hg'
      · exact k1 g' hg'
      · simp only [List.mem_singleton] at hg'; subst hg'
        have hnil : r.2.cells = [] := by by_contra h1; exact hfit (k4 h1)
        refine ⟨k2.first, k2.last, ?_, Or.inr ⟨e, rfl⟩, ?_⟩
        · intro e' he'
          simp only [List.mem_singleton] at he'; subst he'; exact ⟨by simp, hn⟩
        · intro hsz
          exfalso
          apply hfit
          have h3 : r.2.size = 24 := by unfold Grp.size Grp.body; rw [hnil]; rfl
          have h4 : (Grp.mk r.2.first r.2.last [e]).size = 24 + Grouping.entryLen e := by simp [Grp.size, Grp.body, Grouping.entryLen]
          omega

theorem groups_ok (cs : List ((Nat × Nat) × Cell)) : ∀ g ∈ groups cs, GOK cs g := by
  have all : ∀ (l seen : List ((Nat × Nat) × Cell)) (s : Grouping), GInv seen s → GInv (seen ++ l) (l.foldl Grouping.step s) := by
    intro l
    induction l with
    | nil => intro seen s h; simpa using h
    | cons e l ih =>
      intro seen s h
      have := ih (seen ++ [e]) (s.step e) (h.step e)
      simpa using this
  have h := all cs [] Grouping.start ⟨by simp [Grouping.start], by simp [Grouping.start]⟩
  rw [List.nil_append] at h
  intro g hg
  unfold groups at hg
  generalize cs.foldl Grouping.step Grouping.start = s at *
  unfold Grouping.finish at hg
  cases hs : s.cur with
  | none => rw [hs] at hg; exact h.done g hg
  | some g' =>
    rw [hs] at hg
    simp only at hg
    split at hg
    · exact h.done g hg
    · rcases List.mem_append.1 hg with hg | hg
      · exact h.done g hg
      · simp only [List.mem_singleton] at hg; subst hg; exact (h.cur _ hs).1

theorem groups_nonempty (cs : List ((Nat × Nat) × Cell)) : ∀ g ∈ groups cs, g.cells ≠ [] := by
  have all : ∀ (l : List ((Nat × Nat) × Cell)) (s : Grouping), (∀ g ∈ s.done, g.cells ≠ []) → ∀ g ∈ (l.foldl Grouping.step s).done, g.cells ≠ [] := by
    intro l
    induction l with
    | nil => intro s h; exact h
    | cons e l ih =>
      intro s h
      refine ih _ ?_
      unfold Grouping.step
      generalize s.cur.getD ⟨e.1, e.1, []⟩ = g
      simp only
      split
      · exact h
      · have hf : ∀ g' ∈ (Grouping.flush (s.done, g) e).1, g'.cells ≠ [] := by
          unfold Grouping.flush
          simp only
          split
          · rename_i hx
            intro g' hg'
            rcases List.mem_append.1 hg' with hg' | hg'
            · exact h g' hg'
            · simp only [List.mem_singleton] at hg'; subst hg'; exact hx.1
          · exact h
        unfold Grouping.add
        split
        · exact hf
        · intro g' hg'
          rcases List.mem_append.1 hg' with hg' | hg'
          · exact hf g' hg'
          · simp only [List.mem_singleton] at hg'; subst hg'; simp
  intro g hg
  have h := all cs Grouping.start (by simp [Grouping.start])
  unfold groups at hg
  generalize cs.foldl Grouping.step Grouping.start = s at *
  unfold Grouping.finish at hg
  cases hs : s.cur with
  | none => rw [hs] at hg; exact h g hg
  | some g' =>
    rw [hs] at hg
    simp only at hg
    split at hg
    · exact h g hg
    · rename_i hne
      rcases List.mem_append.1 hg with hg | hg
      · exact h g hg
      · simp only [List.mem_singleton] at hg; subst hg; exact hne

theorem groups_fit {cs : List ((Nat × Nat) × Cell)} (h : ∀ e ∈ cs, Fits e) (hs : ∀ e ∈ cs, 24 + Grouping.entryLen e < 2 ^ 32) :
    ∀ g ∈ groups cs, GrpFits g := by
  intro g hg
  have k := groups_ok cs g hg
  obtain ⟨a, a1, a2⟩ := k.first
  obtain ⟨b, b1, b2⟩ := k.last
  refine ⟨by rw [a2]; exact ⟨(h a a1).x, (h a a1).y⟩, by rw [b2]; exact ⟨(h b b1).x, (h b b1).y⟩, ?_, fun e he => h e (k.cells e he).1⟩
  rcases k.size with k1 | ⟨e, k1⟩
  · have : maxVLR < 2 ^ 32 := by decide
    omega
  · have := hs e (k.cells e (by rw [k1]; simp)).1
    unfold Grp.size Grp.body
    rw [k1]
    simpa [Grouping.entryLen] using this

end LibLAS.Index
