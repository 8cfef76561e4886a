import Verif.Lemmas.IndexMap
import Mathlib.Data.List.Perm.Basic
/-
Subdividing a cell.
-/
namespace LibLAS.Index
open Spec

theorem findKey_setKey {α : Type} (m : List (Nat × α)) (a b : Nat) (v : α) :
    findKey (setKey m a v) b = if b = a then some v else findKey m b := by
  induction m with
  | nil => simp [setKey, findKey]
  | cons e t ih =>
    obtain ⟨k, w⟩ := e
    show findKey (if a < k then _ else if a = k then _ else _) b = _
    by_cases h1 : a < k
    · rw [if_pos h1]
      show (if b = a then some v else if b = k then some w else findKey t b) = if b = a then some v else if b = k then some w else findKey t b
      rfl
    · rw [if_neg h1]
      by_cases h2 : a = k
      · rw [if_pos h2]
        subst h2
        show (if b = a then some v else findKey t b) = if b = a then some v else if b = a then some w else findKey t b
        split <;> rfl
      · rw [if_neg h2]
        show (if b = k then some w else findKey (setKey t a v) b) = if b = a then some v else if b = k then some w else findKey t b
        rw [ih]
        by_cases hb : b = k
        · rw [if_pos hb, if_neg (by omega), if_pos hb]
        · rw [if_neg hb, if_neg hb]

/-- Keys in strictly increasing order. -/
def KeysSorted {α : Type} (m : List (Nat × α)) : Prop := m.Pairwise fun a b => a.1 < b.1

theorem mem_setKey {α : Type} (m : List (Nat × α)) (a : Nat) (v : α) : ∀ e ∈ setKey m a v, e.1 = a ∨ e ∈ m := by
  induction m with
  | nil => intro e he; simp [setKey] at he; left; rw [he]
  | cons x t ih =>
    obtain ⟨k, w⟩ := x
    intro e he
    change e ∈ (if a < k then _ else if a = k then _ else _) at he
    by_cases h1 : a < k
    · rw [if_pos h1] at he
      rcases List.mem_cons.1 he with rfl | he
      · exact Or.inl rfl
      · exact Or.inr he
    · rw [if_neg h1] at he
      by_cases h2 : a = k
      · rw [if_pos h2] at he
        rcases List.mem_cons.1 he with rfl | he
        · exact Or.inl rfl
        · exact Or.inr (by simp [he])
      · rw [if_neg h2] at he
        rcases List.mem_cons.1 he with rfl | he
        · exact Or.inr (by simp)
        · rcases ih e he with h | h
          · exact Or.inl h
          · exact Or.inr (by simp [h])

theorem KeysSorted.setKey {α : Type} {m : List (Nat × α)} (h : KeysSorted m) (a : Nat) (v : α) : KeysSorted (setKey m a v) := by
  induction m with
  | nil => exact List.pairwise_singleton _ _
  | cons x t ih =>
    obtain ⟨k, w⟩ := x
    have hc := List.pairwise_cons.1 h
    show KeysSorted (if a < k then _ else if a = k then _ else _)
    by_cases h1 : a < k
    · rw [if_pos h1]
      apply List.pairwise_cons.2
      refine ⟨?_, h⟩
      intro e he
      rcases List.mem_cons.1 he with rfl | he
      · exact h1
      · have := hc.1 e he
        show a < e.1
        simp only [] at this; omega
    · rw [if_neg h1]
      by_cases h2 : a = k
      · rw [if_pos h2]
        subst h2
        exact List.pairwise_cons.2 ⟨hc.1, hc.2⟩
      · rw [if_neg h2]
        apply List.pairwise_cons.2
        refine ⟨?_, ih hc.2⟩
        intro e he
        rcases mem_setKey t a v e he with h | h
        · rw [h]; show k < a; omega
        · exact hc.1 e h

theorem KeysSorted.find {α : Type} {m : List (Nat × α)} (h : KeysSorted m) : ∀ e ∈ m, findKey m e.1 = some e.2 := by
  induction m with
  | nil => intro e he; simp at he
  | cons x t ih =>
    obtain ⟨k, w⟩ := x
    have hc := List.pairwise_cons.1 h
    intro e he
    show (if e.1 = k then some w else findKey t e.1) = _
    rcases List.mem_cons.1 he with rfl | he
    · rw [if_pos rfl]
    · have := hc.1 e he
      simp only [] at this
      rw [if_neg (by omega)]
      exact ih hc.2 e he

theorem flatMap_setKey_replace {α : Type} (f : α → List Nat) (m : List (Nat × α)) (a : Nat) (u v : α) (z : List Nat)
    (hm : KeysSorted m) (h : findKey m a = some u) (hv : f v = f u ++ z) :
    ((setKey m a v).flatMap fun e => f e.2).Perm ((m.flatMap fun e => f e.2) ++ z) := by
  induction m with
  | nil => simp [findKey] at h
  | cons x t ih =>
    obtain ⟨k, w⟩ := x
    have hc := List.pairwise_cons.1 hm
    change (if a = k then some w else findKey t a) = some u at h
    show ((if a < k then _ else if a = k then _ else _ : List (Nat × α)).flatMap fun e => f e.2).Perm _
    by_cases h2 : a = k
    · rw [if_pos h2] at h
      injection h with h
      subst h
      rw [if_neg (by omega), if_pos h2]
      simp only [List.flatMap_cons, hv, List.append_assoc]
      exact List.Perm.append_left _ List.perm_append_comm
    · rw [if_neg h2] at h
      have hlt : ¬ a < k := by
        intro hlt
        have hmem : ∀ (l : List (Nat × α)), (∀ e ∈ l, a < e.1) → findKey l a = none := by
          intro l
          induction l with
          | nil => intro _; rfl
          | cons y l ih2 =>
            intro hl
            obtain ⟨k', w'⟩ := y
            have := hl (k', w') (by simp)
            show (if a = k' then _ else _) = none
            rw [if_neg (by simp only [] at this; omega)]
            exact ih2 fun e he => hl e (by simp [he])
        rw [hmem t (fun e he => by have := hc.1 e he; simp only [] at this; omega)] at h
        exact absurd h (by simp)
      rw [if_neg hlt, if_neg h2]
      simp only [List.flatMap_cons, List.append_assoc]
      exact List.Perm.append_left _ (ih hc.2 h)

theorem flatMap_setKey_new {α : Type} (f : α → List Nat) (m : List (Nat × α)) (a : Nat) (v : α)
    (h : findKey m a = none) :
    ((setKey m a v).flatMap fun e => f e.2).Perm ((m.flatMap fun e => f e.2) ++ f v) := by
  induction m with
  | nil => simp [setKey]
  | cons x t ih =>
    obtain ⟨k, w⟩ := x
    change (if a = k then some w else findKey t a) = none at h
    show ((if a < k then _ else if a = k then _ else _ : List (Nat × α)).flatMap fun e => f e.2).Perm _
    by_cases h2 : a = k
    · rw [if_pos h2] at h; exact absurd h (by simp)
    rw [if_neg h2] at h
    by_cases h1 : a < k
    · rw [if_pos h1]
      simp only [List.flatMap_cons]
      exact List.perm_append_comm
    · rw [if_neg h1, if_neg h2]
      simp only [List.flatMap_cons, List.append_assoc]
      exact List.Perm.append_left _ (ih h)

/-- The sub-cells `m` hold the ids `L`, each in the sub-cell `pl` says. -/
structure SubInv (pl : Nat → Nat) (L : List Nat) (hi : Nat) (m : List (Nat × Runs)) : Prop where
  sorted : KeysSorted m
  runs : ∀ a r, findKey m a = some r → RunsOK 0 r hi
  ids : ∀ a, ids ((findKey m a).getD []) = L.filter fun i => pl i = a
  ne : ∀ a r, findKey m a = some r → r ≠ []
  perm : (m.flatMap fun e => Spec.ids e.2).Perm L

theorem SubInv.nil (pl : Nat → Nat) : SubInv pl [] 0 [] :=
  ⟨List.Pairwise.nil, by intro a r h; simp [findKey] at h, by intro a; simp [findKey, Spec.ids],
    by intro a r h; simp [findKey] at h, List.Perm.refl _⟩

theorem SubInv.mono {pl L hi hi' m} (h : SubInv pl L hi m) (hh : hi ≤ hi') : SubInv pl L hi' m :=
  ⟨h.sorted, fun a r e => (h.runs a r e).mono (le_refl _) hh, h.ids, h.ne, h.perm⟩

theorem SubInv.setKey {pl : Nat → Nat} {L : List Nat} {hi id : Nat} {m : List (Nat × Runs)} {a : Nat} {r : Runs} (h : SubInv pl L hi m)
    (ha : pl id = a) (hr : RunsOK 0 r (id + 1)) (hh : hi ≤ id) (hids : Spec.ids r = Spec.ids ((findKey m a).getD []) ++ [id]) :
    SubInv pl (L ++ [id]) (id + 1) (setKey m a r) := by
  refine ⟨h.sorted.setKey a r, ?_, ?_, ?_, ?_⟩
  · intro b s hb
    rw [findKey_setKey] at hb
    by_cases hab : b = a
    · rw [if_pos hab] at hb; injection hb with hb; subst hb; exact hr
    · rw [if_neg hab] at hb
      exact (h.runs b s hb).mono (le_refl _) (by omega)
  · intro b
    rw [findKey_setKey, List.filter_append]
    by_cases hab : b = a
    · subst hab
      rw [if_pos rfl, Option.getD_some, hids, h.ids]
      simp [ha]
    · rw [if_neg hab, h.ids]
      simp only [List.filter_cons, List.filter_nil]
      rw [if_neg (by rw [ha]; simp; omega), List.append_nil]
  · intro b s hb
    rw [findKey_setKey] at hb
    by_cases hab : b = a
    · rw [if_pos hab] at hb; injection hb with hb; subst hb
      rintro rfl
      simp [Spec.ids] at hids
    · rw [if_neg hab] at hb; exact h.ne b s hb
  · cases hf : findKey m a with
    | none =>
      rw [hf] at hids
      refine (flatMap_setKey_new Spec.ids m a r hf).trans ?_
      rw [hids]
      exact h.perm.append_right _
    | some u =>
      rw [hf] at hids
      exact (flatMap_setKey_replace Spec.ids m a u r [id] h.sorted hf hids).trans (h.perm.append_right _)

/-- The run being made longer. -/
def SubLast (s : Sub) (id : Nat) : Prop :=
  s.last = 2 ^ 32 - 1 ∨ ∃ r n, findKey s.m s.last = some (r ++ [(s.firstPt, n)]) ∧ s.firstPt + n = id

theorem visit_ok {pl : Nat → Nat} {L : List Nat} {id : Nat} {s : Sub} {a : Nat} (h : SubInv pl L id s.m) (hl : SubLast s id)
    (ha : pl id = a) (hs : a < 2 ^ 32 - 1) :
    SubInv pl (L ++ [id]) (id + 1) (s.visit (some a) id).m ∧ SubLast (s.visit (some a) id) (id + 1) := by
  have hadd : SubInv pl (L ++ [id]) (id + 1) (Cell.addSub s.m a id) ∧ SubLast ⟨Cell.addSub s.m a id, id, a⟩ (id + 1) := by
    unfold Cell.addSub
    cases hf : findKey s.m a with
    | none =>
      dsimp only
      refine ⟨h.setKey ha (RunsOK.one (by omega)) (le_refl _) ?_, Or.inr ⟨[], 1, ?_, rfl⟩⟩
      · rw [hf]; simp [Spec.ids]
      · show findKey (setKey s.m a [(id, 1)]) a = _
        rw [findKey_setKey, if_pos rfl]; rfl
    | some r =>
      dsimp only
      have hr := h.runs a r hf
      have hk : setKey r id 1 = r ++ [(id, 1)] := setKey_append _ _ _ hr.keys_lt
      rw [hk]
      refine ⟨h.setKey ha (hr.append (RunsOK.one (le_refl _))) (le_refl _) ?_, Or.inr ⟨r, 1, ?_, rfl⟩⟩
      · rw [hf, ids_append]; simp [Spec.ids]
      · show findKey (setKey s.m a (r ++ [(id, 1)])) a = _
        rw [findKey_setKey, if_pos rfl]
  by_cases hlast : a = s.last
  · cases hinc : Cell.incrementSub s.m a s.firstPt with
    | none =>
      have e : s.visit (some a) id = ⟨Cell.addSub s.m a id, id, a⟩ := by
        show (match (if a = s.last then Cell.incrementSub s.m a s.firstPt else none) with
          | some m => { s with m := m }
          | none => ⟨Cell.addSub s.m a id, id, a⟩) = _
        rw [if_pos hlast, hinc]
      rw [e]; exact hadd
    | some m' =>
      have e : s.visit (some a) id = { s with m := m' } := by
        show (match (if a = s.last then Cell.incrementSub s.m a s.firstPt else none) with
          | some m => { s with m := m }
          | none => ⟨Cell.addSub s.m a id, id, a⟩) = _
        rw [if_pos hlast, hinc]
      rw [e]
      rcases hl with hl | ⟨r, n, hf, hn⟩
      · omega
      rw [← hlast] at hf
      have hok := h.runs a _ hf
      obtain ⟨mid, o1, o2⟩ := hok.split
      have hl2 := o2.mem (s.firstPt, n) (by simp)
      simp only [] at hl2
      have hkeys : ∀ e ∈ r, e.1 < s.firstPt := by
        intro e he
        have := o1.keys_lt e he
        omega
      unfold Cell.incrementSub Cell.incremented at hinc
      rw [hf] at hinc
      dsimp only at hinc
      rw [findKey_last _ _ _ hkeys] at hinc
      dsimp only at hinc
      by_cases h255 : n < 255
      · rw [if_pos h255, setKey_last _ _ _ _ hkeys] at hinc
        simp only [Option.map_some, Option.some.injEq] at hinc
        subst hinc
        refine ⟨h.setKey ha (o1.append ⟨hl2.1, by omega, by omega, by show _ ≤ _; omega⟩) (le_refl _) ?_, Or.inr ⟨r, n + 1, ?_, ?_⟩⟩
        · rw [hf, Option.getD_some, ids_succ, hn]
        · show findKey (setKey s.m a _) s.last = _
          rw [findKey_setKey, if_pos hlast.symm]
        · show s.firstPt + (n + 1) = id + 1
          omega
      · rw [if_neg h255] at hinc; simp at hinc
  · have e : s.visit (some a) id = ⟨Cell.addSub s.m a id, id, a⟩ := by
      show (match (if a = s.last then Cell.incrementSub s.m a s.firstPt else none) with
        | some m => { s with m := m }
        | none => ⟨Cell.addSub s.m a id, id, a⟩) = _
      rw [if_neg hlast]
    rw [e]; exact hadd

/-- The sub-cell of the point with a given id. -/
def subOf (place : Pt → Outcome (Option Nat)) (pts : List Pt) (i : Nat) : Nat :=
  match pts[i]? with
  | some p => match place p with
    | .ok (some a) => a
    | _ => 0
  | none => 0

theorem points_ok {place : Pt → Outcome (Option Nat)} {pts : List Pt}
    (hp : ∀ p ∈ pts, ∃ a, place p = .ok (some a) ∧ a < 2 ^ 32 - 1) (n : Nat) : ∀ {id : Nat} {s : Sub} {L : List Nat},
    SubInv (subOf place pts) L id s.m → SubLast s id → id + n ≤ pts.length →
    ∃ s', Sub.points place pts id n s = .ok (some s') ∧
      SubInv (subOf place pts) (L ++ (List.range n).map (id + ·)) (id + n) s'.m := by
  induction n with
  | zero => intro id s L h _ _; exact ⟨s, rfl, by simpa using h⟩
  | succ n ih =>
    intro id s L h hl hle
    have hlt : id < pts.length := by omega
    obtain ⟨a, ha1, ha2⟩ := hp pts[id] (List.getElem_mem hlt)
    have hg : pts[id]? = some pts[id] := List.getElem?_eq_getElem hlt
    have hsub : subOf place pts id = a := by unfold subOf; rw [hg]; dsimp only; rw [ha1]
    obtain ⟨v1, v2⟩ := visit_ok h hl hsub ha2
    obtain ⟨s', e1, e2⟩ := ih v1 v2 (by omega)
    refine ⟨s', ?_, ?_⟩
    · show (match pts[id]? with
        | none => Outcome.ok none
        | some p => (place p).bind fun a => Sub.points place pts (id + 1) n (s.visit a id)) = _
      rw [hg]
      dsimp only
      rw [ha1]
      exact e1
    · have : L ++ [id] ++ (List.range n).map (id + 1 + ·) = L ++ (List.range (n + 1)).map (id + ·) := by
        rw [List.range_succ_eq_map, List.append_assoc]
        simp [Function.comp_def, Nat.add_comm, Nat.add_left_comm]
      rw [← this]
      exact e2.mono (by omega)

theorem runs_ok {place : Pt → Outcome (Option Nat)} {pts : List Pt}
    (hp : ∀ p ∈ pts, ∃ a, place p = .ok (some a) ∧ a < 2 ^ 32 - 1) (r : Runs) : ∀ {lo : Nat} {m : List (Nat × Runs)} {L : List Nat},
    SubInv (subOf place pts) L lo m → RunsOK lo r pts.length →
    ∃ m', Sub.runs place pts r m = .ok (some m') ∧ ∃ hi, SubInv (subOf place pts) (L ++ ids r) hi m' := by
  induction r with
  | nil => intro lo m L h _; exact ⟨m, rfl, lo, by simpa [Spec.ids] using h⟩
  | cons e t ih =>
    intro lo m L h hr
    obtain ⟨id, n⟩ := e
    obtain ⟨r1, r2, r3, r4⟩ := hr
    have hle := r4.le
    obtain ⟨s', e1, e2⟩ := points_ok hp n (s := ⟨m, 0, 2 ^ 32 - 1⟩) (id := id) (h.mono r1) (Or.inl rfl) hle
    obtain ⟨m', f1, f2⟩ := ih e2 r4
    refine ⟨m', ?_, ?_⟩
    · show (if id < pts.length then _ else _) = _
      rw [if_pos (by omega), e1]
      exact f1
    · rw [ids_cons, ← List.append_assoc]; exact f2

end LibLAS.Index
