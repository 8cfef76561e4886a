import Verif.Spec.Index
import Mathlib.Data.List.Basic
/-
Sorted maps and runs.
-/
namespace LibLAS.Index
open Spec

theorem setKey_append {α : Type} (m : List (Nat × α)) (a : Nat) (b : α) (h : ∀ e ∈ m, e.1 < a) :
    setKey m a b = m ++ [(a, b)] := by
  induction m with
  | nil => rfl
  | cons e t ih =>
    obtain ⟨k, v⟩ := e
    have hk : k < a := h (k, v) (by simp)
    show (if a < k then _ else if a = k then _ else _) = _
    rw [if_neg (by omega), if_neg (by omega), ih fun e he => h e (by simp [he])]
    rfl

theorem setKey_last {α : Type} (m : List (Nat × α)) (a : Nat) (b c : α) (h : ∀ e ∈ m, e.1 < a) :
    setKey (m ++ [(a, c)]) a b = m ++ [(a, b)] := by
  induction m with
  | nil => simp [setKey]
  | cons e t ih =>
    obtain ⟨k, v⟩ := e
    have hk : k < a := h (k, v) (by simp)
    rw [List.cons_append]
    show (if a < k then _ else if a = k then _ else _) = _
    rw [if_neg (by omega), if_neg (by omega), ih fun e he => h e (by simp [he])]
    rfl

theorem findKey_last {α : Type} (m : List (Nat × α)) (a : Nat) (c : α) (h : ∀ e ∈ m, e.1 < a) :
    findKey (m ++ [(a, c)]) a = some c := by
  induction m with
  | nil => simp [findKey]
  | cons e t ih =>
    obtain ⟨k, v⟩ := e
    have hk : k < a := h (k, v) (by simp)
    rw [List.cons_append]
    show (if a = k then _ else _) = _
    rw [if_neg (by omega), ih fun e he => h e (by simp [he])]

/-- Runs in order, not overlapping, of 1 to 255 points, all below `hi`. -/
def RunsOK : Nat → Runs → Nat → Prop
  | lo, [], hi => lo ≤ hi
  | lo, (a, n) :: t, hi => lo ≤ a ∧ 0 < n ∧ n ≤ 255 ∧ RunsOK (a + n) t hi

theorem RunsOK.mono {r : Runs} : ∀ {lo lo' hi hi' : Nat}, RunsOK lo r hi → lo' ≤ lo → hi ≤ hi' → RunsOK lo' r hi' := by
  induction r with
  | nil => intro lo lo' hi hi' h h1 h2; simp only [RunsOK] at *; omega
  | cons e t ih =>
    intro lo lo' hi hi' h h1 h2
    obtain ⟨a, n⟩ := e
    obtain ⟨k1, k2, k3, k4⟩ := h
    exact ⟨by omega, k2, k3, ih k4 (by omega) h2⟩

theorem RunsOK.le {r : Runs} : ∀ {lo hi : Nat}, RunsOK lo r hi → lo ≤ hi := by
  induction r with
  | nil => intro lo hi h; exact h
  | cons e t ih => intro lo hi h; have := ih h.2.2.2; have := h.1; omega

theorem RunsOK.append {r s : Runs} : ∀ {lo mid hi : Nat}, RunsOK lo r mid → RunsOK mid s hi → RunsOK lo (r ++ s) hi := by
  induction r with
  | nil => intro lo mid hi h1 h2; exact h2.mono h1 (le_refl _)
  | cons e t ih => intro lo mid hi h1 h2; exact ⟨h1.1, h1.2.1, h1.2.2.1, ih h1.2.2.2 h2⟩

theorem RunsOK.split {r s : Runs} : ∀ {lo hi : Nat}, RunsOK lo (r ++ s) hi → ∃ mid, RunsOK lo r mid ∧ RunsOK mid s hi := by
  induction r with
  | nil => intro lo hi h; exact ⟨lo, le_refl _, h⟩
  | cons e t ih =>
    intro lo hi h
    obtain ⟨mid, h1, h2⟩ := ih h.2.2.2
    exact ⟨mid, ⟨h.1, h.2.1, h.2.2.1, h1⟩, h2⟩

theorem RunsOK.mem {r : Runs} : ∀ {lo hi : Nat}, RunsOK lo r hi → ∀ e ∈ r, lo ≤ e.1 ∧ 0 < e.2 ∧ e.2 ≤ 255 ∧ e.1 + e.2 ≤ hi := by
  induction r with
  | nil => intro lo hi _ e he; simp at he
  | cons x t ih =>
    intro lo hi h e he
    obtain ⟨k1, k2, k3, k4⟩ := h
    rcases List.mem_cons.1 he with rfl | he
    · exact ⟨k1, k2, k3, k4.le⟩
    · have := ih k4 e he; exact ⟨by omega, this.2⟩

theorem RunsOK.keys_lt {r : Runs} {lo hi : Nat} (h : RunsOK lo r hi) : ∀ e ∈ r, e.1 < hi := by
  intro e he; have := h.mem e he; omega

theorem RunsOK.one {lo a : Nat} (h : lo ≤ a) : RunsOK lo [(a, 1)] (a + 1) := ⟨h, by omega, by omega, le_refl _⟩

theorem ids_append (r s : Runs) : ids (r ++ s) = ids r ++ ids s := by simp [ids]

theorem ids_single (a n : Nat) : ids [(a, n)] = (List.range n).map (a + ·) := by simp [ids]

theorem ids_cons (a n : Nat) (t : Runs) : ids ((a, n) :: t) = (List.range n).map (a + ·) ++ ids t := by simp [ids]

theorem ids_succ (r : Runs) (a n : Nat) : ids (r ++ [(a, n + 1)]) = ids (r ++ [(a, n)]) ++ [a + n] := by
  simp [ids, List.range_succ]

theorem ids_length (r : Runs) : (ids r).length = (r.map Prod.snd).sum := by
  induction r with
  | nil => rfl
  | cons e t ih => obtain ⟨a, n⟩ := e; rw [ids_cons]; simp [ih]

theorem RunsOK.length_le {r : Runs} : ∀ {lo hi : Nat}, RunsOK lo r hi → r.length ≤ (ids r).length := by
  induction r with
  | nil => intros; simp
  | cons e t ih =>
    intro lo hi h
    obtain ⟨a, n⟩ := e
    have := ih h.2.2.2
    have := h.2.1
    rw [ids_cons, List.length_append, List.length_map, List.length_range, List.length_cons]
    omega

theorem positions_append (f : Pt → Bool) (a b : List Pt) : ∀ n, positions f n (a ++ b) =
    positions f n a ++ positions f (n + a.length) b := by
  induction a with
  | nil => intro n; simp [positions]
  | cons p a ih =>
    intro n
    rw [List.cons_append]
    show (if f p then _ else _) = (if f p then _ else _) ++ _
    rw [ih, List.length_cons]
    have : n + 1 + a.length = n + (a.length + 1) := by omega
    split <;> simp [this]

theorem positions_length_le (f : Pt → Bool) (a : List Pt) : ∀ n, (positions f n a).length ≤ a.length := by
  induction a with
  | nil => intro n; simp [positions]
  | cons p a ih =>
    intro n
    have := ih (n + 1)
    unfold positions
    split <;> simp only [List.length_cons] <;> omega

theorem mem_positions (f : Pt → Bool) (a : List Pt) : ∀ n i, i ∈ positions f n a ↔ ∃ p, n ≤ i ∧ a[i - n]? = some p ∧ f p = true := by
  induction a with
  | nil => intro n i; simp [positions]
  | cons p a ih =>
    intro n i
    unfold positions
    have key : (∃ q, n + 1 ≤ i ∧ a[i - (n + 1)]? = some q ∧ f q = true) ↔
        (∃ q, n + 1 ≤ i ∧ (p :: a)[i - n]? = some q ∧ f q = true) := by
      apply exists_congr; intro q
      constructor
      · rintro ⟨h1, h2, h3⟩
        refine ⟨h1, ?_, h3⟩
        have : i - n = (i - (n + 1)) + 1 := by omega
        rw [this, List.getElem?_cons_succ]; exact h2
      · rintro ⟨h1, h2, h3⟩
        refine ⟨h1, ?_, h3⟩
        have : i - n = (i - (n + 1)) + 1 := by omega
        rw [this, List.getElem?_cons_succ] at h2; exact h2
    have split0 : (∃ q, n ≤ i ∧ (p :: a)[i - n]? = some q ∧ f q = true) ↔
        ((i = n ∧ f p = true) ∨ ∃ q, n + 1 ≤ i ∧ (p :: a)[i - n]? = some q ∧ f q = true) := by
      constructor
      · rintro ⟨q, h1, h2, h3⟩
        by_cases hi : i = n
        · subst hi; simp at h2; subst h2; exact Or.inl ⟨rfl, h3⟩
        · exact Or.inr ⟨q, by omega, h2, h3⟩
      · rintro (⟨rfl, h⟩ | ⟨q, h1, h2, h3⟩)
        · exact ⟨p, le_refl _, by simp, h⟩
        · exact ⟨q, by omega, h2, h3⟩
    split
    · rename_i hp
      rw [List.mem_cons, ih, split0, key]
      simp [hp]
    · rename_i hp
      rw [ih, split0, key]
      simp [hp]

end LibLAS.Index
