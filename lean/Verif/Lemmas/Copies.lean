import Verif.Spec.Copies
import Mathlib.Data.List.Induction
/-
Counting the objects that stand for a file.
-/
namespace LibLAS.Copies
open Spec

variable {F S C R Z : Type}

/-- What an implementation held by `n` objects is. -/
def entry (K : Kind F S C R Z) (n : Nat) (s : S) : Impl S Z := if n = 0 then .gone (K.close s) else .live n s

/-- The implementations are those of the files, held by as many objects as `cnt` says. -/
structure Fits (K : Kind F S C R Z) (files : List (F × List C)) (cnt : Nat → Nat) (impls : List (Impl S Z)) : Prop where
  length : impls.length = files.length
  entries : ∀ k f cs, files[k]? = some (f, cs) → ∃ s r, alone K f cs = .ok (s, r) ∧ impls[k]? = some (entry K (cnt k) s)

/-- The world is as the bookkeeping says. -/
structure Good (K : Kind F S C R Z) (l : Ledger F C) (w : World S Z) : Prop where
  objs : w.objs = l.stands
  fits : Fits K l.files (fun k => l.stands.count (some k)) w.impls
  known : ∀ k, some k ∈ l.stands → k < l.files.length

theorem alone_snoc (K : Kind F S C R Z) (f : F) (cs : List C) (c : C) :
    alone K f (cs ++ [c]) = alone K f cs >>= fun a => K.call a.1 c >>= fun b => pure (b.1, some b.2) := by
  unfold alone
  rw [List.foldl_append]
  rfl

theorem run_snoc (K : Kind F S C R Z) (ops : List (Op F C)) (op : Op F C) :
    run K (ops ++ [op]) = run K ops >>= fun a => step K a.1 op := by
  unfold run
  rw [List.foldl_append]
  rfl

theorem ledger_snoc (ops : List (Op F C)) (op : Op F C) : ledger (ops ++ [op]) = (ledger ops).note op := by
  unfold ledger
  rw [List.foldl_append]
  rfl

private theorem file_of {files : List (F × List C)} {k : Nat} (h : k < files.length) : ∃ f cs, files[k]? = some (f, cs) :=
  ⟨files[k].1, files[k].2, by rw [List.getElem?_eq_getElem h]⟩

theorem Fits.set {K : Kind F S C R Z} {files : List (F × List C)} {cnt cnt' : Nat → Nat} {impls : List (Impl S Z)}
    (h : Fits K files cnt impls) {k : Nat} {f : F} {cs : List C} {s : S} {r : Option R} (hk : files[k]? = some (f, cs))
    (hs : alone K f cs = .ok (s, r)) (hc : ∀ j, j ≠ k → cnt' j = cnt j) :
    Fits K files cnt' (impls.set k (entry K (cnt' k) s)) := by
  obtain ⟨hl, he⟩ := h
  have hlt : k < impls.length := by rw [hl]; exact (List.getElem?_eq_some_iff.1 hk).1
  refine ⟨by rw [List.length_set]; exact hl, fun j g ds hj => ?_⟩
  by_cases e : j = k
  · subst e
    rw [hk] at hj
    injection hj with hj
    injection hj with e1 e2
    subst e1 e2
    exact ⟨s, r, hs, by rw [List.getElem?_set_self hlt]⟩
  · obtain ⟨t, q, h1, h2⟩ := he j g ds hj
    exact ⟨t, q, h1, by rw [List.getElem?_set_ne (Ne.symm e), h2, hc j e]⟩

theorem acquire_ok {K : Kind F S C R Z} {files : List (F × List C)} {cnt : Nat → Nat} {w : World S Z}
    (h : Fits K files cnt w.impls) {k : Nat} (hk : k < files.length) (h0 : 0 < cnt k) {cnt' : Nat → Nat}
    (h1 : cnt' k = cnt k + 1) (h2 : ∀ j, j ≠ k → cnt' j = cnt j) :
    ∃ w', acquire w k = .ok w' ∧ w'.objs = w.objs ∧ Fits K files cnt' w'.impls := by
  obtain ⟨f, cs, hf⟩ := file_of hk
  obtain ⟨s, r, e1, e2⟩ := h.entries k f cs hf
  have := h.set hf e1 h2
  unfold entry at e2
  rw [if_neg (by omega)] at e2
  unfold acquire
  rw [e2]
  refine ⟨_, rfl, rfl, ?_⟩
  unfold entry at this
  rw [if_neg (by omega), h1] at this
  exact this

theorem release_ok {K : Kind F S C R Z} {files : List (F × List C)} {cnt : Nat → Nat} {w : World S Z}
    (h : Fits K files cnt w.impls) {k : Nat} (hk : k < files.length) (h0 : 0 < cnt k) {cnt' : Nat → Nat}
    (h1 : cnt' k = cnt k - 1) (h2 : ∀ j, j ≠ k → cnt' j = cnt j) :
    ∃ w', release K w k = .ok w' ∧ w'.objs = w.objs ∧ Fits K files cnt' w'.impls := by
  obtain ⟨f, cs, hf⟩ := file_of hk
  obtain ⟨s, r, e1, e2⟩ := h.entries k f cs hf
  have := h.set hf e1 h2
  unfold entry at e2
  rw [if_neg (by omega)] at e2
  unfold release
  rw [e2]
  obtain ⟨n, hn⟩ : ∃ n, cnt k = n + 1 := ⟨cnt k - 1, by omega⟩
  rw [hn] at h1 ⊢
  rw [h1] at this
  unfold entry at this
  cases n with
  | zero => exact ⟨_, rfl, rfl, by simpa using this⟩
  | succ n =>
    refine ⟨_, rfl, rfl, ?_⟩
    rw [if_neg (by omega)] at this
    exact this

theorem Fits.cong {K : Kind F S C R Z} {files : List (F × List C)} {cnt cnt' : Nat → Nat} {impls : List (Impl S Z)}
    (h : Fits K files cnt impls) (hc : ∀ k, cnt' k = cnt k) : Fits K files cnt' impls :=
  (funext hc : cnt' = cnt) ▸ h

private theorem count_pos {l : List (Option Nat)} {i k : Nat} (h : l[i]? = some (some k)) : 0 < l.count (some k) :=
  List.count_pos_iff.2 (List.mem_of_getElem? h)

private theorem count_set' {l : List (Option Nat)} {i k : Nat} {x : Option Nat} (h : l[i]? = some (some k)) (j : Nat) :
    (l.set i x).count (some j) = l.count (some j) - (if k = j then 1 else 0) + (if x = some j then 1 else 0) := by
  obtain ⟨hi, e⟩ := List.getElem?_eq_some_iff.1 h
  rw [List.count_set hi, e]
  simp

/-- A step that uses living objects: what it does is what the bookkeeping says, and it fails only if a call of one of the
files, or opening a new one, does. -/
theorem step_good {K : Kind F S C R Z} {l : Ledger F C} {w : World S Z} (h : Good K l w) (op : Op F C) (hu : Uses l op) :
    (∃ w' r, step K w op = .ok (w', r) ∧ Good K (l.note op) w') ∨
    (∃ f, op = .make f ∧ step K w op = (K.make f >>= fun _ => .ub) ∧ ∀ s, K.make f ≠ .ok s) ∨
    (∃ i c k f cs s r, op = .call i c ∧ l.stands[i]? = some (some k) ∧ l.files[k]? = some (f, cs) ∧
      alone K f cs = .ok (s, r) ∧ step K w op = (K.call s c >>= fun _ => .ub) ∧ ∀ b, K.call s c ≠ .ok b) := by
  obtain ⟨objs, impls⟩ := w
  obtain ⟨stands, files⟩ := l
  obtain ⟨ho, hf, hk⟩ := h
  dsimp only at ho hf hk
  subst ho
  cases op with
  | make f =>
    cases e : K.make f with
    | throw x => exact Or.inr (Or.inl ⟨f, rfl, by show (K.make f >>= _) = _; rw [e]; rfl, by simp [e]⟩)
    | ub => exact Or.inr (Or.inl ⟨f, rfl, by show (K.make f >>= _) = _; rw [e]; rfl, by simp [e]⟩)
    | ok s =>
      refine Or.inl ⟨_, _, by show (K.make f >>= _) = _; rw [e]; rfl, ?_, ?_, ?_⟩
      · show _ = objs ++ [some files.length]
        rw [← hf.length]
      · refine ⟨by simp [Ledger.note, hf.length], fun k g cs hg => ?_⟩
        have hg : (files ++ [(f, [])])[k]? = some (g, cs) := hg
        show ∃ t r, alone K g cs = .ok (t, r) ∧ (impls ++ [.live 1 s])[k]? = some (entry K ((objs ++ [some files.length]).count (some k)) t)
        rcases Nat.lt_trichotomy k files.length with hlt | heq | hgt
        · rw [List.getElem?_append_left hlt] at hg
          obtain ⟨t, r, e1, e2⟩ := hf.entries k g cs hg
          refine ⟨t, r, e1, ?_⟩
          rw [List.getElem?_append_left (by rw [hf.length]; exact hlt), e2, List.count_append]
          have : List.count (some k) [some files.length] = 0 := by
            rw [List.count_singleton]; simp; omega
          rw [this, Nat.add_zero]
        · subst heq
          rw [List.getElem?_append_right (Nat.le_refl _), Nat.sub_self] at hg
          injection hg with hg
          injection hg with e1 e2
          subst e1 e2
          have : List.count (some files.length) objs = 0 := by
            rw [List.count_eq_zero]
            intro hm
            exact absurd (hk _ hm) (Nat.lt_irrefl _)
          refine ⟨s, none, by unfold alone; rw [e]; rfl, ?_⟩
          rw [List.getElem?_append_right (by rw [hf.length]), hf.length, Nat.sub_self, List.count_append, this]
          simp [entry]
        · rw [List.getElem?_eq_none (by simp; omega)] at hg
          cases hg
      · intro k hm
        have hm : some k ∈ objs ++ [some files.length] := hm
        show k < (files ++ [(f, [])]).length
        rcases List.mem_append.1 hm with hm | hm
        · have := hk k hm; simp; omega
        · simp at hm; simp; omega
  | copy i =>
    obtain ⟨k, hi⟩ := hu
    have hi : objs[i]? = some (some k) := hi
    have hlt := hk k (List.mem_of_getElem? hi)
    obtain ⟨w', e1, e2, e3⟩ := acquire_ok (w := ⟨objs, impls⟩) hf hlt (count_pos hi)
      (cnt' := fun j => (objs ++ [some k]).count (some j)) (by simp) (by intro j hj; simp [List.count_append, List.count_singleton]; omega)
    have hn : (Ledger.note ⟨objs, files⟩ (.copy i) : Ledger F C) = ⟨objs ++ [some k], files⟩ := by
      show (⟨objs ++ [objs[i]?.join], files⟩ : Ledger F C) = _
      rw [hi]; rfl
    refine Or.inl ⟨{ w' with objs := w'.objs ++ [some k] }, none, ?_, ?_⟩
    · unfold step
      dsimp only
      rw [hi]
      dsimp only
      rw [e1]
      rfl
    · rw [hn]
      exact ⟨by dsimp only; rw [e2], e3, fun j hj => by
        rcases List.mem_append.1 hj with hj | hj
        · exact hk j hj
        · simp at hj; subst hj; exact hlt⟩
  | assign i j =>
    obtain ⟨⟨k, hi⟩, ⟨m, hj⟩⟩ := hu
    have hi : objs[i]? = some (some k) := hi
    have hj : objs[j]? = some (some m) := hj
    have hlk := hk k (List.mem_of_getElem? hi)
    have hlm := hk m (List.mem_of_getElem? hj)
    have hn : (Ledger.note ⟨objs, files⟩ (.assign i j) : Ledger F C) = ⟨objs.set i (some m), files⟩ := by
      show (⟨objs.set i objs[j]?.join, files⟩ : Ledger F C) = _
      rw [hj]; rfl
    rw [hn]
    by_cases hij : i = j
    · subst hij
      have hmk : m = k := by rw [hi] at hj; simpa using hj.symm
      subst hmk
      have hset : objs.set i (some m) = objs := by
        obtain ⟨hl, e⟩ := List.getElem?_eq_some_iff.1 hi
        rw [← e, List.set_getElem_self]
      rw [hset]
      refine Or.inl ⟨⟨objs, impls⟩, none, ?_, rfl, hf, hk⟩
      unfold step
      dsimp only
      rw [hi]
      simp
    · obtain ⟨w', e1, e2, e3⟩ := acquire_ok (w := ⟨objs, impls⟩) hf hlm (count_pos hj)
        (cnt' := fun n => objs.count (some n) + (if n = m then 1 else 0)) (by simp) (by intro n hn; simp [hn])
      have hc := count_pos hi
      obtain ⟨w'', f1, f2, f3⟩ := release_ok (w := w') e3 hlk (k := k) (by omega)
        (cnt' := fun n => (objs.set i (some m)).count (some n))
        (by
          skip
          rw [count_set' hi]
          by_cases e : k = m
          · subst e; simp; omega
          · have : ¬ m = k := fun h => e h.symm
            simp [e, this])
        (by
          intro n hn
          skip
          rw [count_set' hi, if_neg (fun h => hn h.symm)]
          by_cases e : n = m
          · subst e; simp
          · have : ¬ m = n := fun h => e h.symm
            simp [e, this])
      refine Or.inl ⟨{ w'' with objs := w''.objs.set i (some m) }, none, ?_, ?_⟩
      · unfold step
        dsimp only
        rw [hi, hj]
        dsimp only
        rw [if_neg hij, e1]
        show (release K w' k >>= _) = _
        rw [f1]
        rfl
      · refine ⟨by dsimp only; rw [f2, e2], f3, fun n hn => ?_⟩
        rcases List.mem_or_eq_of_mem_set hn with hn | hn
        · exact hk n hn
        · injection hn with hn; subst hn; exact hlm
  | destroy i =>
    obtain ⟨k, hi⟩ := hu
    have hi : objs[i]? = some (some k) := hi
    have hlk := hk k (List.mem_of_getElem? hi)
    obtain ⟨w', e1, e2, e3⟩ := release_ok (w := ⟨objs, impls⟩) hf hlk (count_pos hi)
      (cnt' := fun n => (objs.set i none).count (some n))
      (by rw [count_set' hi]; simp)
      (by intro n hn; rw [count_set' hi, if_neg (fun h => hn h.symm)]; simp)
    refine Or.inl ⟨{ w' with objs := w'.objs.set i none }, none, ?_, ?_⟩
    · unfold step
      dsimp only
      rw [hi]
      dsimp only
      rw [e1]
      rfl
    · refine ⟨by dsimp only [Ledger.note]; rw [e2], e3, fun n hn => ?_⟩
      rcases List.mem_or_eq_of_mem_set hn with hn | hn
      · exact hk n hn
      · cases hn
  | call i c =>
    obtain ⟨k, hi⟩ := hu
    have hi : objs[i]? = some (some k) := hi
    have hlk := hk k (List.mem_of_getElem? hi)
    obtain ⟨f, cs, hfk⟩ := file_of hlk
    obtain ⟨s, r, e1, e2⟩ := hf.entries k f cs hfk
    have hpos := count_pos hi
    unfold entry at e2
    rw [if_neg (by omega)] at e2
    have hstep : step K ⟨objs, impls⟩ (.call i c) = K.call s c >>= fun b =>
        pure (⟨objs, impls.set k (.live (objs.count (some k)) b.1)⟩, some b.2) := by
      unfold step
      dsimp only
      rw [hi]
      dsimp only
      rw [e2]
    cases e : K.call s c with
    | throw x => exact Or.inr (Or.inr ⟨i, c, k, f, cs, s, r, rfl, hi, hfk, e1, by rw [hstep, e]; rfl, by simp [e]⟩)
    | ub => exact Or.inr (Or.inr ⟨i, c, k, f, cs, s, r, rfl, hi, hfk, e1, by rw [hstep, e]; rfl, by simp [e]⟩)
    | ok b =>
      have hn : (Ledger.note ⟨objs, files⟩ (.call i c) : Ledger F C) =
          ⟨objs, files.modify k fun p => (p.1, p.2 ++ [c])⟩ := by
        show (match objs[i]?.join with | some k => _ | none => _) = _
        rw [hi]; rfl
      refine Or.inl ⟨_, _, by rw [hstep, e]; rfl, ?_⟩
      rw [hn]
      refine ⟨rfl, ⟨by simp [hf.length], fun j g ds hj => ?_⟩, fun n hm => by rw [List.length_modify]; exact hk n hm⟩
      dsimp only at hj ⊢
      by_cases ej : j = k
      · subst ej
        rw [List.getElem?_modify, hfk] at hj
        simp only [if_pos, Option.map_some, Option.map_eq_map, Option.some.injEq, Prod.mk.injEq] at hj
        obtain ⟨rfl, rfl⟩ := hj
        refine ⟨b.1, some b.2, by rw [alone_snoc, e1]; show (K.call s c >>= _) = _; rw [e]; rfl, ?_⟩
        rw [List.getElem?_set_self (by rw [hf.length]; exact hlk)]
        unfold entry
        rw [if_neg (by omega)]
      · rw [List.getElem?_modify] at hj
        simp only [if_neg (Ne.symm ej), Option.map_eq_map, Option.map_id_fun, id_eq, Option.map_id'] at hj
        obtain ⟨t, q, g1, g2⟩ := hf.entries j g ds hj
        exact ⟨t, q, g1, by rw [List.getElem?_set_ne (Ne.symm ej), g2]⟩

private theorem dead_object {l : Ledger F C} {i : Nat} (h : ¬ l.Alive i) : l.stands[i]? = none ∨ l.stands[i]? = some none := by
  cases hg : l.stands[i]? with
  | none => exact Or.inl rfl
  | some o =>
    cases o with
    | none => exact Or.inr rfl
    | some k => exact absurd ⟨k, hg⟩ h

/-- A step that uses a destroyed object is undefined. -/
theorem step_dead {K : Kind F S C R Z} {l : Ledger F C} {w : World S Z} (h : Good K l w) {op : Op F C}
    (hu : ¬ Uses l op) : step K w op = .ub := by
  obtain ⟨objs, impls⟩ := w
  obtain ⟨ho, -, -⟩ := h
  dsimp only at ho
  subst ho
  cases op with
  | make f => exact absurd trivial hu
  | copy i => unfold step; rcases dead_object hu with e | e <;> · dsimp only; rw [e]
  | destroy i => unfold step; rcases dead_object hu with e | e <;> · dsimp only; rw [e]
  | call i c => unfold step; rcases dead_object hu with e | e <;> · dsimp only; rw [e]
  | assign i j =>
    unfold step
    by_cases hi : l.Alive i
    · have hj : ¬ l.Alive j := fun hj => hu ⟨hi, hj⟩
      obtain ⟨k, hi⟩ := hi
      rcases dead_object hj with e | e <;> · dsimp only; rw [hi, e]
    · rcases dead_object hi with e | e <;> · dsimp only; rw [e]

/-- A step that succeeds uses living objects. -/
theorem step_uses {K : Kind F S C R Z} {l : Ledger F C} {w : World S Z} (h : Good K l w) {op : Op F C}
    {x : World S Z × Option R} (hx : step K w op = .ok x) : Uses l op := by
  by_contra hn
  rw [step_dead h hn] at hx
  cases hx

/-- Every program that ends leaves the world its bookkeeping says. -/
theorem run_good (K : Kind F S C R Z) (ops : List (Op F C)) : ∀ w r, run K ops = .ok (w, r) → Good K (ledger ops) w := by
  induction ops using List.reverseRecOn with
  | nil =>
    intro w r h
    injection h with h
    injection h with h1 h2
    subst h1
    exact ⟨rfl, ⟨rfl, fun k f cs hk => by simp [ledger] at hk⟩, fun k hk => by simp [ledger] at hk⟩
  | append_singleton ops op ih =>
    intro w r h
    rw [run_snoc] at h
    cases e : run K ops with
    | throw x => rw [e] at h; cases h
    | ub => rw [e] at h; cases h
    | ok a =>
      rw [e] at h
      have h : step K a.1 op = .ok (w, r) := h
      have hg := ih a.1 a.2 e
      rw [ledger_snoc]
      rcases step_good hg op (step_uses hg h) with ⟨w', r', h1, h2⟩ | ⟨f, -, h1, h2⟩ | ⟨i, c, k, f, cs, s, q, -, -, -, -, h1, h2⟩
      · rw [h] at h1
        injection h1 with h1
        injection h1 with h1 _
        subst h1
        exact h2
      · rw [h] at h1
        cases e2 : K.make f with
        | ok s => exact absurd e2 (h2 s)
        | throw x => rw [e2] at h1; cases h1
        | ub => rw [e2] at h1; cases h1
      · rw [h] at h1
        cases e2 : K.call s c with
        | ok s => exact absurd e2 (h2 s)
        | throw x => rw [e2] at h1; cases h1
        | ub => rw [e2] at h1; cases h1

end LibLAS.Copies
