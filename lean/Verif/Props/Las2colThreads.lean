import Verif.Lemmas.Las2colThreads
import Verif.Spec.Las2colThreads
import Mathlib.Data.Finset.Card
import Mathlib.Data.List.Perm.Subperm
import Mathlib.Data.List.Range
import Mathlib.Combinatorics.Pigeonhole
/-
C80: las2col's threads, for every schedule.
-/
namespace LibLAS.Las2col
open Spec.Threads

theorem reached {c : Cfg} (hc : Sensible c) {sched : List Choice} {s : St} (h : Reaches c sched s) :
    (s.halt = none ∨ s.halt = some .exit ∧ ∃ k < c.files, ∃ e, c.read k = .throw e) ∧ ∃ taken, Inv c s taken :=
  inv_run hc.readers hc.read sched _ _ (.inl rfl) ⟨[], inv_start c hc.files⟩ h

/-- C80: no schedule leads to a dangling or NULL pointer being used, and the program gives up only if a file cannot be read. -/
theorem las2col_no_ub (c : Cfg) (hc : Sensible c) (sched : List Choice) (s : St) (h : Reaches c sched s) :
    s.halt ≠ some .ub ∧ (s.halt = some .exit → ∃ k < c.files, ∃ e, c.read k = .throw e) := by
  rcases (reached hc h).1 with h | ⟨h, h'⟩
  · simp [h]
  · exact ⟨by simp [h], fun _ => h'⟩

theorem cat_cols (c : Cfg) (l : List Nat) (hl : ∀ k ∈ l, ∃ f, c.read k = .ok f) :
    ∃ cols : Nat → Nat → List Byte, (∀ k ∈ l, c.read k = .ok (cols k)) ∧
      ∀ i, c.cat l i = (l.map fun k => cols k i).flatten := by
  refine ⟨fun k i => c.col k i, fun k hk => ?_, fun i => rfl⟩
  obtain ⟨f, hf⟩ := hl k hk
  rw [hf]
  congr
  funext i
  simp [Cfg.col, hf]

/-- C80: when the program is done, every column file is made of the columns of all input files, each once and whole, in one
order, the same for all columns. The file at place `j` of that order is `j` up to a multiple of the number of reading threads. -/
theorem las2col_columns (c : Cfg) (hc : Sensible c) (sched : List Choice) (s : St) (h : Reaches c sched s) (he : Finished s) :
    ∃ order : List Nat, order.Perm (List.range c.files) ∧
      (∀ j k, order[j]? = some k → k % c.readers = j % c.readers) ∧ Holds c s order := by
  obtain ⟨_, taken, I⟩ := reached hc h
  have he : s.mn = .ended := he
  have hcur : s.cur = none := by have := I.mcur; rw [he] at this; simpa using this
  have hl : s.left = 0 := I.mleft.mpr (.inr (.inr he))
  have hlen : taken.length = c.files := by have := I.cnt; rw [hl, hcur] at this; simpa using this
  have hsub : taken ⊆ List.range c.files := by
    intro k hk
    have := I.below k hk
    have := I.bound
    exact List.mem_range.mpr (by omega)
  have hp : taken.Perm (List.range c.files) :=
    (List.subperm_of_subset I.nodup hsub).perm_of_length_le (by rw [List.length_range, hlen])
  obtain ⟨cols, h1, h2⟩ := cat_cols c taken I.read
  exact ⟨taken, hp, I.order, cols, h1, fun i hi => by rw [(I.out i hi).1 hcur, h2]⟩

/-- C80: with one reading thread (the default) the order is that of the command line. -/
theorem las2col_in_order (c : Cfg) (hc : Sensible c) (h1 : c.readers = 1) (sched : List Choice) (s : St) (h : Reaches c sched s)
    (he : Finished s) : Holds c s (List.range c.files) := by
  obtain ⟨_, taken, I⟩ := reached hc h
  have he : s.mn = .ended := he
  have hcur : s.cur = none := by have := I.mcur; rw [he] at this; simpa using this
  have hl : s.left = 0 := I.mleft.mpr (.inr (.inr he))
  have hlen : taken.length = c.files := by have := I.cnt; rw [hl, hcur] at this; simpa using this
  have hsub : taken ⊆ List.range c.files := by
    intro k hk
    have := I.below k hk
    have := I.bound
    exact List.mem_range.mpr (by omega)
  have hp : taken.Perm (List.range c.files) :=
    (List.subperm_of_subset I.nodup hsub).perm_of_length_le (by rw [List.length_range, hlen])
  have he : taken = List.range c.files :=
    hp.eq_of_pairwise (fun _ _ _ _ h h' => absurd h (Nat.lt_asymm h')) (I.single h1).sorted List.pairwise_lt_range
  obtain ⟨cols, h2, h3⟩ := cat_cols c taken I.read
  exact ⟨cols, he ▸ h2, fun i hi => by rw [(I.out i hi).1 hcur, h3, he]⟩

/-- C80: at every moment, also if the program gives up, a column file holds whole columns of distinct files, in the same order
for all columns, and some may be one file ahead of others. -/
theorem las2col_always (c : Cfg) (hc : Sensible c) (sched : List Choice) (s : St) (h : Reaches c sched s) :
    ∃ (order : List Nat) (cols : Nat → Nat → List Byte), order.Nodup ∧ (∀ k ∈ order, k < c.files ∧ c.read k = .ok (cols k)) ∧
      ∀ i < c.columns, s.out i = (order.map fun k => cols k i).flatten ∨
        s.out i = (order.dropLast.map fun k => cols k i).flatten := by
  obtain ⟨_, taken, I⟩ := reached hc h
  refine ⟨taken, fun k i => c.col k i, I.nodup, fun k hk => ⟨?_, ?_⟩, fun i hi => ?_⟩
  · have := I.below k hk
    have := I.bound
    omega
  · obtain ⟨f, hf⟩ := I.read k hk
    rw [hf]
    congr
    funext i
    simp [Cfg.col, hf]
  · cases hcur : s.cur with
    | none => exact .inl ((I.out i hi).1 hcur)
    | some b =>
      by_cases h1 : b.cols i = none ∨ s.wr i = .clear
      · exact .inl (((I.out i hi).2 b hcur).1 h1)
      · rw [not_or] at h1
        exact .inr (((I.out i hi).2 b hcur).2 h1.1 h1.2)

/-- If all files of a residue class below `n` are among the first `t` taken, which are taken class by class in turn, then `n` is at most `t`. -/
theorem class_count {N n : Nat} (hN : 0 < N) {taken : List Nat} (hnd : taken.Nodup)
    (hord : ∀ j k, taken[j]? = some k → k % N = j % N)
    (hall : ∀ k < n, k % N = taken.length % N → k ∈ taken) : n ≤ taken.length := by
  by_contra hlt
  have hlt : taken.length < n := by omega
  have hm := Nat.mod_add_div taken.length N
  generalize hr : taken.length % N = r at *
  generalize hq : taken.length / N = q at *
  have hrN : r < N := by rw [← hr]; exact Nat.mod_lt _ hN
  have hmem : ∀ i < q + 1, r + N * i ∈ taken := by
    intro i hi
    refine hall _ ?_ ?_
    · have : N * i ≤ N * q := Nat.mul_le_mul_left _ (by omega)
      omega
    · rw [Nat.add_mul_mod_self_left]; exact Nat.mod_eq_of_lt hrN
  have hpos : ∀ i < q + 1, taken.idxOf (r + N * i) / N < q := by
    intro i hi
    have h1 := List.idxOf_lt_length_of_mem (hmem i hi)
    have h2 := hord _ _ (List.getElem?_idxOf (hmem i hi))
    rw [Nat.add_mul_mod_self_left, Nat.mod_eq_of_lt hrN] at h2
    generalize taken.idxOf (r + N * i) = x at *
    have h3 := Nat.mod_add_div x N
    rw [← h2] at h3
    have : N * (x / N) < N * q := by omega
    exact Nat.lt_of_mul_lt_mul_left this
  obtain ⟨x, hx, y, hy, hne, he⟩ := Finset.exists_ne_map_eq_of_card_lt_of_maps_to (s := Finset.range (q + 1)) (t := Finset.range q)
    (by simp) (f := fun i => taken.idxOf (r + N * i) / N) (fun i hi => by
      have := hpos i (by simpa using hi)
      simpa using this)
  simp only [Finset.mem_range] at hx hy
  have h1 := hord _ _ (List.getElem?_idxOf (hmem x hx))
  have h2 := hord _ _ (List.getElem?_idxOf (hmem y hy))
  rw [Nat.add_mul_mod_self_left, Nat.mod_eq_of_lt hrN] at h1 h2
  have h3 := Nat.mod_add_div (taken.idxOf (r + N * x)) N
  have h4 := Nat.mod_add_div (taken.idxOf (r + N * y)) N
  rw [← h1, he] at h3
  rw [← h2] at h4
  have h5 : taken.idxOf (r + N * x) = taken.idxOf (r + N * y) := by omega
  rw [List.idxOf_inj (hmem x hx)] at h5
  have h6 : N * x = N * y := by omega
  exact hne (Nat.eq_of_mul_eq_mul_left hN h6)

/-- C80: the only way to hang. When no thread can run, either the program is done (or has given up), or `main` sleeps although
everything it waits for has happened. -/
theorem las2col_stuck (c : Cfg) (hc : Sensible c) (sched : List Choice) (s : St) (h : Reaches c sched s) (hh : s.halt = none)
    (hs : Stuck c s) : Finished s ∨ LostWakeup c s := by
  obtain ⟨_, taken, I⟩ := reached hc h
  obtain ⟨hm, hr, hw⟩ := hs
  have hn : s.halt.isSome = false := by rw [hh]; rfl
  simp only [step, hn, Bool.false_eq_true, if_false] at hm hr hw
  have hrd : ∀ j < c.readers, (∃ b, s.rd j = .wait b) ∨ s.rd j = .gone := by
    intro j hj
    have := hr j
    rw [if_pos hj, readerStep] at this
    split at this
    · split at this <;> cases this
    · split at this <;> cases this
    · split at this <;> cases this
    · exact .inl ⟨_, by assumption⟩
    · exact .inr (by assumption)
  have hwr : ∀ i < c.columns, s.wr i = .wait ∨ s.wr i = .gone := by
    intro i hi
    have := hw i
    rw [if_pos hi, writerStep] at this
    split at this
    · cases this
    · split at this <;> cases this
    · exact .inl (by assumption)
    · cases this
    · split at this
      · cases this
      · split at this <;> cases this
    · split at this <;> cases this
    · cases this
    · exact .inr (by assumption)
  rw [mainStep] at hm
  split at hm
  · split at hm
    · split at hm <;> cases hm
    · cases hm
  · -- waiting for a batch
    rename_i hmn
    exfalso
    have hd := I.mwait hmn
    have hcur : s.cur = none := by have := I.mcur; rw [hmn] at this; simpa using this
    have hleft : s.left ≠ 0 := by
      intro e; have := I.mleft.mp e; rw [hmn] at this; simp at this
    have hcnt := I.cnt
    rw [hcur] at hcnt
    simp only [Option.isSome_none, Bool.false_eq_true, if_false, Nat.add_zero] at hcnt
    have hall : ∀ k < s.next, k % c.readers = taken.length % c.readers → k ∈ taken := by
      intro k hk he
      rw [← I.slot] at he
      rcases I.complete k hk with h | ⟨n, b, h1, h2⟩ | ⟨j, hj, h1⟩
      · exact h
      · have := (I.slots n b h1).1
        rw [h2, he] at this
        rw [← this, hd] at h1; cases h1
      · rcases hrd j hj with ⟨b, hb⟩ | hb
        · obtain ⟨b', hb'⟩ := I.rwait j b hb
          rw [hb] at h1
          have : b.file = k := by simpa [RPc.holds] using h1
          rw [this, he, hd] at hb'; cases hb'
        · rw [hb] at h1; cases h1
    have hle := class_count hc.readers I.nodup I.order hall
    have hsub : taken ⊆ List.range s.next := fun k hk => List.mem_range.mpr (I.below k hk)
    have hsp := List.subperm_of_subset I.nodup hsub
    have hlen : taken.length = s.next := by
      have := hsp.length_le
      rw [List.length_range] at this
      omega
    have hperm : taken.Perm (List.range s.next) := hsp.perm_of_length_le (by rw [List.length_range, hlen])
    rcases hrd 0 hc.readers with ⟨b, hb⟩ | hb
    · obtain ⟨h1, h2, _⟩ := I.held 0 b.file (by rw [hb]; rfl)
      exact h2 (hperm.mem_iff.mpr (List.mem_range.mpr h1))
    · have := I.rgone 0 hb
      omega
  · cases hm
  · rename_i hmn
    right
    refine ⟨hmn, ?_⟩
    have hcs : s.cur.isSome = true := I.mcur.mpr (by simp [hmn])
    obtain ⟨b, hb⟩ := Option.isSome_iff_exists.mp hcs
    refine ⟨b, hb, fun i hi => ?_⟩
    rcases hwr i hi with e | e
    · exact (I.wwait i e).2 b hb
    · have := I.wgone i e
      have := I.mstop.mp this
      rw [hmn] at this; simp at this
  · split at hm
    · cases hm
    · split at hm <;> cases hm
  · cases hm
  · -- joining
    rename_i hmn
    exfalso
    rw [ite_eq_right_iff] at hm
    have : (List.range c.columns).all (fun i => decide (s.wr i = .gone)) = true := by
      simp only [List.all_eq_true, List.mem_range, decide_eq_true_eq]
      intro i hi
      rcases hwr i hi with e | e
      · have h1 := (I.wwait i e).1
        rw [I.mstop.mpr (.inl hmn)] at h1; cases h1
      · exact e
    exact absurd (hm this) (by simp)
  · left; assumption

/-! ### What goes wrong -/

def Choice.thread : Choice → Bool
  | .main => true
  | .reader _ => true
  | .writer _ => true
  | _ => false

theorem noSpurious {sched : List Choice} (h : sched.all Choice.thread = true) : NoSpurious sched := by
  intro ch hc
  have := List.all_eq_true.mp h ch hc
  cases ch <;> simp_all [Choice.thread]

/-- A run in which the column of file `k` is the one byte `k`. -/
def sample (files readers : Nat) : Cfg := ⟨files, readers, 1, fun k => .ok fun _ => [BitVec.ofNat 8 k]⟩

theorem sample_sensible (files readers : Nat) (h : 0 < files) (h' : 0 < readers) : Sensible (sample files readers) :=
  ⟨h, h', fun _ _ => by simp [sample]⟩

/-- The writing thread does its work, up to but without telling `main`. -/
def writes : List Choice := [.writer 0, .writer 0, .writer 0, .writer 0, .writer 0]

theorem exists_of_any {o : Option St} {p : St → Bool} (h : o.any p = true) : ∃ s, o = some s ∧ p s = true := by
  cases o with
  | none => cases h
  | some s => exact ⟨s, rfl, h⟩

/-- A schedule that ends well: one file, one column. -/
example : ∃ s, Reaches (sample 1 1) ([.reader 0, .reader 0, .reader 0, .main] ++ writes ++ [.main, .writer 0, .main, .main, .writer 0, .main]) s ∧
    Finished s ∧ Holds (sample 1 1) s (List.range 1) := by
  obtain ⟨s, h, hp⟩ := exists_of_any (o := run (sample 1 1) (start (sample 1 1))
    ([.reader 0, .reader 0, .reader 0, .main] ++ writes ++ [.main, .writer 0, .main, .main, .writer 0, .main]))
    (p := fun s => decide (s.mn = .ended) && s.out 0 == [0]) (by decide +kernel)
  simp only [Bool.and_eq_true, decide_eq_true_eq, beq_iff_eq] at hp
  refine ⟨s, h, hp.1, fun k _ => [BitVec.ofNat 8 k], fun _ _ => rfl, fun i hi => ?_⟩
  obtain rfl : i = 0 := by simpa [sample] using hi
  exact hp.2

/-- C80 refuted: the program may hang. If the writing thread is done before `main` goes to sleep, nobody wakes `main`. -/
theorem las2col_may_hang : ∃ sched s, NoSpurious sched ∧ Reaches (sample 1 1) sched s ∧ s.halt = none ∧
    Stuck (sample 1 1) s ∧ ¬ Finished s := by
  obtain ⟨s, h, hp⟩ := exists_of_any (o := run (sample 1 1) (start (sample 1 1))
    ([.reader 0, .reader 0, .reader 0, .reader 0, .main] ++ writes ++ [.writer 0, .writer 0, .writer 0, .main]))
    (p := fun s => s.halt.isNone && (step (sample 1 1) s .main).isNone && (step (sample 1 1) s (.reader 0)).isNone &&
      (step (sample 1 1) s (.writer 0)).isNone && decide (s.mn ≠ .ended)) (by decide +kernel)
  simp only [Bool.and_eq_true, decide_eq_true_eq, Option.isNone_iff_eq_none] at hp
  obtain ⟨⟨⟨⟨h1, h2⟩, h3⟩, h4⟩, h5⟩ := hp
  refine ⟨_, s, ?_, h, h1, ⟨h2, ?_, ?_⟩, h5⟩
  · exact noSpurious (by decide)
  · rintro (_ | j)
    · exact h3
    · simp [step, sample]
  · rintro (_ | j)
    · exact h4
    · simp [step, sample]

/-- C80 refuted: with two reading threads, a slow file is overtaken: the third file is written before the first. -/
theorem las2col_overtaken : ∃ sched s, NoSpurious sched ∧ Reaches (sample 3 2) sched s ∧ Finished s ∧ s.out 0 = [2, 1, 0] := by
  obtain ⟨s, h, hp⟩ := exists_of_any (o := run (sample 3 2) (start (sample 3 2))
    ([.reader 0, .reader 1, .reader 1, .reader 1, .reader 1, .reader 1, .reader 1] ++
    [.main] ++ writes ++ [.main, .writer 0, .main] ++ [.main] ++ writes ++ [.main, .writer 0, .main] ++
    [.reader 0, .reader 0, .main] ++ writes ++ [.main, .writer 0, .main] ++ [.main, .writer 0, .main]))
    (p := fun s => decide (s.mn = .ended) && s.out 0 == [2, 1, 0]) (by decide +kernel)
  simp only [Bool.and_eq_true, decide_eq_true_eq, beq_iff_eq] at hp
  exact ⟨_, s, noSpurious (by decide), h, hp.1, hp.2⟩

end LibLAS.Las2col
