import Verif.Props.Las2colThreads
import Mathlib.Algebra.Order.BigOperators.Group.Finset
import Mathlib.Algebra.BigOperators.Intervals
import Mathlib.Tactic.Ring
/-
C80: every schedule of las2col's threads ends.
-/
namespace LibLAS.Las2col
open Spec.Threads Finset

def rdw : RPc → Nat
  | .next => 1
  | .reading _ => 3
  | .put _ => 2
  | .wait _ => 2
  | .gone => 0

def mw : MPc → Nat
  | .take => 2
  | .takeWait => 2
  | .told => 1
  | .doneWait => 0
  | .check => 0
  | .finish => 2
  | .join => 1
  | .ended => 0

def ww : WPc → Nat
  | .top => 5
  | .check => 4
  | .wait => 4
  | .go => 3
  | .write => 2
  | .clear => 1
  | .tell => 6
  | .gone => 0

/-- Batches still to be written for column `i`. -/
def due (s : St) (i : Nat) : Nat :=
  s.left - (match s.cur with | some b => if (b.cols i).isNone then 1 else 0 | none => 0)

/-- What is still to be done. -/
def work (c : Cfg) (s : St) : Nat :=
  3 * (c.files - s.next) + ∑ j ∈ range c.readers, rdw (s.rd j) + (3 * s.left + mw s.mn) +
    ∑ i ∈ range c.columns, (6 * due s i + ww (s.wr i))

def rAwake : RPc → Nat
  | .put _ => 1
  | _ => 0

def mAwake : MPc → Nat
  | .take => 1
  | .check => 1
  | _ => 0

def wAwake : WPc → Nat
  | .check => 1
  | _ => 0

/-- Threads about to test what they wait for. -/
def awake (c : Cfg) (s : St) : Nat :=
  ∑ j ∈ range c.readers, rAwake (s.rd j) + mAwake s.mn + ∑ i ∈ range c.columns, wAwake (s.wr i)

theorem sum_upd {α : Type} (f : Nat → α) (w : α → Nat) {j n : Nat} (hj : j < n) (a : α) :
    ∑ i ∈ range n, w (upd f j a i) + w (f j) = ∑ i ∈ range n, w (f i) + w a := by
  rw [← add_sum_erase (range n) (fun i => w (f i)) (mem_range.mpr hj),
    ← add_sum_erase (range n) (fun i => w (upd f j a i)) (mem_range.mpr hj)]
  have : ∑ i ∈ (range n).erase j, w (upd f j a i) = ∑ i ∈ (range n).erase j, w (f i) := by
    refine sum_congr rfl fun i hi => ?_
    rw [upd_ne _ _ (ne_of_mem_erase hi)]
  rw [this, upd_self]
  ring

theorem sum_upd2 (f : Nat → WPc) (d : Nat → Nat) {j n : Nat} (hj : j < n) (a : WPc) :
    ∑ i ∈ range n, (6 * d i + ww (upd f j a i)) + ww (f j) = ∑ i ∈ range n, (6 * d i + ww (f i)) + ww a := by
  have := sum_upd f ww hj a
  simp only [sum_add_distrib]
  omega

theorem awake_le (c : Cfg) (s : St) : awake c s ≤ c.readers + c.columns + 1 := by
  have h1 : ∑ j ∈ range c.readers, rAwake (s.rd j) ≤ c.readers := by
    calc _ ≤ ∑ _j ∈ range c.readers, 1 := sum_le_sum fun j _ => by cases s.rd j <;> simp [rAwake]
      _ = _ := by simp
  have h2 : ∑ i ∈ range c.columns, wAwake (s.wr i) ≤ c.columns := by
    calc _ ≤ ∑ _i ∈ range c.columns, 1 := sum_le_sum fun i _ => by cases s.wr i <;> simp [wAwake]
      _ = _ := by simp
  have h3 : mAwake s.mn ≤ 1 := by cases s.mn <;> simp [mAwake]
  unfold awake
  omega

theorem sum_wakeR (f : Nat → RPc) (n : Nat) : ∑ j ∈ range n, rdw (wakeR f j) = ∑ j ∈ range n, rdw (f j) :=
  sum_congr rfl fun j _ => by unfold wakeR; cases f j <;> rfl

theorem sum_wakeW (f : Nat → WPc) (d : Nat → Nat) (n : Nat) :
    ∑ j ∈ range n, (6 * d j + ww (wakeW f j)) = ∑ j ∈ range n, (6 * d j + ww (f j)) :=
  sum_congr rfl fun j _ => by unfold wakeW; cases f j <;> rfl

theorem mw_wake (m : MPc) : mw (wakeM m) = mw m := by cases m <;> rfl

theorem rdw_next : rdw .next = 1 := rfl
theorem rdw_reading (k : Nat) : rdw (.reading k) = 3 := rfl
theorem rdw_put (b : Batch) : rdw (.put b) = 2 := rfl
theorem rdw_wait (b : Batch) : rdw (.wait b) = 2 := rfl
theorem rdw_gone : rdw .gone = 0 := rfl
theorem ww_top : ww .top = 5 := rfl
theorem ww_check : ww .check = 4 := rfl
theorem ww_wait : ww .wait = 4 := rfl
theorem ww_write : ww .write = 2 := rfl
theorem ww_clear : ww .clear = 1 := rfl
theorem ww_tell : ww .tell = 6 := rfl

/-- A step of a thread either does some work or puts an awake thread to sleep. -/
theorem step_work {c : Cfg} (hr : 0 < c.readers) {s t : St} {taken : List Nat} (I : Inv c s taken) {ch : Choice}
    (hch : ch = .main ∨ (∃ j, ch = .reader j) ∨ ∃ i, ch = .writer i) (h : step c s ch = some t) (hh : t.halt = none) :
    work c t < work c s ∨ work c t = work c s ∧ awake c t < awake c s := by
  unfold step at h
  split at h
  · cases h
  rename_i hn
  have hn : s.halt = none := by simpa using hn
  rcases hch with rfl | ⟨j, rfl⟩ | ⟨i, rfl⟩
  · -- main
    simp only at h
    unfold mainStep at h
    split at h
    · rename_i hm
      have hcur : s.cur = none := by have := I.mcur; rw [hm] at this; simpa using this
      split at h
      swap
      · rename_i hs
        exact absurd (by rw [I.slot]; exact Nat.mod_lt _ hr) hs
      split at h <;> cases h
      · right
        constructor
        · have : (fun i => due { s with cur := none, mn := .takeWait } i) = due s := by funext i; simp [due, hcur]
          simp only [work, hm, mw]
          simp only [this]
        · simp [awake, hm, mAwake]
      · rename_i b hd
        left
        obtain ⟨_, _, _, f, _, hcols⟩ := I.slots _ _ hd
        simp only [work, hm, mw, sum_wakeR]
        have : ∀ i, due { s with cur := some b, data := upd s.data s.slot none, wr := wakeW s.wr, rd := wakeR s.rd, slot := (s.slot + 1) % c.readers, mn := .told } i = due s i := by
          intro i; simp [due, hcur, hcols]
        simp only [this, sum_wakeW]
        omega
    · cases h
    · rename_i hm; cases h
      left
      simp only [work, hm, mw]
      have : ∀ i, due { s with mn := .doneWait } i = due s i := fun i => rfl
      simp only [this]
      omega
    · cases h
    · rename_i hm
      split at h
      · cases h; cases hh
      · rename_i b hc
        split at h <;> cases h
        · right
          exact ⟨by simp only [work, hm, mw]; rfl, by simp [awake, hm, mAwake]⟩
        · rename_i hp
          left
          have hnone := pending_false (show b.pending c.columns = false by simpa using hp)
          have hleft : s.left ≠ 0 := by
            intro e; have := I.mleft.mp e; rw [hm] at this; simp at this
          have hsum : ∑ i ∈ range c.columns, (6 * due { s with left := s.left - 1, cur := none, mn := if s.left - 1 = 0 then MPc.finish else MPc.take } i + ww (s.wr i)) =
              ∑ i ∈ range c.columns, (6 * due s i + ww (s.wr i)) := by
            refine sum_congr rfl fun i hi => ?_
            simp [due, hc, hnone i (mem_range.mp hi)]
          simp only [work, hm, mw, hsum]
          split <;> omega
    · rename_i hm; cases h
      left
      have : ∀ i, due { s with stop := true, wr := wakeW s.wr, mn := .join } i = due s i := fun i => rfl
      simp only [work, hm, mw, this, sum_wakeW]
      omega
    · rename_i hm
      split at h <;> cases h
      left
      have : ∀ i, due { s with mn := .ended } i = due s i := fun i => rfl
      simp only [work, hm, mw, this]
      omega
    · cases h
  · -- a reading thread
    simp only at h
    split at h
    swap
    · cases h
    rename_i hj
    unfold readerStep at h
    split at h
    · rename_i hp
      split at h <;> cases h
      · left
        have h1 := sum_upd s.rd rdw hj (.reading s.next)
        rw [hp] at h1
        have : ∀ i, due { s with next := s.next + 1, rd := upd s.rd j (.reading s.next) } i = due s i := fun i => rfl
        simp only [work, this]
        simp only [rdw_next, rdw_reading, rdw_put, rdw_gone] at h1
        omega
      · left
        have h1 := sum_upd s.rd rdw hj .gone
        rw [hp] at h1
        have : ∀ i, due { s with rd := upd s.rd j .gone } i = due s i := fun i => rfl
        simp only [work, this]
        simp only [rdw_next, rdw_reading, rdw_put, rdw_gone] at h1
        omega
    · rename_i k hp
      split at h
      · rename_i f hf
        cases h
        left
        have h1 := sum_upd s.rd rdw hj (.put ⟨k, fun i => some (f i)⟩)
        rw [hp] at h1
        have : ∀ i, due { s with rd := upd s.rd j (.put ⟨k, fun i => some (f i)⟩) } i = due s i := fun i => rfl
        simp only [work, this]
        simp only [rdw_next, rdw_reading, rdw_put, rdw_gone] at h1
        omega
      · cases h; cases hh
      · cases h; cases hh
    · rename_i b hp
      split at h <;> cases h
      · right
        have h1 := sum_upd s.rd rdw hj (.wait b)
        have h2 := sum_upd s.rd rAwake hj (.wait b)
        rw [hp] at h1 h2
        have : ∀ i, due { s with rd := upd s.rd j (.wait b) } i = due s i := fun i => rfl
        simp only [work, awake, this]
        simp only [rdw_put, rdw_wait] at h1
        replace h2 : _ + 1 = _ + 0 := h2
        omega
      · left
        have h1 := sum_upd s.rd rdw hj .next
        rw [hp] at h1
        have : ∀ i, due { s with data := upd s.data (b.file % c.readers) (some b), mn := wakeM s.mn, rd := upd s.rd j .next } i = due s i := fun i => rfl
        simp only [work, this, mw_wake]
        simp only [rdw_next, rdw_reading, rdw_put, rdw_gone] at h1
        omega
    · cases h
    · cases h
  · -- a writing thread
    simp only at h
    split at h
    swap
    · cases h
    rename_i hi
    have pc : ∀ p, (∀ q, s.wr i = q → ww p < ww q) → work c { s with wr := upd s.wr i p } < work c s := by
      intro p hp
      have h1 := sum_upd2 s.wr (due s) hi p
      have h2 := hp _ rfl
      have : ∀ i', due { s with wr := upd s.wr i p } i' = due s i' := fun i => rfl
      simp only [work, this]
      omega
    unfold writerStep at h
    split at h
    · rename_i hp; cases h
      left; refine pc _ ?_
      rintro q rfl
      rw [hp]; split <;> decide
    · rename_i hp
      split at h <;> cases h
      · right
        have h1 := sum_upd2 s.wr (due s) hi .wait
        have h2 := sum_upd s.wr wAwake hi .wait
        rw [hp] at h1 h2
        have : ∀ i', due { s with wr := upd s.wr i .wait } i' = due s i' := fun i => rfl
        simp only [work, awake, this]
        simp only [ww_check, ww_wait] at h1
        replace h2 : _ + 1 = _ + 0 := h2
        omega
      · left; refine pc _ ?_
        rintro q rfl
        rw [hp]; decide
    · cases h
    · rename_i hp; cases h
      left; refine pc _ ?_
      rintro q rfl
      rw [hp]; split <;> decide
    · rename_i hp
      split at h
      · cases h; cases hh
      split at h <;> cases h
      · cases hh
      · left
        have h1 := sum_upd2 s.wr (due s) hi .clear
        rw [hp] at h1
        rename_i v _
        have : ∀ i', due { s with out := upd s.out i (s.out i ++ v), wr := upd s.wr i .clear } i' = due s i' := fun i => rfl
        simp only [work, this]
        simp only [ww_top, ww_write, ww_clear, ww_tell] at h1
        omega
    · rename_i hp
      obtain ⟨b', hb', hv⟩ := I.wact i (.inr hp)
      split at h <;> cases h
      · cases hh
      rename_i b hb
      rw [hb'] at hb; cases hb
      left
      have hleft : s.left ≠ 0 := by
        intro e
        have h1 := I.mleft.mp e
        have h2 := I.mcur.mp (by rw [hb']; rfl)
        rcases h1 with h | h | h <;> rw [h] at h2 <;> simp at h2
      have hne : (b'.cols i).isNone = false := by cases e : b'.cols i <;> simp_all
      set t : St := { s with cur := some { b' with cols := upd b'.cols i none }, wr := upd s.wr i .tell } with ht
      have hd : ∀ i', i' ≠ i → due t i' = due s i' := by
        intro i' e
        simp [due, ht, hb', upd_ne _ _ e]
      have hd0 : due t i + 1 = due s i := by
        simp [due, ht, hb', hne]; omega
      have hsum : ∑ i' ∈ range c.columns, (6 * due t i' + ww (t.wr i')) + 1 ≤ ∑ i' ∈ range c.columns, (6 * due s i' + ww (s.wr i')) := by
        rw [← add_sum_erase (range c.columns) _ (mem_range.mpr hi), ← add_sum_erase (range c.columns) (fun i' => 6 * due s i' + ww (s.wr i')) (mem_range.mpr hi)]
        have : ∑ i' ∈ (range c.columns).erase i, (6 * due t i' + ww (t.wr i')) = ∑ i' ∈ (range c.columns).erase i, (6 * due s i' + ww (s.wr i')) := by
          refine sum_congr rfl fun i' h' => ?_
          have e := ne_of_mem_erase h'
          rw [hd i' e]
          simp [ht, upd_ne _ _ e]
        rw [this]
        have h3 : ww (t.wr i) = 6 := by simp [ht, ww]
        have h4 : ww (s.wr i) = 1 := by rw [hp]; rfl
        simp only [h3, h4]
        omega
      have e1 : t.next = s.next := rfl
      have e2 : t.rd = s.rd := rfl
      have e3 : t.left = s.left := rfl
      have e4 : t.mn = s.mn := rfl
      simp only [work, e1, e2, e3, e4]
      omega
    · rename_i hp; cases h
      left
      have h1 := sum_upd2 s.wr (due s) hi .top
      rw [hp] at h1
      have : ∀ i', due { s with mn := wakeM s.mn, wr := upd s.wr i .top } i' = due s i' := fun i => rfl
      simp only [work, this, mw_wake]
      simp only [ww_top, ww_write, ww_clear, ww_tell] at h1
      omega
    · cases h

/-- The number of steps still possible, at most. -/
def fuel (c : Cfg) (s : St) : Nat := (c.readers + c.columns + 2) * work c s + awake c s

theorem fuel_step {c : Cfg} (hr : 0 < c.readers) {s t : St} {taken : List Nat} (I : Inv c s taken) {ch : Choice}
    (hch : ch = .main ∨ (∃ j, ch = .reader j) ∨ ∃ i, ch = .writer i) (h : step c s ch = some t) (hh : t.halt = none) :
    fuel c t < fuel c s := by
  unfold fuel
  rcases step_work hr I hch h hh with h1 | ⟨h1, h2⟩
  · have := awake_le c t
    have h2 := Nat.mul_le_mul_left (c.readers + c.columns + 2) h1
    rw [Nat.succ_eq_add_one, Nat.mul_add, Nat.mul_one] at h2
    omega
  · rw [h1]; omega

theorem fuel_run {c : Cfg} (hc : Sensible c) : ∀ (sched : List Choice) (s t : St) (taken : List Nat), NoSpurious sched →
    Inv c s taken → run c s sched = some t → sched.length ≤ fuel c s + 1
  | [], _, _, _, _, _, _ => by simp
  | ch :: rest, s, t, taken, hs, I, h => by
    rw [run] at h
    split at h
    · cases h
    rename_i u hu
    obtain ⟨_, taken', I'⟩ := inv_step hc.readers hc.read I hu
    by_cases hh : u.halt = none
    · have h1 := fuel_step hc.readers I (hs ch (by simp)) hu hh
      have h2 := fuel_run hc rest u t taken' (fun x hx => hs x (by simp [hx])) I' h
      simp only [List.length_cons]; omega
    · cases rest with
      | nil => simp
      | cons x xs =>
        have hi : u.halt.isSome = true := by cases e : u.halt <;> simp_all
        have : step c u x = none := by unfold step; rw [if_pos hi]
        rw [run, this] at h
        cases h

/-- C80: the threads cannot run for ever: there is a bound on the length of all schedules without spurious wake-ups. -/
theorem las2col_ends (c : Cfg) (hc : Sensible c) :
    ∃ n, ∀ (sched : List Choice) (s : St), NoSpurious sched → Reaches c sched s → sched.length ≤ n :=
  ⟨_, fun sched s hs h => fuel_run hc sched _ _ [] hs (inv_start c hc.files) h⟩

theorem run_append (c : Cfg) (s t : St) : ∀ (a b : List Choice), run c s a = some t → run c s (a ++ b) = run c t b := by
  intro a
  induction a generalizing s with
  | nil => intro b h; cases h; rfl
  | cons x xs ih =>
    intro b h
    rw [run] at h
    rw [List.cons_append, run]
    split at h
    · cases h
    · rename_i u hu
      exact ih u b h

/-- C80: nothing is ever lost for good: if all files can be read, then from every state of every schedule the program can still
finish (the only help needed is a spurious wake-up of `main`). -/
theorem las2col_can_finish (c : Cfg) (hc : Sensible c) (hread : ∀ k < c.files, ∃ f, c.read k = .ok f) (sched : List Choice)
    (s : St) (h : Reaches c sched s) : ∃ more t, Reaches c (sched ++ more) t ∧ Finished t := by
  generalize hn : fuel c s = n
  induction n using Nat.strong_induction_on generalizing sched s with
  | _ n ih =>
    subst hn
    obtain ⟨h0, taken, I⟩ := reached hc h
    have hh : s.halt = none := by
      rcases h0 with h | ⟨_, k, hk, e, he⟩
      · exact h
      · obtain ⟨f, hf⟩ := hread k hk; rw [hf] at he; cases he
    have go : ∀ (more : List Choice) (t : St), run c s more = some t → fuel c t < fuel c s →
        ∃ more t, Reaches c (sched ++ more) t ∧ Finished t := by
      intro more t ht hf
      have hr : Reaches c (sched ++ more) t := by unfold Reaches; rw [run_append c _ _ _ _ h]; exact ht
      obtain ⟨m2, t2, h1, h2⟩ := ih _ hf (sched ++ more) t hr rfl
      exact ⟨more ++ m2, t2, by rw [← List.append_assoc]; exact h1, h2⟩
    have one : ∀ (ch : Choice) (t : St), (ch = .main ∨ (∃ j, ch = .reader j) ∨ ∃ i, ch = .writer i) → step c s ch = some t →
        ∃ more t, Reaches c (sched ++ more) t ∧ Finished t := by
      intro ch t hch ht
      have hr : Reaches c (sched ++ [ch]) t := by unfold Reaches; rw [run_append c _ _ _ _ h, run, ht]; rfl
      have hht : t.halt = none := by
        rcases (reached hc hr).1 with h | ⟨_, k, hk, e, he⟩
        · exact h
        · obtain ⟨f, hf⟩ := hread k hk; rw [hf] at he; cases he
      exact go [ch] t (by rw [run, ht]; rfl) (fuel_step hc.readers I hch ht hht)
    by_cases hs : Stuck c s
    · rcases las2col_stuck c hc sched s h hh hs with hf | ⟨hm, b, hb, hnone⟩
      · exact ⟨[], s, by rw [List.append_nil]; exact h, hf⟩
      · have hw : step c s .wakeMain = some { s with mn := .check } := by
          simp [step, hh, hm]
        have I' : Inv c { s with mn := .check } taken := I.main .check (by simp [hm])
        have hp : b.pending c.columns = false := by
          simp only [Batch.pending, List.any_eq_false, List.mem_range]
          intro i hi; simp [hnone i hi]
        have hmain : step c { s with mn := .check } .main =
            some { s with left := s.left - 1, cur := none, mn := if s.left - 1 = 0 then .finish else .take } := by
          simp [step, hh, mainStep, hb, hp]
        refine go [.wakeMain, .main] _ (by rw [run, hw]; simp only []; rw [run, hmain]; rfl) ?_
        rcases step_work hc.readers I' (.inl rfl) hmain hh with h1 | ⟨h1, h2⟩
        · have e : work c { s with mn := .check } = work c s := by simp only [work, hm, mw]; rfl
          rw [e] at h1
          unfold fuel
          have := awake_le c { s with left := s.left - 1, cur := none, mn := if s.left - 1 = 0 then .finish else .take }
          have h2 := Nat.mul_le_mul_left (c.readers + c.columns + 2) h1
          rw [Nat.succ_eq_add_one, Nat.mul_add, Nat.mul_one] at h2
          omega
        · exfalso
          have hleft : s.left ≠ 0 := by
            intro e; have := I.mleft.mp e; rw [hm] at this; simp at this
          have hsum : ∑ i ∈ range c.columns, (6 * due { s with left := s.left - 1, cur := none, mn := if s.left - 1 = 0 then MPc.finish else MPc.take } i + ww (s.wr i)) =
              ∑ i ∈ range c.columns, (6 * due s i + ww (s.wr i)) := by
            refine sum_congr rfl fun i hi => ?_
            simp [due, hb, hnone i (mem_range.mp hi)]
          have e : ∀ i, due { s with mn := .check } i = due s i := fun _ => rfl
          simp only [work, hsum, mw, e] at h1
          split at h1 <;> omega
    · unfold Stuck at hs
      simp only [not_and_or, not_forall] at hs
      rcases hs with hs | ⟨j, hs⟩ | ⟨i, hs⟩
      · obtain ⟨t, ht⟩ := Option.ne_none_iff_exists'.mp hs
        exact one _ t (.inl rfl) ht
      · obtain ⟨t, ht⟩ := Option.ne_none_iff_exists'.mp hs
        exact one _ t (.inr (.inl ⟨j, rfl⟩)) ht
      · obtain ⟨t, ht⟩ := Option.ne_none_iff_exists'.mp hs
        exact one _ t (.inr (.inr ⟨i, rfl⟩)) ht

end LibLAS.Las2col
