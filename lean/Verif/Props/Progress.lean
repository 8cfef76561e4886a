import Verif.Lemmas.Progress
/-
C105: the progress meter of the tools.
-/
namespace LibLAS.Progress
open Spec

theorem whole : written (-1) 40 = meter := by decide +kernel

private theorem calls_eq (k n : Nat) :
    calls k n = (List.range k).map fun i => part (BitVec.ofNat 32 (i + 0)) (BitVec.ofNat 32 n) := rfl

/-- A state that does not lie above the ticks of a new run is forgotten. -/
private theorem restart {last t : Int} {c : Fl} {cs : List Fl} (hc : tickOf c = .ok t) (h0 : 0 ≤ t) (ht : t < last) (hl : 39 ≤ last) :
    run last (c :: cs) = run (-1) (c :: cs) := by
  have h1 : t < last ∧ 39 ≤ last := ⟨ht, hl⟩
  have h2 : ¬ (t < -1 ∧ (39 : Int) ≤ -1) := by omega
  simp only [run, progress, hc, Outcome.bind_ok, h1, h2, and_self, if_true, if_false]

/-- C105: for a file of any number of points, after any number of them, the program that has just started shows the meter up to
the mark of the part done, and nothing else: mark number `t` of 40 after `k` of `n` points, where `t` is `40 * k / n` rounded down
(off by less than a millionth); the meter says that it is done after the last point, and not before. -/
theorem meter_shows_progress (n k : Nat) (hk : 0 < k) (hkn : k ≤ n) (hn : n < 2 ^ 32) :
    ∃ t : Nat, t ≤ 40 ∧ run (-1) (calls k n) = .ok ((t : Int), marksBetween 0 (t + 1) ++ (if k = n then finish else [])) ∧
      (t : ℚ) ≤ 40 * (k / n) + 1 / 10 ^ 6 ∧ 40 * ((k : ℚ) / n) < t + 1 + 1 / 10 ^ 6 ∧ (t = 40 ↔ k = n) := by
  have hr := run_calls (d := 0) (last := -1) hk (by omega : 0 < n) (by omega) (by omega) hn (by omega) (by omega)
  rw [← calls_eq] at hr
  simp only [Nat.add_zero] at hr
  obtain ⟨h0, h1⟩ := tickQ_range ((k : ℚ) / n)
  have hn0 : (0 : ℚ) < n := by exact_mod_cast (by omega : 0 < n)
  have hx0 : (0 : ℚ) ≤ (k : ℚ) / n := by positivity
  have hx1 : (k : ℚ) / n ≤ 1 := by rw [div_le_one hn0]; exact_mod_cast hkn
  obtain ⟨b1, b2⟩ := tickQ_near hx0 hx1
  have hiff : tickQ ((k : ℚ) / n) = 40 ↔ k = n := by
    constructor
    · intro h
      by_contra hne
      have hlt : k + 1 ≤ n := by omega
      have hle : (k : ℚ) / n ≤ 1 - 1 / 2 ^ 32 := by
        rw [div_le_iff₀ hn0]
        have h2 : (k : ℚ) + 1 ≤ n := by exact_mod_cast hlt
        have h3 : (n : ℚ) ≤ 2 ^ 32 := by exact_mod_cast hn.le
        have h4 : 1 / 2 ^ 32 * (n : ℚ) ≤ 1 := by
          rw [div_mul_eq_mul_div, one_mul, div_le_one (by positivity)]; exact h3
        linarith [sub_mul (1 : ℚ) (1 / 2 ^ 32) n]
      have := tickQ_lt hx0 hle
      omega
    · rintro rfl
      exact tickQ_ge_one (by rw [div_self hn0.ne'])
  obtain ⟨t, ht⟩ : ∃ t : Nat, tickQ ((k : ℚ) / n) = t := ⟨(tickQ ((k : ℚ) / n)).toNat, by omega⟩
  rw [ht] at hr b1 b2 hiff h1
  have hb1 : ((t : Int) : ℚ) = (t : ℚ) := by norm_cast
  rw [hb1] at b1 b2
  refine ⟨t, by omega, ?_, b1, b2, ?_⟩
  · rw [hr, max_eq_right (by omega)]
    unfold written
    by_cases h : k = n
    · rw [if_pos h, if_pos ⟨hiff.2 h, by omega⟩]; rfl
    · rw [if_neg h, if_neg (fun hh => h (hiff.1 hh.1))]; rfl
  · rw [← hiff]; omega

/-- C105: the whole meter is shown for every file, once. -/
theorem meter_complete (n : Nat) (h0 : 0 < n) (hn : n < 2 ^ 32) : run (-1) (calls n n) = .ok (40, meter) := by
  have hr := run_calls (d := 0) (last := -1) h0 h0 (by omega) (by omega) hn (by omega) (by omega)
  rw [← calls_eq] at hr
  have hn0 : (0 : ℚ) < n := by exact_mod_cast h0
  rw [hr, tickQ_ge_one (by rw [Nat.add_zero, div_self hn0.ne']), max_eq_right (by omega), whole]

/-- C105: also when the counter runs ahead by one, as in `ts2las`. -/
theorem meter_complete_late (n : Nat) (h0 : 0 < n) (hn : n + 1 < 2 ^ 32) : run (-1) (callsLate n n) = .ok (40, meter) := by
  have hr := run_calls (d := 1) (last := -1) h0 h0 (by omega) (by omega) (by omega) (by omega) (by omega)
  have hn0 : (0 : ℚ) < n := by exact_mod_cast h0
  have e : callsLate n n = (List.range n).map fun i => part (BitVec.ofNat 32 (i + 1)) (BitVec.ofNat 32 n) := rfl
  rw [e, hr, tickQ_ge_one (by rw [le_div_iff₀ hn0]; push_cast; linarith), max_eq_right (by omega), whole]

private theorem first_low {n : Nat} (h : 2 ≤ n) (hn : n < 2 ^ 32) :
    ∃ c cs t, calls n n = c :: cs ∧ tickOf c = .ok t ∧ 0 ≤ t ∧ t < 39 := by
  obtain ⟨m, rfl⟩ : ∃ m, n = m + 1 := ⟨n - 1, by omega⟩
  have ht := calls_ticks (k := m + 1) (n := m + 1) (d := 0) (by omega) (by omega) (by omega) hn
  rw [← calls_eq] at ht
  have hne : calls (m + 1) (m + 1) = part (BitVec.ofNat 32 0) (BitVec.ofNat 32 (m + 1)) ::
      (List.range' 1 m).map fun i => part (BitVec.ofNat 32 i) (BitVec.ofNat 32 (m + 1)) := by
    unfold calls
    rw [List.range_eq_range', List.range'_succ]
    rfl
  have hh : tickOf (part (BitVec.ofNat 32 0) (BitVec.ofNat 32 (m + 1))) = .ok (tickQ (((0 + 0 + 1 : Nat) : ℚ) / (m + 1 : Nat))) := by
    rw [hne, List.range_eq_range', List.range'_succ] at ht
    simp only [List.map_cons, List.cons.injEq] at ht
    exact ht.1
  refine ⟨_, _, _, hne, hh, (tickQ_range _).1, ?_⟩
  have hx : (((0 + 0 + 1 : Nat) : ℚ) / (m + 1 : Nat)) ≤ 1 / 2 := by
    have h2 : (2 : ℚ) ≤ (m + 1 : Nat) := by exact_mod_cast h
    rw [div_le_div_iff₀ (by linarith) (by norm_num)]
    push_cast at h2 ⊢
    linarith
  have hb := (tickQ_near (x := ((0 + 0 + 1 : Nat) : ℚ) / (m + 1 : Nat)) (by positivity) (hx.trans (by norm_num))).1
  have : (tickQ (((0 + 0 + 1 : Nat) : ℚ) / (m + 1 : Nat)) : ℚ) < 39 := by
    norm_num at hb hx ⊢
    linarith
  exact_mod_cast this

/-- C105: a second file of at least two points, in the same program, gets a whole meter of its own. -/
theorem second_meter (n : Nat) (h : 2 ≤ n) (hn : n < 2 ^ 32) : run 40 (calls n n) = .ok (40, meter) := by
  obtain ⟨c, cs, t, e, ht, h0, h39⟩ := first_low h hn
  have := meter_complete n (by omega) hn
  rw [e] at this ⊢
  rw [restart ht h0 (by omega) (by omega), this]

/-- C105: so does a file after one that stopped just before its end. -/
theorem meter_after_almost (n : Nat) (h : 2 ≤ n) (hn : n < 2 ^ 32) : run 39 (calls n n) = .ok (40, meter) := by
  obtain ⟨c, cs, t, e, ht, h0, h39⟩ := first_low h hn
  have := meter_complete n (by omega) hn
  rw [e] at this ⊢
  rw [restart ht h0 (by omega) (by omega), this]

/-- C105: any number of files of at least two points: one whole meter for each. -/
theorem every_meter (ns : List Nat) (h : ∀ n ∈ ns, 2 ≤ n ∧ n < 2 ^ 32) (hne : ns ≠ []) :
    run (-1) (ns.flatMap fun n => calls n n) = .ok (40, ns.flatMap fun _ => meter) := by
  have run_append : ∀ (a b : List Fl) (l m k : Int) (u v : List Char), run l a = .ok (m, u) → run m b = .ok (k, v) →
      run l (a ++ b) = .ok (k, u ++ v) := by
    intro a
    induction a with
    | nil =>
      intro b l m k u v h1 h2
      simp only [run, Outcome.ok.injEq, Prod.mk.injEq] at h1
      obtain ⟨rfl, rfl⟩ := h1
      simpa using h2
    | cons c a ih =>
      intro b l m k u v h1 h2
      simp only [run, List.cons_append] at h1 ⊢
      cases hp : progress l c with
      | ok x =>
        obtain ⟨l1, o⟩ := x
        rw [hp] at h1
        simp only [Outcome.bind_ok] at h1 ⊢
        cases hq : run l1 a with
        | ok y =>
          obtain ⟨m1, u1⟩ := y
          rw [hq] at h1
          simp only [Outcome.bind_ok, Outcome.pure_eq, Outcome.ok.injEq, Prod.mk.injEq] at h1
          obtain ⟨rfl, rfl⟩ := h1
          rw [ih b l1 m1 k u1 v hq h2]
          simp only [Outcome.bind_ok, Outcome.pure_eq, List.append_assoc]
        | throw e => rw [hq] at h1; cases h1
        | ub => rw [hq] at h1; cases h1
      | throw e => rw [hp] at h1; cases h1
      | ub => rw [hp] at h1; cases h1
  have more : ∀ ns : List Nat, (∀ n ∈ ns, 2 ≤ n ∧ n < 2 ^ 32) →
      run 40 (ns.flatMap fun n => calls n n) = .ok (40, ns.flatMap fun _ => meter) := by
    intro ns
    induction ns with
    | nil => intro _; rfl
    | cons n ns ih =>
      intro h
      have hn := h n (by simp)
      exact run_append _ _ _ _ _ _ _ (second_meter n hn.1 hn.2) (ih fun m hm => h m (by simp [hm]))
  cases ns with
  | nil => exact absurd rfl hne
  | cons n ns =>
    have hn := h n (by simp)
    exact run_append _ _ _ _ _ _ _ (meter_complete n (by omega) hn.2) (more ns fun m hm => h m (by simp [hm]))

/-- C105 refuted for a second file of one point: nothing is shown for it. -/
theorem single_point_silent : run 40 (calls 1 1) = .ok (40, []) := by decide +kernel

/-- C105 refuted after a file that ended early (or whose points were filtered): what its meter did not show is all that is shown
for the next file; the two meters make one. -/
theorem unfinished_meter_continued (k m n : Nat) (hk : 0 < k) (hkm : k ≤ m) (hm : m < 2 ^ 32) (h0 : 0 < n) (hn : n < 2 ^ 32)
    (t : Int) (out : List Char) (h : run (-1) (calls k m) = .ok (t, out)) (ht : t ≤ 38) :
    ∃ rest, run t (calls n n) = .ok (40, rest) ∧ out ++ rest = meter := by
  have hr := run_calls (d := 0) (last := -1) hk (by omega : 0 < m) (by omega) (by omega) hm (by omega) (by omega)
  rw [← calls_eq, h] at hr
  simp only [Outcome.ok.injEq, Prod.mk.injEq] at hr
  obtain ⟨e1, e2⟩ := hr
  rw [← e1] at e2
  have hge : -1 ≤ t := by rw [e1]; exact le_max_left _ _
  have hr2 := run_calls (d := 0) (last := t) h0 h0 (by omega) (by omega) hn hge ht
  rw [← calls_eq] at hr2
  have hn0 : (0 : ℚ) < n := by exact_mod_cast h0
  rw [tickQ_ge_one (by rw [Nat.add_zero, div_self hn0.ne']), max_eq_right (by omega)] at hr2
  refine ⟨_, hr2, ?_⟩
  rw [e2, written_append (by omega) hge (by omega) (by omega), whole]

/-- With a count of zero in the header, a call divides by zero and converts the result to an integer: undefined. -/
theorem no_points_undefined (last : Int) (i : BitVec 32) : progress last (part i 0) = .ub := by
  have : part i 0 = .nan := by simp [part, Fl.div]
  rw [this]
  rfl

/-- The hypotheses are met: one of four points done, then the file ends; and a file of five points after it. -/
example : run (-1) (calls 1 4) = .ok (10, "0...10...20..".toList) ∧
    run 10 (calls 5 5) = .ok (40, ".30...40...50...60...70...80...90...100 - done.\n".toList) := by
  decide +kernel

end LibLAS.Progress
