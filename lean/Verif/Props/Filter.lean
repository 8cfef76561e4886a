import Verif.Spec.Filter
import Verif.Props.Point
/-
C31 to C34: the point filters.
-/
set_option linter.unusedSimpArgs false
namespace LibLAS
open Spec Point

private theorem bind_ok_inv {α β : Type} {x : Outcome α} {f : α → Outcome β} {b : β} (h : (x >>= f) = .ok b) :
    ∃ a, x = .ok a ∧ f a = .ok b := by
  cases x with
  | ok a => exact ⟨a, rfl, h⟩
  | throw e => exact absurd h (by simp)
  | ub => exact absurd h (by simp)

/-- The attributes used by filters, one at a time. -/
theorem observe_parts {b : Build} {p : Point} {a : Attrs} (h : observe b p = .ok a) :
    p.getClassification = .ok a.classification ∧
    (∃ r, p.getReturnNumber = .ok r ∧ r.toNat = a.returnNumber) ∧
    (∃ r, p.getNumberOfReturns = .ok r ∧ r.toNat = a.numberOfReturns) ∧
    p.getColor b = .ok a.color ∧ p.getIntensity b = .ok a.intensity := by
  unfold observe at h
  obtain ⟨_, _, h⟩ := bind_ok_inv h
  obtain ⟨_, _, h⟩ := bind_ok_inv h
  obtain ⟨_, _, h⟩ := bind_ok_inv h
  obtain ⟨_, hi, h⟩ := bind_ok_inv h
  obtain ⟨_, hr, h⟩ := bind_ok_inv h
  obtain ⟨_, hn, h⟩ := bind_ok_inv h
  obtain ⟨_, _, h⟩ := bind_ok_inv h
  obtain ⟨_, _, h⟩ := bind_ok_inv h
  obtain ⟨_, hc, h⟩ := bind_ok_inv h
  obtain ⟨_, _, h⟩ := bind_ok_inv h
  obtain ⟨_, _, h⟩ := bind_ok_inv h
  obtain ⟨_, _, h⟩ := bind_ok_inv h
  obtain ⟨_, _, h⟩ := bind_ok_inv h
  obtain ⟨_, hcol, h⟩ := bind_ok_inv h
  simp only [Outcome.pure_eq, Outcome.ok.injEq] at h
  subst h
  exact ⟨hc, ⟨_, hr, rfl⟩, ⟨_, hn, rfl⟩, hcol, hi⟩

/-- Two more attributes. -/
theorem observe_more {b : Build} {p : Point} {a : Attrs} (h : observe b p = .ok a) :
    p.getScanAngleRank = .ok a.scanAngle ∧ p.getTime b = .ok a.time := by
  unfold observe at h
  obtain ⟨_, _, h⟩ := bind_ok_inv h
  obtain ⟨_, _, h⟩ := bind_ok_inv h
  obtain ⟨_, _, h⟩ := bind_ok_inv h
  obtain ⟨_, _, h⟩ := bind_ok_inv h
  obtain ⟨_, _, h⟩ := bind_ok_inv h
  obtain ⟨_, _, h⟩ := bind_ok_inv h
  obtain ⟨_, _, h⟩ := bind_ok_inv h
  obtain ⟨_, _, h⟩ := bind_ok_inv h
  obtain ⟨_, _, h⟩ := bind_ok_inv h
  obtain ⟨_, ha, h⟩ := bind_ok_inv h
  obtain ⟨_, _, h⟩ := bind_ok_inv h
  obtain ⟨_, _, h⟩ := bind_ok_inv h
  obtain ⟨_, ht, h⟩ := bind_ok_inv h
  obtain ⟨_, _, h⟩ := bind_ok_inv h
  simp only [Outcome.pure_eq, Outcome.ok.injEq] at h
  subst h
  exact ⟨ha, ht⟩

private theorem loop_incl {α : Type} [DecidableEq α] (c : α) (l : List α) (out : Bool) (h : l ≠ []) :
    Filters.listLoop .inclusion c l out = decide (c ∈ l) := by
  induction l generalizing out with
  | nil => exact absurd rfl h
  | cons x xs ih =>
    rw [Filters.listLoop]
    split
    · subst x; simp
    · rename_i hx
      cases xs with
      | nil => simp [Filters.listLoop, hx]
      | cons y ys => rw [ih false (by simp)]; simp [hx]

private theorem loop_excl {α : Type} [DecidableEq α] (c : α) (l : List α) (out : Bool) (h : l ≠ []) :
    Filters.listLoop .exclusion c l out = false := by
  induction l generalizing out with
  | nil => exact absurd rfl h
  | cons x xs ih =>
    rw [Filters.listLoop]
    split
    · simp
    · cases xs with
      | nil => rfl
      | cons y ys => exact ih false (by simp)

/-- C31, inclusion half for classifications: the filter accepts exactly the points whose classification is listed. A
list must be given (`empty_list_accepts`). -/
theorem classification_filter_partial {b : Build} {p : Point} {a : Attrs} (h : observe b p = .ok a)
    {classes : List Classification} (hne : classes ≠ []) :
    Filters.classification .inclusion classes p = .ok (keeps .inclusion (decide (a.classification ∈ classes))) := by
  obtain ⟨hc, -⟩ := observe_parts h
  unfold Filters.classification
  rw [hc]
  simp [loop_incl _ _ _ hne, keeps]

/-- C31, inclusion half for return numbers. -/
theorem return_filter_partial {b : Build} {p : Point} {a : Attrs} (h : observe b p = .ok a)
    {list : List (BitVec 16)} (hne : list ≠ []) :
    Filters.returns .inclusion false list p =
      .ok (keeps .inclusion (decide (a.returnNumber ∈ list.map BitVec.toNat))) := by
  obtain ⟨-, ⟨r, hr, hra⟩, -⟩ := observe_parts h
  unfold Filters.returns
  rw [hr]
  simp only [Bool.false_eq_true, if_false, Outcome.bind_ok, Outcome.pure_eq, loop_incl _ _ _ hne, keeps]
  congr 1
  rw [← hra]
  by_cases hm : r ∈ list
  · rw [decide_eq_true hm, decide_eq_true (List.mem_map_of_mem hm)]
  · rw [decide_eq_false hm, decide_eq_false]
    intro hx
    obtain ⟨s, hs, he⟩ := List.mem_map.mp hx
    exact hm (BitVec.eq_of_toNat_eq he ▸ hs)

/-- C31, last returns of inclusion type: the points whose return number is the number of returns. -/
theorem last_return_filter_partial {b : Build} {p : Point} {a : Attrs} (h : observe b p = .ok a)
    (list : List (BitVec 16)) :
    Filters.returns .inclusion true list p =
      .ok (keeps .inclusion (decide (a.returnNumber = a.numberOfReturns))) := by
  obtain ⟨-, ⟨r, hr, hra⟩, ⟨n, hn, hna⟩, -⟩ := observe_parts h
  unfold Filters.returns
  rw [hr, hn]
  simp only [if_true, Outcome.bind_ok, Outcome.pure_eq, keeps, reduceCtorEq, if_false]
  congr 1
  rw [← hra, ← hna]
  by_cases e : r = n
  · subst e; simp
  · have : r.toNat ≠ n.toNat := fun x => e (BitVec.eq_of_toNat_eq x)
    rw [decide_eq_false this]
    exact beq_false_of_ne e

/-- C31 fails for an empty list: every point is accepted, whatever the type. -/
theorem empty_list_accepts {b : Build} {p : Point} {a : Attrs} (h : observe b p = .ok a) (ty : FilterType) :
    Filters.classification ty [] p = .ok true ∧ Filters.returns ty false [] p = .ok true := by
  obtain ⟨hc, ⟨r, hr, -⟩, -⟩ := observe_parts h
  simp [Filters.classification, Filters.returns, hc, hr, Filters.listLoop]

/-- C31 fails for exclusion: with any list at all, every point is rejected, also those not listed; an exclusion
filter for last returns rejects every point too. -/
theorem exclusion_rejects_all {b : Build} {p : Point} {a : Attrs} (h : observe b p = .ok a) :
    (∀ classes, classes ≠ [] → Filters.classification .exclusion classes p = .ok false) ∧
    (∀ list, list ≠ [] → Filters.returns .exclusion false list p = .ok false) ∧
    (∀ list, Filters.returns .exclusion true list p = .ok false) := by
  obtain ⟨hc, ⟨r, hr, -⟩, ⟨n, hn, -⟩, -⟩ := observe_parts h
  refine ⟨fun l hl => ?_, fun l hl => ?_, fun l => ?_⟩
  · simp [Filters.classification, hc, loop_excl _ _ _ hl]
  · simp [Filters.returns, hr, loop_excl _ _ _ hl]
  · simp [Filters.returns, hr, hn]

/-- A format-0 header and a ground point (class 2), return 1 of 2. -/
def filterHeader : PHeader :=
  ⟨.f0, 20, false, false, ⟨.fin 1, .fin 1, .fin 1⟩, ⟨.fin 0, .fin 0, .fin 0⟩⟩
/-- The point. -/
def groundPoint : Point := ⟨List.replicate 14 0#8 ++ [0x11#8, 2#8] ++ List.replicate 4 0#8, filterHeader⟩
private def pc : Build := ⟨.little, false⟩

example : (observe pc groundPoint).isOk = true := by decide +kernel
/-- The negation of C31 on a concrete point: a ground point is not a building (class 6), yet the filter that excludes
buildings drops it. -/
theorem exclusion_filter_wrong :
    ∃ a, observe pc groundPoint = .ok a ∧ a.classification = ⟨2⟩ ∧
      Filters.classification .exclusion [⟨6⟩] groundPoint ≠
        .ok (keeps .exclusion (decide (a.classification ∈ [(⟨6⟩ : Classification)]))) := by
  refine ⟨_, observe_eq ⟨rfl, by decide⟩, by decide +kernel, by decide +kernel⟩

/-- The validation filter of inclusion type accepts exactly the valid points; of exclusion type it accepts nothing
(the same defect). -/
theorem validation_filter (p : Point) (hwf : p.WF) :
    (∃ v, p.isValid = .ok v ∧ Filters.validation .inclusion p = .ok (keeps .inclusion v)) ∧
    Filters.validation .exclusion p = .ok false := by
  obtain ⟨ar, -, h, -⟩ := valid_iff p hwf
  refine ⟨⟨_, h, ?_⟩, ?_⟩
  · simp only [Filters.validation, h, keeps, Outcome.bind_ok, Outcome.pure_eq]
    congr 1
    cases decide (-90 ≤ ar.toInt ∧ ar.toInt ≤ 90) <;> rfl
  · simp only [Filters.validation, h, Outcome.bind_ok, Outcome.pure_eq]
    congr 1
    cases decide (-90 ≤ ar.toInt ∧ ar.toInt ≤ 90) <;> rfl

/-- Colour filters made from two colours: the box test per channel, and exclusion is its complement. -/
theorem color_filter {b : Build} {p : Point} {a : Attrs} (h : observe b p = .ok a) (ty : FilterType) (lo hi : Color) :
    Filters.color b ty ⟨lo, hi⟩ p = .ok (keeps ty (decide (
      (lo.getRed.toNat ≤ a.color.getRed.toNat ∧ a.color.getRed.toNat ≤ hi.getRed.toNat) ∧
      (lo.getGreen.toNat ≤ a.color.getGreen.toNat ∧ a.color.getGreen.toNat ≤ hi.getGreen.toNat) ∧
      (lo.getBlue.toNat ≤ a.color.getBlue.toNat ∧ a.color.getBlue.toNat ≤ hi.getBlue.toNat)))) := by
  obtain ⟨-, -, -, hc, -⟩ := observe_parts h
  unfold Filters.color
  rw [hc]
  simp only [Outcome.bind_ok, Outcome.pure_eq]
  congr 1
  unfold Filters.colorTest Filters.doExclude keeps
  dsimp only
  generalize a.color.getRed.toNat = r
  generalize a.color.getGreen.toNat = g
  generalize a.color.getBlue.toNat = bl
  generalize lo.getRed.toNat = r0
  generalize lo.getGreen.toNat = g0
  generalize lo.getBlue.toNat = b0
  generalize hi.getRed.toNat = r1
  generalize hi.getGreen.toNat = g1
  generalize hi.getBlue.toNat = b1
  cases ty <;> simp only [reduceCtorEq, if_false, if_true, Bool.not_true, Bool.not_false] <;>
    split_ifs <;> first
      | (symm; apply decide_eq_true; omega)
      | (symm; apply decide_eq_false; omega)
      | (symm; rw [Bool.not_eq_true']; apply decide_eq_false; omega)
      | (symm; rw [Bool.not_eq_false']; apply decide_eq_true; omega)

/-- The six-number colour filter swaps the upper limits of green and blue: a filter for blue 0..0 and green 0..65535
rejects a pure green point. -/
theorem color_filter_swapped :
    Filters.colorTest .inclusion (Filters.ColorBox.ofChannels 0 65535 0 0 0 65535) ⟨0, 40000, 0⟩ = false := by
  decide

/-- C32: a thinning filter of step `t > 0` accepts, among any number of points in succession, exactly those whose
zero-based index is a positive multiple of `t`. -/
theorem thin_keeps_multiples (t : BitVec 32) (ht : 0 < t.toNat) (n i : Nat) (hi : i < n) :
    (verdicts Filters.Thin.filter n (Filters.Thin.new t))[i]? = some (decide (0 < i ∧ t.toNat ∣ i)) := by
  -- state before point i: count = 0 for i = 0, else ((i-1) mod t) + 1
  have key : ∀ n i k (c : BitVec 32), i < n → c.toNat ≤ t.toNat → (c.toNat = 0 → k = 0) →
      (∃ q, k = q * t.toNat + c.toNat) →
      (verdicts Filters.Thin.filter n ⟨t, c⟩)[i]? = some (decide (0 < k + i ∧ t.toNat ∣ k + i)) := by
    intro n
    induction n with
    | zero => intro i k c h; omega
    | succ n ih =>
      intro i k c hin hc h0 ⟨q, hq⟩
      rw [verdicts]
      have hacc : (Filters.Thin.filter ⟨t, c⟩).2 = decide (t.toNat = c.toNat) := by
        simp only [Filters.Thin.filter]
        by_cases e : t = c
        · subst e; simp
        · have : t.toNat ≠ c.toNat := fun x => e (BitVec.eq_of_toNat_eq x)
          rw [decide_eq_false this]; exact beq_false_of_ne e
      cases i with
      | zero =>
        rw [List.getElem?_cons_zero, hacc]
        congr 1
        by_cases e : t.toNat = c.toNat
        · rw [decide_eq_true e, decide_eq_true]
          refine ⟨by omega, ?_⟩
          rw [Nat.add_zero, hq, ← e]
          exact ⟨q + 1, by ring⟩
        · rw [decide_eq_false e, decide_eq_false]
          rintro ⟨hp, m, hm⟩
          have hc0 : c.toNat ≠ 0 := fun x => by have := h0 x; omega
          have : (k + 0) % t.toNat = c.toNat := by
            rw [Nat.add_zero, hq, Nat.mul_add_mod_self_right, Nat.mod_eq_of_lt (by omega)]
          rw [hm, Nat.mul_mod_right] at this
          omega
      | succ i =>
        rw [List.getElem?_cons_succ]
        have hb : t.toNat < 2 ^ 32 := t.isLt
        by_cases e : t = c
        · have hs : (Filters.Thin.filter ⟨t, c⟩).1 = ⟨t, 1⟩ := by
            subst e; simp [Filters.Thin.filter]
          have hct : c.toNat = t.toNat := by rw [e]
          rw [hs, ih i (k + 1) 1 (by omega) (by simp; omega) (by simp)
            ⟨q + 1, by rw [hq, hct]; simp; ring⟩]
          rw [show k + 1 + i = k + (i + 1) by omega]
        · have hne : t.toNat ≠ c.toNat := fun x => e (BitVec.eq_of_toNat_eq x)
          have hs : (Filters.Thin.filter ⟨t, c⟩).1 = ⟨t, c + 1⟩ := by
            simp only [Filters.Thin.filter, beq_false_of_ne e, Bool.false_eq_true, if_false]
          have h1 : (c + 1).toNat = c.toNat + 1 := by
            rw [BitVec.toNat_add]; simp; omega
          rw [hs, ih i (k + 1) (c + 1) (by omega) (by omega) (by omega) ⟨q, by rw [h1, hq]; ring⟩]
          rw [show k + 1 + i = k + (i + 1) by omega]
  have := key n i 0 0 hi (by simp) (by simp) ⟨0, by simp⟩
  rw [Nat.zero_add] at this
  exact this

/-- With step 0 the filter keeps exactly the points whose index is a multiple of 2^32. -/
theorem thin_zero (n i : Nat) (hi : i < n) :
    (verdicts Filters.Thin.filter n (Filters.Thin.new 0))[i]? = some (decide (2 ^ 32 ∣ i)) := by
  have key : ∀ n i k, i < n →
      (verdicts Filters.Thin.filter n ⟨0, BitVec.ofNat 32 k⟩)[i]? = some (decide (2 ^ 32 ∣ k + i)) := by
    intro n
    induction n with
    | zero => intro i k h; omega
    | succ n ih =>
      intro i k hin
      rw [verdicts]
      have hacc : (Filters.Thin.filter ⟨0, BitVec.ofNat 32 k⟩).2 = decide (2 ^ 32 ∣ k) := by
        simp only [Filters.Thin.filter]
        by_cases e : 2 ^ 32 ∣ k
        · have : BitVec.ofNat 32 k = 0#32 := by
            apply BitVec.eq_of_toNat_eq; simp; omega
          rw [this, decide_eq_true e]; rfl
        · rw [decide_eq_false e]
          apply beq_false_of_ne
          intro x
          have := congrArg BitVec.toNat x
          simp at this
          omega
      have hst : (Filters.Thin.filter ⟨0, BitVec.ofNat 32 k⟩).1 = ⟨0, BitVec.ofNat 32 (k + 1)⟩ := by
        simp only [Filters.Thin.filter]
        split
        · rename_i h
          have := eq_of_beq h
          rw [BitVec.ofNat_add, ← this]; rfl
        · rw [BitVec.ofNat_add]; rfl
      cases i with
      | zero => rw [List.getElem?_cons_zero, hacc]; rfl
      | succ i =>
        rw [List.getElem?_cons_succ, hst, ih i (k + 1) (by omega), show k + 1 + i = k + (i + 1) by omega]
  have := key n i 0 hi
  simpa [Filters.Thin.new] using this

/-- Every third point of ten: indices 3, 6, 9. -/
example : verdicts Filters.Thin.filter 10 (Filters.Thin.new 3) =
    [false, false, false, true, false, false, true, false, false, true] := by decide

theorem continuous_run {T : Type} (o : Filters.Order T) (ty : FilterType) (get : Point → Outcome T)
    (v x : T) (c : Filters.Cmp) (p : Point) (h : get p = .ok x) :
    Filters.Continuous.filter o ty ⟨get, some c, v⟩ p = .ok (keeps ty (c.run o x v)) := by
  unfold Filters.Continuous.filter
  dsimp only
  rw [h, Outcome.bind_ok]
  cases c.run o x v <;> cases ty <;> rfl

/-- C33: the exclusion type accepts exactly the points the inclusion type rejects, for every value type, comparison
and point the value can be read from. -/
theorem continuous_complement {T : Type} (o : Filters.Order T) (get : Point → Outcome T) (v x : T) (c : Filters.Cmp)
    (p : Point) (h : get p = .ok x) :
    ∃ k, (Filters.Continuous.make get v c).filter o .inclusion p = .ok (keeps .inclusion k) ∧
      (Filters.Continuous.make get v c).filter o .exclusion p = .ok (keeps .exclusion k) := by
  exact ⟨c.run o x v, continuous_run o _ get v x c p h, continuous_run o _ get v x c p h⟩

theorem not_contains {l : List Char} {c : Char} (h : ∀ x ∈ l, x ≠ '<' ∧ x ≠ '>' ∧ x ≠ '=')
    (hc : c = '<' ∨ c = '>' ∨ c = '=') : c ∉ l := by
  intro hm
  have := h c hm
  rcases hc with e | e | e <;> subst e <;> simp at this

theorem afterLast_none {l : List Char} {c : Char} (h : c ∉ l) : Filters.afterLast c l = 0 := by
  induction l with
  | nil => rfl
  | cons x xs ih =>
    have hx : ¬ x = c := fun e => by subst e; simp at h
    rw [Filters.afterLast, ih (fun m => h (List.mem_cons_of_mem _ m))]
    simp [hx]

/-- The texts understood: sign and number. -/
theorem parse_sign (s : Sign) (hs : s ≠ .ne) (num : List Char)
    (h : ∀ x ∈ num, x ≠ '<' ∧ x ≠ '>' ∧ x ≠ '=') :
    ∃ c, Filters.parseExpr (s.text ++ num) = (some c, num) ∧
      (∀ a v : BitVec 16, c.run Filters.u16Order a v = s.holds a.toNat v.toNat) ∧
      (∀ a v : ℚ, c.run Filters.flOrder (.fin a) (.fin v) = s.holds a v) := by
  have h1 := not_contains h (c := '<') (.inl rfl)
  have h2 := not_contains h (c := '>') (.inr (.inl rfl))
  have h3 := not_contains h (c := '=') (.inr (.inr rfl))
  have h4 := afterLast_none h3
  cases s
  · refine ⟨.lt, ?_, ?_, ?_⟩
    · simp [Filters.parseExpr, Filters.hasPredicate, Sign.text, h1, h2, h3, Filters.afterFirst]
    · intro a v; rfl
    · intro a v; rfl
  · refine ⟨.le, ?_, ?_, ?_⟩
    · simp [Filters.parseExpr, Filters.hasPredicate, Sign.text, h1, h2, h3, Filters.afterFirst]
    · intro a v; rfl
    · intro a v; rfl
  · refine ⟨.gt, ?_, ?_, ?_⟩
    · simp [Filters.parseExpr, Filters.hasPredicate, Sign.text, h1, h2, h3, Filters.afterFirst]
    · intro a v; rfl
    · intro a v; rfl
  · refine ⟨.ge, ?_, ?_, ?_⟩
    · simp [Filters.parseExpr, Filters.hasPredicate, Sign.text, h1, h2, h3, Filters.afterFirst]
    · intro a v; rfl
    · intro a v; rfl
  · refine ⟨.eq, ?_, ?_, ?_⟩
    · simp [Filters.parseExpr, Filters.hasPredicate, Sign.text, h1, h2, h3, Filters.afterLast, h4]
    · intro a v; rfl
    · intro a v
      simp only [Filters.Cmp.run, Filters.flOrder, Fl.le, Sign.holds]
      rw [← Bool.decide_and]
      exact decide_eq_decide.mpr ⟨fun h => le_antisymm h.1 h.2, fun h => ⟨h.le, h.ge⟩⟩
  · exact absurd rfl hs

/-- C33, integer attributes: a filter made from a text `<sign><number>`, sign one of `<`, `<=`, `>`, `>=`, `==`, keeps
(inclusion) or drops (exclusion) exactly the points whose attribute compares that way with the number. `cast` is the
number conversion and `get` any 16-bit attribute. `!=` is missing: `not_equal_means_equal`. -/
theorem continuous_text_partial (cast : List Char → Option (BitVec 16)) (get : Point → Outcome (BitVec 16))
    (s : Sign) (hs : s ≠ .ne) (num : List Char) (hnum : ∀ x ∈ num, x ≠ '<' ∧ x ≠ '>' ∧ x ≠ '=')
    (v : BitVec 16) (hv : cast num = some v) :
    ∃ f, Filters.Continuous.ofText cast get (s.text ++ num) = .ok f ∧
      ∀ ty p x, get p = .ok x → f.filter Filters.u16Order ty p = .ok (keeps ty (s.holds x.toNat v.toNat)) := by
  obtain ⟨c, hp, hc, -⟩ := parse_sign s hs num hnum
  refine ⟨⟨get, some c, v⟩, ?_, ?_⟩
  · simp [Filters.Continuous.ofText, hp, hv]
  · intro ty p x hx
    rw [continuous_run _ _ _ _ _ _ _ hx, hc]

/-- C33, floating-point attributes (finite values). -/
theorem continuous_text_double_partial (cast : List Char → Option Fl) (get : Point → Outcome Fl)
    (s : Sign) (hs : s ≠ .ne) (num : List Char) (hnum : ∀ x ∈ num, x ≠ '<' ∧ x ≠ '>' ∧ x ≠ '=')
    (v : ℚ) (hv : cast num = some (.fin v)) :
    ∃ f, Filters.Continuous.ofText cast get (s.text ++ num) = .ok f ∧
      ∀ ty p x, get p = .ok (.fin x) → f.filter Filters.flOrder ty p = .ok (keeps ty (s.holds x v)) := by
  obtain ⟨c, hp, -, hc⟩ := parse_sign s hs num hnum
  refine ⟨⟨get, some c, .fin v⟩, ?_, ?_⟩
  · simp [Filters.Continuous.ofText, hp, hv]
  · intro ty p x hx
    rw [continuous_run _ _ _ _ _ _ _ hx, hc]

/-- C33 fails for `!=`: the text is taken for `==`, so the filter keeps exactly the points it should drop. -/
theorem not_equal_means_equal (cast : List Char → Option (BitVec 16)) (get : Point → Outcome (BitVec 16))
    (num : List Char) (hnum : ∀ x ∈ num, x ≠ '<' ∧ x ≠ '>' ∧ x ≠ '=') (v : BitVec 16) (hv : cast num = some v) :
    ∃ f, Filters.Continuous.ofText cast get (Sign.ne.text ++ num) = .ok f ∧
      ∀ ty p x, get p = .ok x → f.filter Filters.u16Order ty p = .ok (keeps ty (Sign.eq.holds x.toNat v.toNat)) := by
  have h1 := not_contains hnum (c := '<') (.inl rfl)
  have h2 := not_contains hnum (c := '>') (.inr (.inl rfl))
  have h4 := afterLast_none (not_contains hnum (c := '=') (.inr (.inr rfl)))
  refine ⟨⟨get, some .eq, v⟩, ?_, ?_⟩
  · simp [Filters.Continuous.ofText, Filters.parseExpr, Filters.hasPredicate, Sign.text, h1, h2,
      Filters.afterLast, h4, hv]
  · intro ty p x hx
    rw [continuous_run _ _ _ _ _ _ _ hx]; rfl

/-- A text without a sign gives a filter that throws on every point. -/
theorem no_sign_throws {T : Type} (o : Filters.Order T) (cast : List Char → Option T) (get : Point → Outcome T)
    (num : List Char) (hnum : ∀ x ∈ num, x ≠ '<' ∧ x ≠ '>' ∧ x ≠ '=') (v : T) (hv : cast num = some v) :
    ∃ f, Filters.Continuous.ofText cast get num = .ok f ∧
      ∀ ty p x, get p = .ok x → f.filter o ty p = .throw .runtimeError := by
  have h1 := not_contains hnum (c := '<') (.inl rfl)
  have h2 := not_contains hnum (c := '>') (.inr (.inl rfl))
  have h3 := not_contains hnum (c := '=') (.inr (.inr rfl))
  refine ⟨⟨get, none, v⟩, ?_, ?_⟩
  · simp [Filters.Continuous.ofText, Filters.parseExpr, Filters.hasPredicate, h1, h2, h3, hv]
  · intro ty p x hx
    simp [Filters.Continuous.filter, hx]

/-- A decimal conversion, to exhibit the hypotheses of the text theorems. -/
private def digits (s : List Char) : Option (BitVec 16) :=
  if s.all Char.isDigit then some (BitVec.ofNat 16 (s.foldl (fun n c => 10 * n + (c.toNat - 48)) 0)) else none
example : digits ['1', '0', '0'] = some 100 ∧ ∀ x ∈ ['1', '0', '0'], x ≠ '<' ∧ x ≠ '>' ∧ x ≠ '=' := by decide +kernel

/-- A coordinate lies in a closed interval (comparisons of doubles, so never for a NaN). -/
def Spec.inside (lo hi v : Fl) : Bool := Fl.le lo v && Fl.le v hi

theorem box2 (r0 r1 : Range) (x y z : Fl) :
    Bounds.containsXYZ ⟨[r0, r1]⟩ x y z = (r0.containsValue x && r1.containsValue y) := by
  unfold Bounds.containsXYZ
  dsimp only
  cases r0.containsValue x <;> cases r1.containsValue y <;> rfl

theorem box3 (r0 r1 r2 : Range) (x y z : Fl) :
    Bounds.containsXYZ ⟨[r0, r1, r2]⟩ x y z =
      (r0.containsValue x && r1.containsValue y && (r2.containsValue z || compareDistance r2.length (.fin 0))) := by
  unfold Bounds.containsXYZ
  dsimp only
  cases r0.containsValue x <;> cases r1.containsValue y <;> cases r2.containsValue z <;>
    cases compareDistance r2.length (.fin 0) <;> rfl

/-- C34 for a two-dimensional filter: exactly the points inside. The type of the filter is ignored. -/
theorem bounds_filter_2d (b : Build) (ty : FilterType) (x0 y0 x1 y1 : Fl) (p : Point) (x y z : Fl)
    (hx : p.getX b = .ok x) (hy : p.getY b = .ok y) (hz : p.getZ b = .ok z) :
    Filters.bounds b ty (Bounds.make2 x0 y0 x1 y1) p = .ok (inside x0 x1 x && inside y0 y1 y) := by
  simp only [Filters.bounds, Bounds.containsPoint, hx, hy, hz, Outcome.bind_ok, Outcome.pure_eq, Bounds.make2, box2]
  rfl

/-- C34 for a three-dimensional filter whose z interval has a length (not within 2^-52 of zero): exactly the points
inside. Missing: a z interval without length, see `bounds_filter_flat`. -/
theorem bounds_filter_3d_partial (b : Build) (ty : FilterType) (x0 y0 z0 x1 y1 z1 : Fl) (p : Point) (x y z : Fl)
    (hx : p.getX b = .ok x) (hy : p.getY b = .ok y) (hz : p.getZ b = .ok z)
    (hlen : within (.fin (1 / 2 ^ 52)) (Fl.sub (Fl.sub z1 z0) (.fin 0)) = false) :
    Filters.bounds b ty (Bounds.make3 x0 y0 z0 x1 y1 z1) p =
      .ok (inside x0 x1 x && inside y0 y1 y && inside z0 z1 z) := by
  simp only [Filters.bounds, Bounds.containsPoint, hx, hy, hz, Outcome.bind_ok, Outcome.pure_eq, Bounds.make3, box3,
    compareDistance, Range.length, hlen, Bool.or_false]
  rfl

/-- C34 fails for a z interval without length: z is not looked at. -/
theorem bounds_filter_flat (b : Build) (ty : FilterType) (x0 y0 z0 x1 y1 z1 : Fl) (p : Point) (x y z : Fl)
    (hx : p.getX b = .ok x) (hy : p.getY b = .ok y) (hz : p.getZ b = .ok z)
    (hlen : within (.fin (1 / 2 ^ 52)) (Fl.sub (Fl.sub z1 z0) (.fin 0)) = true) :
    Filters.bounds b ty (Bounds.make3 x0 y0 z0 x1 y1 z1) p = .ok (inside x0 x1 x && inside y0 y1 y) := by
  simp only [Filters.bounds, Bounds.containsPoint, hx, hy, hz, Outcome.bind_ok, Outcome.pure_eq, Bounds.make3, box3,
    compareDistance, Range.length, hlen, Bool.or_true, Bool.and_true]
  rfl

/-- A bounds filter with fewer than two dimensions accepts nothing. -/
theorem bounds_filter_low_dimension (b : Build) (ty : FilterType) (box : Bounds) (p : Point) (x y z : Fl)
    (hx : p.getX b = .ok x) (hy : p.getY b = .ok y) (hz : p.getZ b = .ok z) (hd : box.dimension < 2) :
    Filters.bounds b ty box p = .ok false := by
  obtain ⟨l⟩ := box
  simp only [Bounds.dimension] at hd
  simp only [Filters.bounds, Bounds.containsPoint, hx, hy, hz, Outcome.bind_ok, Outcome.pure_eq, Bounds.containsXYZ]
  match l, hd with
  | [], _ => rfl
  | [_], _ => rfl

/-- Both kinds of z interval occur, and the coordinates can be read. -/
example : within (.fin (1 / 2 ^ 52)) (Fl.sub (Fl.sub (.fin 10) (.fin 0)) (.fin 0)) = false ∧
    within (.fin (1 / 2 ^ 52)) (Fl.sub (Fl.sub (.fin 5) (.fin 5)) (.fin 0)) = true ∧
    groundPoint.getX pc = .ok (.fin 0) := by decide +kernel
/-- The negation of C34 on a concrete point: z = 0 is outside [5, 5] but the point is accepted. -/
theorem bounds_filter_wrong : ∃ z, groundPoint.getZ pc = .ok z ∧ inside (.fin 5) (.fin 5) z = false ∧
    Filters.bounds pc .inclusion (Bounds.make3 (.fin 0) (.fin 0) (.fin 5) (.fin 1) (.fin 1) (.fin 5)) groundPoint =
      .ok true := ⟨.fin 0, by decide +kernel, by decide +kernel, by decide +kernel⟩

end LibLAS
