import Verif.Model.Transform
import Verif.Props.Coord
/-
C36: the text of a coordinate shift; C51: what a coordinate shift does to a point.
-/
set_option linter.unusedSimpArgs false
namespace LibLAS
open Spec Point Transform

/-- One term of a coordinate-shift text: axis letter, operator sign, number. -/
structure Spec.Term where
  axis : Axis
  oper : Oper
  num : List Char

/-- The letter of an axis. -/
def Spec.axisLetter : Axis → Char
  | .x => 'x'
  | .y => 'y'
  | .z => 'z'

/-- The sign of an operator. -/
def Spec.operSign : Oper → Char
  | .multiply => '*'
  | .divide => '/'
  | .add => '+'
  | .subtract => '-'

/-- How a term is written, e.g. `x+2.5`. -/
def Spec.Term.text (t : Term) : List Char := axisLetter t.axis :: operSign t.oper :: t.num

/-- Terms separated by spaces. -/
def Spec.joinTerms : List Term → List Char
  | [] => []
  | [t] => t.text
  | t :: ts => t.text ++ ' ' :: joinTerms ts

/-- A number written without axis letters, operator signs (so no sign and no negative exponent) and spaces. -/
def Spec.plainNumber (num : List Char) : Prop :=
  ∀ c ∈ num, c ∉ ['x', 'y', 'z', '*', '/', '+', '-', ' ']

private theorem plain_not {num : List Char} (h : plainNumber num) {c : Char}
    (hc : c ∈ ['x', 'y', 'z', '*', '/', '+', '-', ' ']) : c ∉ num := fun hm => h c hm hc

private theorem afterLast_zero {l : List Char} {c : Char} (h : c ∉ l) : afterLast c l = 0 := by
  induction l with
  | nil => rfl
  | cons x xs ih =>
    have hx : ¬ x = c := fun e => h (by simp [e])
    rw [afterLast, ih (fun m => h (List.mem_cons_of_mem _ m))]
    simp [hx]

private theorem term_parse (cast : List Char → Option Fl) (t : Term) (h : plainNumber t.num) (v : Fl)
    (hv : cast t.num = some v) : getOperation cast t.text = .ok ⟨t.oper, t.axis, v⟩ := by
  obtain ⟨ax, op, num⟩ := t
  simp only at h hv
  have hx := plain_not h (c := 'x') (by simp)
  have hy := plain_not h (c := 'y') (by simp)
  have hz := plain_not h (c := 'z') (by simp)
  have hm := plain_not h (c := '*') (by simp)
  have hd := plain_not h (c := '/') (by simp)
  have hp := plain_not h (c := '+') (by simp)
  have hs := plain_not h (c := '-') (by simp)
  have hsp := plain_not h (c := ' ') (by simp)
  have hf : num.filter (fun c => decide (c ≠ ' ')) = num :=
    List.filter_eq_self.mpr fun a ha => by
      simp only [ne_eq, decide_eq_true_eq]; intro e; exact hsp (e ▸ ha)
  have e : ∀ a o : Char, a ≠ ' ' → o ≠ ' ' → (a :: o :: num).filter (fun c => decide (c ≠ ' ')) = a :: o :: num := by
    intro a o h1 h2
    simp only [List.filter_cons, h1, h2, ne_eq, not_false_eq_true, decide_true, if_true]
    rw [show (fun c : Char => decide ¬ c = ' ') = fun c => decide (c ≠ ' ') from rfl, hf]
  have m1 := afterLast_zero hm
  have m2 := afterLast_zero hd
  have m3 := afterLast_zero hp
  have m4 := afterLast_zero hs
  unfold getOperation Term.text
  simp only
  rw [e _ _ (by cases ax <;> decide) (by cases op <;> decide)]
  cases ax <;> cases op <;>
    simp [axisLetter, operSign, hx, hy, hz, hm, hd, hp, hs, afterLast, m1, m2, m3, m4, hv]

private theorem tokensAux_word (t rest cur : List Char) (h : ' ' ∉ t) :
    tokensAux (t ++ rest) cur = tokensAux rest (t.reverse ++ cur) := by
  induction t generalizing cur with
  | nil => rfl
  | cons c cs ih =>
    have hc : ¬ c = ' ' := fun e => h (by simp [e])
    rw [List.cons_append, tokensAux, if_neg hc, ih _ (fun m => h (List.mem_cons_of_mem _ m))]
    simp

private theorem term_nospace (t : Term) (h : plainNumber t.num) : ' ' ∉ t.text := by
  have := plain_not h (c := ' ') (by simp)
  unfold Term.text
  simp only [List.mem_cons, not_or]
  exact ⟨by cases t.axis <;> decide, by cases t.oper <;> decide, this⟩

private theorem tokens_join (ts : List Term) (h : ∀ t ∈ ts, plainNumber t.num) :
    tokens (joinTerms ts) = ts.map Term.text := by
  induction ts with
  | nil => rfl
  | cons t ts ih =>
    have ht := term_nospace t (h t (by simp))
    have hne : t.text ≠ [] := by simp [Term.text]
    cases ts with
    | nil =>
      have := tokensAux_word t.text [] [] ht
      simp only [List.append_nil] at this
      simp only [tokens, joinTerms, this, tokensAux, List.reverse_eq_nil_iff, hne, if_false, List.reverse_reverse]
      rfl
    | cons u us =>
      have := ih fun x hx => h x (List.mem_cons_of_mem _ hx)
      simp only [tokens, joinTerms, tokensAux_word _ _ _ ht, List.append_nil, tokensAux, if_true,
        List.reverse_eq_nil_iff, hne, if_false, List.reverse_reverse, List.map_cons]
      simp only [tokens, List.map_cons] at this
      rw [this]

/-- C36: every text of one or more terms `<axis><operator><number>` separated by spaces is parsed to exactly those
axes, operators and numbers, in order. The numbers must be plain; negative numbers and exponents are misread
(`negative_number_misread`), and other texts are accepted too (`two_axes_accepted`). -/
theorem shift_expression_partial (cast : List Char → Option Fl) (ts : List Term) (hne : ts ≠ [])
    (h : ∀ t ∈ ts, plainNumber t.num) (val : Term → Fl) (hv : ∀ t ∈ ts, cast t.num = some (val t)) :
    Transform.make cast (joinTerms ts) = .ok (ts.map fun t => ⟨t.oper, t.axis, val t⟩) := by
  have hl : (joinTerms ts).length ≠ 0 := by
    match ts, hne with
    | [t], _ => simp [joinTerms, Term.text]
    | t :: u :: us, _ => simp [joinTerms, Term.text]
  rw [Transform.make, if_neg hl, tokens_join ts h]
  clear hne hl
  induction ts with
  | nil => rfl
  | cons t ts ih =>
    rw [List.map_cons, parseAll, term_parse cast t (h t (by simp)) _ (hv t (by simp)),
      ih (fun x hx => h x (List.mem_cons_of_mem _ hx)) (fun x hx => hv x (List.mem_cons_of_mem _ hx))]
    rfl

/-- Whole numbers, to exhibit the hypotheses. -/
private def whole (s : List Char) : Option Fl :=
  if s ≠ [] ∧ s.all Char.isDigit then
    some (.fin ((s.foldl (fun n c => 10 * n + (c.toNat - 48)) 0 : Nat) : ℚ)) else none

example : ∀ t ∈ [(⟨.x, .add, ['2', '5']⟩ : Term), ⟨.z, .multiply, ['3']⟩],
    (∀ c ∈ t.num, c ∉ ['x', 'y', 'z', '*', '/', '+', '-', ' ']) ∧ (whole t.num).isSome = true := by decide +kernel
example : Transform.make whole "x+25 z*3".toList = .ok [⟨.add, .x, .fin 25⟩, ⟨.multiply, .z, .fin 3⟩] := by
  decide +kernel

/-- C36, rejection: a term without an axis letter, or without an operator sign, is rejected with
`invalid_expression`, and so is a term with all three axis letters. -/
theorem bad_term_rejected (cast : List Char → Option Fl) (s : List Char)
    (h : (∀ c ∈ ['x', 'y', 'z'], c ∉ s) ∨ (∀ c ∈ ['*', '/', '+', '-'], c ∉ s) ∨ (∀ c ∈ ['x', 'y', 'z'], c ∈ s)) :
    getOperation cast s = .throw .liblasError := by
  unfold getOperation
  rcases h with h | h | h
  · simp only [List.mem_cons, List.not_mem_nil, or_false, forall_eq_or_imp, forall_eq] at h
    simp [h.1, h.2.1, h.2.2]
  · simp only [List.mem_cons, List.not_mem_nil, or_false, forall_eq_or_imp, forall_eq] at h
    simp only [List.contains_eq_mem, List.mem_filter, h.1, h.2.1, h.2.2.1, h.2.2.2, false_and, decide_false]
    split
    · rfl
    · split
      · rfl
      · split <;> rfl
  · simp only [List.mem_cons, List.not_mem_nil, or_false, forall_eq_or_imp, forall_eq] at h
    simp [h.1, h.2.1, h.2.2]

/-- An empty text is rejected; a text of spaces is accepted and means nothing. -/
theorem blank_expression (cast : List Char → Option Fl) :
    Transform.make cast [] = .throw .runtimeError ∧ Transform.make cast [' '] = .ok [] := ⟨rfl, rfl⟩

/-- C36 fails for negative numbers: `x*-2` is read as `x-2`. -/
theorem negative_number_misread : Transform.make whole "x*-2".toList = .ok [⟨.subtract, .x, .fin 2⟩] := by
  decide +kernel

/-- C36 fails for other texts: `xy*3` is accepted and taken as `y*3`, and `7y*8+5` as `y+5`. -/
theorem two_axes_accepted : Transform.make whole "xy*3".toList = .ok [⟨.multiply, .y, .fin 3⟩] ∧
    Transform.make whole "7y*8+5".toList = .ok [⟨.add, .y, .fin 5⟩] := by decide +kernel

/-- The two ends of the 32-bit integers. -/
def Spec.atEnd (v : BitVec 32) : Bool := decide (v.toInt = 2147483647 ∨ v.toInt = -2147483648)

private theorem extreme_wraps (v : BitVec 32) : extreme true v = .ok (atEnd v) := by
  have h1 : (v - 0x7FFFFFFF#32 == 0) = decide (v.toInt = 2147483647) := by
    by_cases e : v = 0x7FFFFFFF#32
    · subst e; rfl
    · rw [beq_false_of_ne, decide_eq_false]
      · intro x; exact e (BitVec.eq_of_toInt_eq x)
      · intro x; exact e (by rw [← BitVec.sub_add_cancel v 0x7FFFFFFF#32, x]; rfl)
  have h2 : (v - 0x80000000#32 == 0) = decide (v.toInt = -2147483648) := by
    by_cases e : v = 0x80000000#32
    · subst e; rfl
    · rw [beq_false_of_ne, decide_eq_false]
      · intro x; exact e (BitVec.eq_of_toInt_eq x)
      · intro x; exact e (by rw [← BitVec.sub_add_cancel v 0x80000000#32, x]; rfl)
  unfold extreme sameInt atEnd
  simp only [Bool.not_true, Bool.false_and, Bool.false_eq_true, if_false, Outcome.bind_ok, Outcome.pure_eq, h1, h2]
  by_cases e : v.toInt = 2147483647
  · simp [e]
  · simp [e]

/-- C51 fails by the letter of the language: the range test after every operation subtracts two `int32_t`, which
overflows for every raw coordinate other than -1 and 2^31 - 1, so the behaviour is undefined on almost every point
unless the compiler makes signed overflow wrap. -/
theorem shift_check_overflows (v : BitVec 32) (h1 : v.toInt ≠ -1) (h2 : v.toInt ≠ 2147483647) :
    extreme false v = .ub := by
  have hlo := BitVec.le_toInt v
  have hhi := BitVec.toInt_lt (x := v)
  simp only [Nat.add_one_sub_one, Nat.reducePow, Nat.reduceSub] at hlo hhi
  have e1 : BitVec.ssubOverflow v 0x7FFFFFFF#32 = decide (v.toInt < -1) := by
    unfold BitVec.ssubOverflow
    have : (0x7FFFFFFF#32).toInt = 2147483647 := rfl
    rw [this, ← Bool.decide_or]
    apply decide_eq_decide.mpr
    simp only [Nat.reduceSub, Int.reducePow]
    omega
  have e2 : BitVec.ssubOverflow v 0x80000000#32 = decide (-1 < v.toInt) := by
    unfold BitVec.ssubOverflow
    have : (0x80000000#32).toInt = -2147483648 := rfl
    rw [this, ← Bool.decide_or]
    apply decide_eq_decide.mpr
    simp only [Nat.reduceSub, Int.reducePow]
    omega
  unfold extreme sameInt
  rw [e1, e2]
  by_cases hn : v.toInt < -1
  · simp [hn]
  · have hp : -1 < v.toInt := by omega
    have hne : ¬ v - 0x7FFFFFFF#32 = 0#32 := by
      intro x
      apply h2
      rw [show v = 0x7FFFFFFF#32 by rw [← BitVec.sub_add_cancel v 0x7FFFFFFF#32, x]; rfl]; rfl
    simp [hn, hp, hne]

private theorem check_wraps {b : Build} {p : Point} {a : Attrs} (h : observe b p = .ok a) :
    checkRaw true b p =
      if atEnd a.rawX || atEnd a.rawY || atEnd a.rawZ then .throw .domainError else .ok () := by
  have hx : p.getRawX b = .ok a.rawX ∧ p.getRawY b = .ok a.rawY ∧ p.getRawZ b = .ok a.rawZ := by
    unfold observe at h
    cases h1 : p.getRawX b with
    | throw e => simp [h1] at h
    | ub => simp [h1] at h
    | ok x =>
      cases h2 : p.getRawY b with
      | throw e => simp [h1, h2] at h
      | ub => simp [h1, h2] at h
      | ok y =>
        cases h3 : p.getRawZ b with
        | throw e => simp [h1, h2, h3] at h
        | ub => simp [h1, h2, h3] at h
        | ok z =>
          simp only [h1, h2, h3, Outcome.bind_ok] at h
          cases h4 : p.getIntensity b <;> simp only [h4, Outcome.bind_ok, Outcome.bind_throw, Outcome.bind_ub, reduceCtorEq] at h
          cases h5 : p.getReturnNumber <;> simp only [h5, Outcome.bind_ok, Outcome.bind_throw, Outcome.bind_ub, reduceCtorEq] at h
          cases h6 : p.getNumberOfReturns <;> simp only [h6, Outcome.bind_ok, Outcome.bind_throw, Outcome.bind_ub, reduceCtorEq] at h
          cases h7 : p.getScanDirection <;> simp only [h7, Outcome.bind_ok, Outcome.bind_throw, Outcome.bind_ub, reduceCtorEq] at h
          cases h8 : p.getFlightLineEdge <;> simp only [h8, Outcome.bind_ok, Outcome.bind_throw, Outcome.bind_ub, reduceCtorEq] at h
          cases h9 : p.getClassification <;> simp only [h9, Outcome.bind_ok, Outcome.bind_throw, Outcome.bind_ub, reduceCtorEq] at h
          cases h10 : p.getScanAngleRank <;> simp only [h10, Outcome.bind_ok, Outcome.bind_throw, Outcome.bind_ub, reduceCtorEq] at h
          cases h11 : p.getUserData <;> simp only [h11, Outcome.bind_ok, Outcome.bind_throw, Outcome.bind_ub, reduceCtorEq] at h
          cases h12 : p.getPointSourceID b <;> simp only [h12, Outcome.bind_ok, Outcome.bind_throw, Outcome.bind_ub, reduceCtorEq] at h
          cases h13 : p.getTime b <;> simp only [h13, Outcome.bind_ok, Outcome.bind_throw, Outcome.bind_ub, reduceCtorEq] at h
          cases h14 : p.getColor b <;> simp only [h14, Outcome.bind_ok, Outcome.bind_throw, Outcome.bind_ub, reduceCtorEq] at h
          simp only [Outcome.pure_eq, Outcome.ok.injEq] at h
          subst h
          exact ⟨rfl, rfl, rfl⟩
  unfold checkRaw
  simp only [hx.1, hx.2.1, hx.2.2, Outcome.bind_ok, extreme_wraps, Outcome.pure_eq]
  cases atEnd a.rawX <;> cases atEnd a.rawY <;> cases atEnd a.rawZ <;> rfl

/-- The result of an operator. -/
def Spec.operResult : Oper → Fl → Fl → Fl
  | .multiply, a, v => Fl.mul a v
  | .divide, a, v => Fl.div a v
  | .add, a, v => Fl.add a v
  | .subtract, a, v => Fl.sub a v

private theorem run_eq : Oper.run = operResult := by
  funext o a v; cases o <;> rfl

/-- C51 where signed overflow wraps: one operation replaces the coordinate of its axis by the nearest representable
value of the result and changes nothing else; if a raw coordinate then is at either end of the 32-bit range, it throws
`domain_error`. For every point with well-conditioned scaling and every result that fits the record. -/
theorem shift_moves_axis_partial (b : Build) (p : Point) (hwf : p.WF) (hg : GoodScaling p.hdr) (o : Oper) (v : Fl) :
    (∀ x, p.getX b = .ok x → InRange (operResult o x v) p.hdr.scale.x p.hdr.offset.x →
      ∃ p' a w, observe b p = .ok a ∧ observe b p' = .ok { a with rawX := w } ∧
        Nearest w (operResult o x v) p.hdr.scale.x p.hdr.offset.x ∧
        Transform.run true b [⟨o, .x, v⟩] p =
          if atEnd w || atEnd a.rawY || atEnd a.rawZ then .throw .domainError else .ok p') ∧
    (∀ y, p.getY b = .ok y → InRange (operResult o y v) p.hdr.scale.y p.hdr.offset.y →
      ∃ p' a w, observe b p = .ok a ∧ observe b p' = .ok { a with rawY := w } ∧
        Nearest w (operResult o y v) p.hdr.scale.y p.hdr.offset.y ∧
        Transform.run true b [⟨o, .y, v⟩] p =
          if atEnd a.rawX || atEnd w || atEnd a.rawZ then .throw .domainError else .ok p') ∧
    (∀ z, p.getZ b = .ok z → InRange (operResult o z v) p.hdr.scale.z p.hdr.offset.z →
      ∃ p' a w, observe b p = .ok a ∧ observe b p' = .ok { a with rawZ := w } ∧
        Nearest w (operResult o z v) p.hdr.scale.z p.hdr.offset.z ∧
        Transform.run true b [⟨o, .z, v⟩] p =
          if atEnd a.rawX || atEnd a.rawY || atEnd w then .throw .domainError else .ok p') := by
  rw [← run_eq]
  refine ⟨fun x hx hr => ?_, fun y hy hr => ?_, fun z hz hr => ?_⟩
  · obtain ⟨p', a, w, h1, h2, h3, h4⟩ := (coordinate_set_nearest b p hwf hg _).1 hr
    refine ⟨p', a, w, h2, h3, h4, ?_⟩
    simp only [Transform.run, applyOp, hx, Outcome.bind_ok, h1, check_wraps h3]
    split <;> rfl
  · obtain ⟨p', a, w, h1, h2, h3, h4⟩ := (coordinate_set_nearest b p hwf hg _).2.1 hr
    refine ⟨p', a, w, h2, h3, h4, ?_⟩
    simp only [Transform.run, applyOp, hy, Outcome.bind_ok, h1, check_wraps h3]
    split <;> rfl
  · obtain ⟨p', a, w, h1, h2, h3, h4⟩ := (coordinate_set_nearest b p hwf hg _).2.2 hr
    refine ⟨p', a, w, h2, h3, h4, ?_⟩
    simp only [Transform.run, applyOp, hz, Outcome.bind_ok, h1, check_wraps h3]
    split <;> rfl

/-- C51, several operations: each works on what the ones before it left; the first that is refused ends the
transformation. With `shift_moves_axis_partial` this says what any sequence does. -/
theorem shift_sequence (wraps : Bool) (b : Build) (ops more : List Operation) (p : Point) :
    Transform.run wraps b [] p = .ok p ∧
    Transform.run wraps b (ops ++ more) p = (Transform.run wraps b ops p).bind fun q => Transform.run wraps b more q := by
  refine ⟨rfl, ?_⟩
  induction ops generalizing p with
  | nil => rfl
  | cons o os ih =>
    rw [List.cons_append, Transform.run, Transform.run]
    show (applyOp b o p).bind _ = ((applyOp b o p).bind _).bind _
    cases applyOp b o p with
    | throw e => rfl
    | ub => rfl
    | ok q =>
      show (checkRaw wraps b q).bind _ = ((checkRaw wraps b q).bind _).bind _
      cases checkRaw wraps b q with
      | throw e => rfl
      | ub => rfl
      | ok _ => exact ih q

/-- A concrete shift: raw x 100 at scale 1 multiplied by 3. -/
example : (do
    let p ← (Point.new ⟨.f0, 20, false, false, ⟨.fin 1, .fin 1, .fin 1⟩, ⟨.fin 0, .fin 0, .fin 0⟩⟩).setX
      ⟨.little, false⟩ (.fin 100)
    let p ← Transform.run true ⟨.little, false⟩ [⟨.multiply, .x, .fin 3⟩] p
    p.getX ⟨.little, false⟩) = .ok (.fin 300) := by decide +kernel

/-- Two operations on the same axis: 100 times 3 minus 50 is 250. -/
example : (do
    let p ← (Point.new ⟨.f0, 20, false, false, ⟨.fin 1, .fin 1, .fin 1⟩, ⟨.fin 0, .fin 0, .fin 0⟩⟩).setX
      ⟨.little, false⟩ (.fin 100)
    let p ← Transform.run true ⟨.little, false⟩ [⟨.multiply, .x, .fin 3⟩, ⟨.subtract, .x, .fin 50⟩] p
    p.getX ⟨.little, false⟩) = .ok (.fin 250) := by decide +kernel

end LibLAS
