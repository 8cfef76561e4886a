import Verif.Model.KernelFilters
import Verif.Spec.KernelFilters
import Verif.Props.Filter
import Verif.Props.Las2las
import Verif.Lemmas.FloatOrder
/-
C65: the filtering options of the applications.
-/
set_option linter.unusedSimpArgs false
namespace LibLAS
open Spec Point

namespace Spec

/-- `if some`. -/
def optMap {α β : Type} (f : α → β) : Option α → Option β
  | none => none
  | some a => some (f a)

/-- The tokens of a colour range `R,G,B-R,G,B`. -/
def ColorRange.tokens (k : ColorRange) : Kernel.ColorTokens :=
  [[k.low.c0.toNat, k.low.c1.toNat, k.low.c2.toNat], [k.high.c0.toNat, k.high.c1.toNat, k.high.c2.toNat]]

/-- The command line for a choice. The window is given with `--extent`, or with `--minx`, `--miny`, ... -/
def Choice.options (c : Choice) (byExtent : Bool) : Kernel.FilterOpts :=
  let base : Kernel.FilterOpts :=
    { keepClasses := optMap (List.map (BitVec.ofNat 32)) c.keepClasses
      dropClasses := optMap (List.map (BitVec.ofNat 32)) c.dropClasses
      keepReturns := optMap (List.map (BitVec.ofNat 16)) c.keepReturns
      dropReturns := optMap (List.map (BitVec.ofNat 16)) c.dropReturns
      keepIntensity := optMap Cond.text c.keepIntensity
      dropIntensity := optMap Cond.text c.dropIntensity
      keepScanAngle := optMap Cond.text c.keepScanAngle
      dropScanAngle := optMap Cond.text c.dropScanAngle
      keepTime := optMap Cond.text c.keepTime
      dropTime := optMap Cond.text c.dropTime
      keepColor := optMap ColorRange.tokens c.keepColor
      dropColor := optMap ColorRange.tokens c.dropColor
      firstOnly := c.firstOnly
      lastOnly := c.lastOnly
      validOnly := c.validOnly }
  match c.window with
  | none => base
  | some (.plane x0 y0 x1 y1) =>
    if byExtent then { base with extent := some [.fin x0, .fin y0, .fin x1, .fin y1] }
    else { base with
      minX := some (.fin x0)
      minY := some (.fin y0)
      maxX := some (.fin x1)
      maxY := some (.fin y1) }
  | some (.space x0 y0 z0 x1 y1 z1) =>
    if byExtent then { base with extent := some [.fin x0, .fin y0, .fin z0, .fin x1, .fin y1, .fin z1] }
    else { base with
      minX := some (.fin x0)
      minY := some (.fin y0)
      minZ := some (.fin z0)
      maxX := some (.fin x1)
      maxY := some (.fin y1)
      maxZ := some (.fin z1) }

/-- A numeral the conversion understands, without signs. `rep` relates machine values and numbers. -/
def Numeral.Good {N T : Type} (cast : List Char → Option T) (rep : T → N → Prop) (n : Numeral N) : Prop :=
  (∃ v, cast n.text = some v ∧ rep v n.value) ∧ ∀ x ∈ n.text, x ≠ '<' ∧ x ≠ '>' ∧ x ≠ '=' ∧ x ≠ '-'

/-- Good numerals; the comparison is not `!=`. -/
def Cond.Good {N T : Type} (cast : List Char → Option T) (rep : T → N → Prop) : Cond N → Prop
  | .compare s n => s ≠ .ne ∧ n.Good cast rep
  | .between lo hi => lo.Good cast rep ∧ hi.Good cast rep

/-- A comparison, not a range. -/
def Cond.IsCompare {N : Type} : Cond N → Prop
  | .compare _ _ => True
  | .between _ _ => False

/-- The z interval of the window, if it has one, is not degenerate. -/
def Window.Thick : Window → Prop
  | .plane _ _ _ _ => True
  | .space _ _ z0 _ _ z1 => 1 / 2 ^ 51 ≤ |z1 - z0|

/-- The options the code handles as documented: no `--drop-classes`, no `--drop-returns`; classes up to 31; no `!=`, no
negative numbers; ranges only to keep; not both of first and last returns. `lx` are the number conversions. -/
structure Choice.Handled (lx : Kernel.Lexical) (c : Choice) : Prop where
  keepClasses : asked c.keepClasses fun l => l ≠ [] ∧ ∀ n ∈ l, n ≤ 31
  dropClasses : c.dropClasses = none
  keepReturns : asked c.keepReturns fun l => l ≠ [] ∧ ∀ n ∈ l, n < 2 ^ 16
  dropReturns : c.dropReturns = none
  window : asked c.window fun w => w.Thick
  keepIntensity : asked c.keepIntensity fun k => k.Good lx.u16 fun v n => v.toNat = n
  dropIntensity : asked c.dropIntensity fun k => (k.Good lx.u16 fun v n => v.toNat = n) ∧ k.IsCompare
  keepScanAngle : asked c.keepScanAngle fun k => k.Good lx.i32 fun v n => v.toInt = n
  dropScanAngle : asked c.dropScanAngle fun k => (k.Good lx.i32 fun v n => v.toInt = n) ∧ k.IsCompare
  keepTime : asked c.keepTime fun k => k.Good lx.dbl fun v q => v = .fin q
  dropTime : asked c.dropTime fun k => (k.Good lx.dbl fun v q => v = .fin q) ∧ k.IsCompare
  returns : ¬ (c.firstOnly = true ∧ c.lastOnly = true)

end Spec

namespace Kernel

/-- The filters run on the point without a failure, and all accept it exactly if `P`. -/
def Picks (fs : List PFilter) (p : Point) (P : Prop) : Prop :=
  (∀ f ∈ fs, ∃ v, f p = .ok v) ∧ ((∀ f ∈ fs, f p = .ok true) ↔ P)

private theorem Picks.append {fs gs : List PFilter} {p : Point} {P Q : Prop} (h : Picks fs p P) (k : Picks gs p Q) :
    Picks (fs ++ gs) p (P ∧ Q) := by
  refine ⟨fun f hf => ?_, ?_⟩
  · rcases List.mem_append.1 hf with hf | hf
    · exact h.1 f hf
    · exact k.1 f hf
  · rw [← h.2, ← k.2]
    simp only [List.mem_append, or_imp, forall_and]

private theorem Picks.nil {p : Point} {P : Prop} (hP : P) : Picks [] p P := ⟨by simp, by simpa using hP⟩

private theorem Picks.one {f : PFilter} {p : Point} {v : Bool} {P : Prop} (h : f p = .ok v) (hv : v = true ↔ P) :
    Picks [f] p P := by
  refine ⟨by simp [h], ?_⟩
  simp [h, hv]

private theorem Picks.congr {fs : List PFilter} {p : Point} {P Q : Prop} (h : Picks fs p P) (e : P ↔ Q) : Picks fs p Q :=
  ⟨h.1, h.2.trans e⟩

private theorem asked_none {α : Type} {P : α → Prop} : asked none P := by intro a h; cases h
private theorem asked_some {α : Type} {a : α} {P : α → Prop} : asked (some a) P ↔ P a :=
  ⟨fun h => h a rfl, fun h b e => by cases e; exact h⟩

/-- A block of `getFilters` succeeds with filters that pick `P`. -/
private def Block (x : Outcome (List PFilter)) (p : Point) (P : Prop) : Prop := ∃ fs, x = .ok fs ∧ Picks fs p P

section
variable {b : Build} {p : Point} {a : Attrs}

private theorem klasses_ok (l : List Nat) (h : ∀ n ∈ l, n ≤ 31) :
    klasses (l.map (BitVec.ofNat 32)) = .ok (l.map fun n => ⟨BitVec.ofNat 8 n⟩) := by
  induction l with
  | nil => rfl
  | cons n l ih =>
    have key : ∀ n : Fin 32, Classification.make (BitVec.ofNat 32 n) false false false = .ok ⟨BitVec.ofNat 8 n⟩ := by
      decide
    have h1 := key ⟨n, by have := h n (by simp); omega⟩
    rw [List.map_cons, klasses, h1, ih (fun m hm => h m (by simp [hm]))]
    rfl

private theorem class_number (k : Classification) (hs : k.isSynthetic = false) (hk : k.isKeyPoint = false)
    (hw : k.isWithheld = false) : k.flags.toNat = k.getClass.toNat ∧ k.flags.toNat ≤ 31 := by
  have key : ∀ f : Fin 256, let k : Classification := ⟨BitVec.ofFin f⟩
      k.isSynthetic = false → k.isKeyPoint = false → k.isWithheld = false →
      k.flags.toNat = k.getClass.toNat ∧ k.flags.toNat ≤ 31 := by decide +kernel
  have := key k.flags.toFin
  exact this hs hk hw

private theorem class_block (h : observe b p = .ok a) {o : Option (List Nat)}
    (hg : asked o fun l => l ≠ [] ∧ ∀ n ∈ l, n ≤ 31)
    (hfl : o ≠ none → a.classification.isSynthetic = false ∧ a.classification.isKeyPoint = false ∧
      a.classification.isWithheld = false) :
    Block (classFilters .inclusion (optMap (List.map (BitVec.ofNat 32)) o)) p
      (asked o fun l => a.classification.getClass.toNat ∈ l) := by
  cases o with
  | none => exact ⟨[], rfl, .nil asked_none⟩
  | some l =>
    obtain ⟨hne, hl⟩ := asked_some.1 hg
    obtain ⟨f1, f2, f3⟩ := hfl (by simp)
    obtain ⟨e1, e2⟩ := class_number _ f1 f2 f3
    refine ⟨_, by simp only [optMap, classFilters, klasses_ok l hl, Outcome.bind_ok, Outcome.pure_eq]; rfl, ?_⟩
    refine .one (classification_filter_partial h (by simpa using hne)) ?_
    rw [asked_some, keeps, decide_eq_true_iff, ← e1]
    constructor
    · intro hm
      obtain ⟨n, hn, e⟩ := List.mem_map.1 hm
      have : n = a.classification.flags.toNat := by
        rw [← e]; have := hl n hn; simp; omega
      rw [← this]; exact hn
    · intro hm
      refine List.mem_map.2 ⟨_, hm, ?_⟩
      cases a.classification
      simp

private theorem returns_block (h : observe b p = .ok a) {o : Option (List Nat)}
    (hg : asked o fun l => l ≠ [] ∧ ∀ n ∈ l, n < 2 ^ 16) :
    Block (keepReturnFilters (optMap (List.map (BitVec.ofNat 16)) o)) p (asked o fun l => a.returnNumber ∈ l) := by
  cases o with
  | none => exact ⟨[], rfl, .nil asked_none⟩
  | some l =>
    obtain ⟨hne, hl⟩ := asked_some.1 hg
    refine ⟨_, rfl, .one (return_filter_partial h (by simpa using hne)) ?_⟩
    rw [asked_some, keeps, decide_eq_true_iff, List.map_map]
    have : l.map (BitVec.toNat ∘ BitVec.ofNat 16) = l := by
      conv_rhs => rw [← List.map_id l]
      apply List.map_congr_left
      intro n hn
      have := hl n hn
      simp; omega
    rw [this]

/-- Comparing machine values is comparing the numbers. -/
private structure Faithful {N T : Type} [LinearOrder N] (o : Filters.Order T) (rep : T → N → Prop) : Prop where
  le : ∀ a b x y, rep a x → rep b y → o.le a b = decide (x ≤ y)
  lt : ∀ a b x y, rep a x → rep b y → o.lt a b = decide (x < y)
  eq : ∀ a b x y, rep a x → rep b y → o.eq a b = decide (x = y)

private theorem faithful_u16 : Faithful Filters.u16Order fun (v : BitVec 16) n => v.toNat = n :=
  ⟨fun _ _ _ _ h k => by subst h k; rfl, fun _ _ _ _ h k => by subst h k; rfl, fun _ _ _ _ h k => by subst h k; rfl⟩
private theorem faithful_i32 : Faithful i32Order fun (v : BitVec 32) n => v.toInt = n :=
  ⟨fun _ _ _ _ h k => by subst h k; rfl, fun _ _ _ _ h k => by subst h k; rfl, fun _ _ _ _ h k => by subst h k; rfl⟩
private theorem faithful_fl : Faithful Filters.flOrder fun (v : Fl) (q : ℚ) => v = .fin q :=
  ⟨fun _ _ _ _ h k => by subst h k; rfl, fun _ _ _ _ h k => by subst h k; rfl, fun _ _ x y h k => by
    subst h k
    simp only [Filters.flOrder, Fl.le]
    rw [← Bool.decide_and]
    exact decide_eq_decide.mpr ⟨fun h => le_antisymm h.1 h.2, fun h => ⟨h.le, h.ge⟩⟩⟩

private theorem sign_cmp (s : Sign) (hs : s ≠ .ne) (num : List Char) (h : ∀ x ∈ num, x ≠ '<' ∧ x ≠ '>' ∧ x ≠ '=') :
    ∃ c, Filters.parseExpr (s.text ++ num) = (some c, num) ∧
      ∀ {N T : Type} [LinearOrder N] (o : Filters.Order T) (rep : T → N → Prop), Faithful o rep →
        ∀ a v x y, rep a x → rep v y → c.run o a v = s.holds x y := by
  have h1 := not_contains h (c := '<') (.inl rfl)
  have h2 := not_contains h (c := '>') (.inr (.inl rfl))
  have h3 := not_contains h (c := '=') (.inr (.inr rfl))
  have h4 := afterLast_none h3
  cases s
  · exact ⟨.lt, by simp [Filters.parseExpr, Filters.hasPredicate, Sign.text, h1, h2, h3, Filters.afterFirst],
      fun o rep F a v x y ha hv => F.lt _ _ _ _ ha hv⟩
  · exact ⟨.le, by simp [Filters.parseExpr, Filters.hasPredicate, Sign.text, h1, h2, h3, Filters.afterFirst],
      fun o rep F a v x y ha hv => F.le _ _ _ _ ha hv⟩
  · exact ⟨.gt, by simp [Filters.parseExpr, Filters.hasPredicate, Sign.text, h1, h2, h3, Filters.afterFirst],
      fun o rep F a v x y ha hv => F.lt _ _ _ _ hv ha⟩
  · exact ⟨.ge, by simp [Filters.parseExpr, Filters.hasPredicate, Sign.text, h1, h2, h3, Filters.afterFirst],
      fun o rep F a v x y ha hv => F.le _ _ _ _ hv ha⟩
  · exact ⟨.eq, by simp [Filters.parseExpr, Filters.hasPredicate, Sign.text, h1, h2, h3, Filters.afterLast, h4],
      fun o rep F a v x y ha hv => F.eq _ _ _ _ ha hv⟩
  · exact absurd rfl hs

private theorem value_ok {N T : Type} [LinearOrder N] {o : Filters.Order T} {rep : T → N → Prop} (F : Faithful o rep)
    {cast : List Char → Option T} {get : Point → Outcome T} {s : Sign} (hs : s ≠ .ne) {n : Numeral N}
    (hn : n.Good cast rep) (ty : FilterType) {v : T} {x : N} (hv : get p = .ok v) (hx : rep v x) :
    ∃ f, valueFilter cast o get ty (s.text ++ n.text) = .ok f ∧ f p = .ok (keeps ty (s.holds x n.value)) := by
  obtain ⟨⟨w, hw, hr⟩, hc⟩ := hn
  obtain ⟨c, e, hcmp⟩ := sign_cmp s hs n.text fun x hx => ⟨(hc x hx).1, (hc x hx).2.1, (hc x hx).2.2.1⟩
  refine ⟨_, by
    simp only [valueFilter, Filters.Continuous.ofText, e, hw, Outcome.bind_ok, Outcome.pure_eq]; rfl, ?_⟩
  rw [continuous_run _ _ _ _ _ _ _ hv, hcmp o rep F _ _ _ _ hx hr]

private theorem no_dash {l : List Char} (h : ∀ x ∈ l, x ≠ '<' ∧ x ≠ '>' ∧ x ≠ '=' ∧ x ≠ '-') : '-' ∉ l :=
  fun hm => (h _ hm).2.2.2 rfl

private theorem sign_no_dash (s : Sign) : '-' ∉ s.text := by cases s <;> decide

private theorem takeWhile_dash {l m : List Char} (h : '-' ∉ l) :
    (l ++ ['-'] ++ m).takeWhile (· ≠ '-') = l ∧ ((l ++ ['-'] ++ m).dropWhile (· ≠ '-')).drop 1 = m := by
  induction l with
  | nil => simp
  | cons x l ih =>
    have hx : x ≠ '-' := fun e => by subst e; simp at h
    have := ih (fun m => h (by simp [m]))
    simp only [List.cons_append, List.takeWhile_cons, List.dropWhile_cons, ne_eq, hx, not_false_iff, decide_true, if_true]
    exact ⟨by rw [this.1], this.2⟩

private theorem keepValue_block {N T : Type} [LinearOrder N] {o : Filters.Order T} {rep : T → N → Prop} (F : Faithful o rep)
    {cast : List Char → Option T} {get : Point → Outcome T} {c : Option (Cond N)} (hg : asked c fun k => k.Good cast rep)
    {v : T} {x : N} (hv : get p = .ok v) (hx : c ≠ none → rep v x) :
    Block (keepValue cast o get (optMap Cond.text c)) p (asked c fun k => k.holds x) := by
  cases c with
  | none => exact ⟨[], rfl, .nil asked_none⟩
  | some k =>
    replace hx := hx (by simp)
    replace hg := asked_some.1 hg
    cases k with
    | compare s n =>
      obtain ⟨hs, hn⟩ := hg
      obtain ⟨f, e, hf⟩ := value_ok F hs hn .inclusion hv hx
      refine ⟨[f], ?_, .one hf ?_⟩
      · simp only [optMap, keepValue, Cond.text]
        have hd : isDualRange (s.text ++ n.text) = false := by simp [isDualRange, sign_no_dash s, no_dash hn.2]
        rw [if_neg (by rw [hd]; simp), e]
        rfl
      · rw [asked_some]; rfl
    | between lo hi =>
      obtain ⟨hlo, hhi⟩ := hg
      obtain ⟨f, e, hf⟩ := value_ok F (s := .ge) (by simp) hlo .inclusion hv hx
      obtain ⟨g, e', hg⟩ := value_ok F (s := .le) (by simp) hhi .inclusion hv hx
      refine ⟨[f, g], ?_, ?_⟩
      · obtain ⟨t1, t2⟩ := takeWhile_dash (m := hi.text) (no_dash hlo.2)
        simp only [optMap, keepValue, Cond.text]
        have hd : isDualRange (lo.text ++ ['-'] ++ hi.text) = true := by simp [isDualRange]
        rw [if_pos hd, t1, t2]
        have e : valueFilter cast o get .inclusion (['>', '='] ++ lo.text) = .ok f := e
        have e' : valueFilter cast o get .inclusion (['<', '='] ++ hi.text) = .ok g := e'
        rw [e, e']
        rfl
      · have := (Picks.one hf Iff.rfl).append (Picks.one hg Iff.rfl)
        refine this.congr ?_
        rw [asked_some]
        simp [keeps, Sign.holds, Cond.holds]

private theorem dropValue_block {N T : Type} [LinearOrder N] {o : Filters.Order T} {rep : T → N → Prop} (F : Faithful o rep)
    {cast : List Char → Option T} {get : Point → Outcome T} {c : Option (Cond N)}
    (hg : asked c fun k => k.Good cast rep ∧ k.IsCompare)
    {v : T} {x : N} (hv : get p = .ok v) (hx : c ≠ none → rep v x) :
    Block (dropValue cast o get (optMap Cond.text c)) p (asked c fun k => ¬ k.holds x) := by
  cases c with
  | none => exact ⟨[], rfl, .nil asked_none⟩
  | some k =>
    replace hx := hx (by simp)
    replace hg := asked_some.1 hg
    cases k with
    | compare s n =>
      obtain ⟨⟨hs, hn⟩, -⟩ := hg
      obtain ⟨f, e, hf⟩ := value_ok F hs hn .exclusion hv hx
      refine ⟨[f], ?_, .one hf ?_⟩
      · simp only [optMap, dropValue, Cond.text]
        have hd : isDualRange (s.text ++ n.text) = false := by simp [isDualRange, sign_no_dash s, no_dash hn.2]
        rw [if_neg (by rw [hd]; simp), e]
        rfl
      · rw [asked_some]
        simp [keeps, Cond.holds]
    | between lo hi => exact absurd hg.2 (fun h => h)

private theorem color_block (h : observe b p = .ok a) (ty : FilterType) (o : Option ColorRange) :
    Block (colorFilters b ty (optMap ColorRange.tokens o)) p
      (asked o fun k => keeps ty (@decide (k.contains a.color) (by unfold ColorRange.contains; infer_instance)) = true) := by
  cases o with
  | none => exact ⟨[], rfl, .nil asked_none⟩
  | some k =>
    have hc : ∀ c : Color, colorOf [c.c0.toNat, c.c1.toNat, c.c2.toNat] = .ok c := by
      intro c
      unfold colorOf
      have : ∀ v : BitVec 16, ¬ ((v.toNat : Int) < 0 ∨ 65535 < (v.toNat : Int)) := by intro v; have := v.isLt; omega
      rw [if_neg (by
        simp only [List.any_cons, List.any_nil, this, decide_false, Bool.or_false, Bool.false_eq_true, not_false_iff])]
      cases c
      simp
    refine ⟨[Filters.color b ty ⟨k.low, k.high⟩], ?_, .one (color_filter h ty k.low k.high) ?_⟩
    · simp only [optMap, ColorRange.tokens, colorFilters, colorsOf, hc, Outcome.bind_ok, Outcome.pure_eq]
    · rw [asked_some]
      rfl

private theorem returnOnly_block (h : observe b p = .ok a) {o : FilterOpts} (hn : ¬ (o.firstOnly = true ∧ o.lastOnly = true)) :
    Block (returnOnlyFilters o) p ((o.lastOnly = true → a.returnNumber = a.numberOfReturns) ∧
      (o.firstOnly = true → a.returnNumber = 1)) := by
  refine ⟨_, if_neg hn, Picks.append ?_ ?_⟩
  · split
    · rename_i e
      refine .one (last_return_filter_partial h []) ?_
      simp [keeps, e]
    · exact .nil (fun e => absurd e (by assumption))
  · split
    · rename_i e
      refine .one (return_filter_partial h (list := [1]) (by simp)) ?_
      simp [keeps, e]
    · exact .nil (fun e => absurd e (by assumption))

private theorem ofRat_far {q : ℚ} (h : 1 / 2 ^ 51 ≤ |q|) :
    (∃ n, Fl.ofRat q = .inf n) ∨ ∃ r, Fl.ofRat q = .fin r ∧ 1 / 2 ^ 51 ≤ |r| := by
  have hr : (1 : ℚ) / 2 ^ 51 ≤ |Fl.rnd q| := by
    have h1 : Fl.rnd (1 / 2 ^ 51) = 1 / 2 ^ 51 := by decide +kernel
    rcases le_abs'.1 h with h | h
    · have := Fl.rnd_le_rnd h
      rw [Fl.rnd_neg, h1] at this
      exact le_abs'.2 (.inl this)
    · have := Fl.rnd_le_rnd h
      rw [h1] at this
      exact le_abs'.2 (.inr this)
  unfold Fl.ofRat
  dsimp only
  split
  · exact .inl ⟨_, rfl⟩
  · split
    · exact .inl ⟨_, rfl⟩
    · exact .inr ⟨_, rfl, hr⟩

private theorem thick {z0 z1 : ℚ} (h : 1 / 2 ^ 51 ≤ |z1 - z0|) :
    within (.fin (1 / 2 ^ 52)) (Fl.sub (Fl.sub (.fin z1) (.fin z0)) (.fin 0)) = false := by
  have hinf : ∀ n, within (.fin (1 / 2 ^ 52)) (.inf n) = false := by intro n; cases n <;> rfl
  have e : Fl.sub (.fin z1) (.fin z0) = Fl.ofRat (z1 - z0) := by
    show Fl.ofRat (z1 + -z0) = _
    rw [sub_eq_add_neg]
  rw [e]
  rcases ofRat_far h with ⟨n, e⟩ | ⟨r, e, hr⟩
  · rw [e]
    exact hinf n
  · rw [e]
    have e : Fl.sub (.fin r) (.fin 0) = Fl.ofRat r := by
      show Fl.ofRat (r + -0) = _
      rw [neg_zero, add_zero]
    rw [e]
    rcases ofRat_far hr with ⟨n, e⟩ | ⟨r', e, hr'⟩
    · rw [e]; exact hinf n
    · rw [e]
      show (decide (r' ≤ 1 / 2 ^ 52) && decide (-(1 / 2 ^ 52) ≤ r')) = false
      rw [Bool.and_eq_false_iff, decide_eq_false_iff_not, decide_eq_false_iff_not]
      have hlt : (1 : ℚ) / 2 ^ 52 < 1 / 2 ^ 51 := by norm_num
      rcases le_abs'.1 hr' with h | h
      · right; intro h2; linarith
      · left; intro h2; linarith

private theorem inside_fin (a b x : ℚ) : inside (.fin a) (.fin b) (.fin x) = true ↔ a ≤ x ∧ x ≤ b := by
  simp [inside, Fl.le]

private theorem box_block {x y z : ℚ} (hx : p.getX b = .ok (.fin x)) (hy : p.getY b = .ok (.fin y))
    (hz : p.getZ b = .ok (.fin z)) {w : Window} (hw : w.Thick) :
    Picks [Filters.bounds b .inclusion (match w with
      | .plane x0 y0 x1 y1 => Bounds.make2 (.fin x0) (.fin y0) (.fin x1) (.fin y1)
      | .space x0 y0 z0 x1 y1 z1 => Bounds.make3 (.fin x0) (.fin y0) (.fin z0) (.fin x1) (.fin y1) (.fin z1))] p
      (w.contains x y z) := by
  cases w with
  | plane x0 y0 x1 y1 =>
    refine .one (bounds_filter_2d b .inclusion _ _ _ _ p _ _ _ hx hy hz) ?_
    rw [Bool.and_eq_true, inside_fin, inside_fin]; rfl
  | space x0 y0 z0 x1 y1 z1 =>
    refine .one (bounds_filter_3d_partial b .inclusion _ _ _ _ _ _ p _ _ _ hx hy hz (thick hw)) ?_
    rw [Bool.and_eq_true, Bool.and_eq_true, inside_fin, inside_fin, inside_fin, and_assoc]; rfl

/-- The two places where the window becomes a filter. -/
private theorem window_blocks {x y z : ℚ} (hx : p.getX b = .ok (.fin x)) (hy : p.getY b = .ok (.fin y))
    (hz : p.getZ b = .ok (.fin z)) (c : Choice) (hw : asked c.window fun w => w.Thick) (byExtent : Bool) :
    ∃ P Q : Prop, (P ∧ Q ↔ asked c.window fun w => w.contains x y z) ∧
      Block (extentFilters b (c.options byExtent)) p P ∧
      Picks (if limitGiven (c.options byExtent) && (c.options byExtent).extent.isNone then
        [Filters.bounds b .inclusion (limits (c.options byExtent))] else []) p Q := by
  unfold Choice.options
  cases hc : c.window with
  | none =>
    refine ⟨True, True, ⟨fun _ => asked_none, fun _ => ⟨trivial, trivial⟩⟩, ⟨[], rfl, .nil trivial⟩, ?_⟩
    exact Picks.nil trivial
  | some w =>
    rw [hc] at hw
    have hb := box_block hx hy hz (asked_some.1 hw)
    cases w with
    | plane x0 y0 x1 y1 =>
      cases byExtent
      · refine ⟨True, _, ?_, ⟨[], rfl, .nil trivial⟩, hb⟩
        rw [asked_some, true_and]
      · refine ⟨_, True, ?_, ⟨_, rfl, hb⟩, .nil trivial⟩
        rw [asked_some, and_true]
    | space x0 y0 z0 x1 y1 z1 =>
      cases byExtent
      · refine ⟨True, _, ?_, ⟨[], rfl, .nil trivial⟩, hb⟩
        rw [asked_some, true_and]
      · refine ⟨_, True, ?_, ⟨_, rfl, hb⟩, .nil trivial⟩
        rw [asked_some, and_true]

end

private theorem ground_zero (b : Build) : groundPoint.getX b = .ok (.fin 0) ∧ groundPoint.getY b = .ok (.fin 0) ∧
    groundPoint.getZ b = .ok (.fin 0) := by
  obtain ⟨o, c⟩ := b
  cases o <;> cases c <;> decide +kernel

private theorem ground_plain (b : Build) : Fl.ofBits (view b groundPoint.hdr.fmt groundPoint.data).time = .fin 0 ∧
    (view b groundPoint.hdr.fmt groundPoint.data).classification.isSynthetic = false ∧
    (view b groundPoint.hdr.fmt groundPoint.data).classification.isKeyPoint = false ∧
    (view b groundPoint.hdr.fmt groundPoint.data).classification.isWithheld = false := by
  obtain ⟨o, c⟩ := b
  cases o <;> cases c <;> decide +kernel

private theorem options_at (lx : Lexical) (c : Choice) (hc : c.Handled lx) (byExtent : Bool) {b : Build} {p : Point} {a : Attrs}
    {x y z t : ℚ} (hwf : p.WF) (h : observe b p = .ok a)
    (hx : p.getX b = .ok (.fin x)) (hy : p.getY b = .ok (.fin y)) (hz : p.getZ b = .ok (.fin z))
    (ht : (c.keepTime ≠ none ∨ c.dropTime ≠ none) → Fl.ofBits a.time = .fin t)
    (hf : c.keepClasses ≠ none → a.classification.isSynthetic = false ∧ a.classification.isKeyPoint = false ∧
          a.classification.isWithheld = false) :
    Block (getFilters b lx (c.options byExtent)) p (c.Allows a x y z t) := by
  obtain ⟨-, -, -, -, hin⟩ := observe_parts h
  obtain ⟨hang, htim⟩ := observe_more h
  have hang' : scanAngle p = .ok (a.scanAngle.signExtend 32) := by unfold scanAngle; rw [hang]; rfl
  have hsx : (a.scanAngle.signExtend 32).toInt = a.scanAngle.toInt := by
    rw [BitVec.toInt_signExtend]
    have := a.scanAngle.toInt_lt
    have := a.scanAngle.le_toInt
    rw [Int.bmod_eq_of_le] <;> norm_num <;> omega
  have htim' : gpsTime b p = .ok (Fl.ofBits a.time) := by unfold gpsTime; rw [htim]; rfl
  obtain ⟨P, Q, hPQ, ⟨f5, e5, p5⟩, p16⟩ := window_blocks hx hy hz c hc.window byExtent
  have o1 : (c.options byExtent).keepClasses = optMap (List.map (BitVec.ofNat 32)) c.keepClasses := by
    unfold Choice.options; cases c.window with | none => rfl | some w => cases w <;> cases byExtent <;> rfl
  have o2 : (c.options byExtent).dropClasses = none := by
    unfold Choice.options; rw [hc.dropClasses]; cases c.window with | none => rfl | some w => cases w <;> cases byExtent <;> rfl
  have o3 : (c.options byExtent).keepReturns = optMap (List.map (BitVec.ofNat 16)) c.keepReturns := by
    unfold Choice.options; cases c.window with | none => rfl | some w => cases w <;> cases byExtent <;> rfl
  have o4 : (c.options byExtent).dropReturns = none := by
    unfold Choice.options; rw [hc.dropReturns]; cases c.window with | none => rfl | some w => cases w <;> cases byExtent <;> rfl
  have o6 : (c.options byExtent).keepIntensity = optMap Cond.text c.keepIntensity ∧
      (c.options byExtent).dropIntensity = optMap Cond.text c.dropIntensity ∧
      (c.options byExtent).keepScanAngle = optMap Cond.text c.keepScanAngle ∧
      (c.options byExtent).dropScanAngle = optMap Cond.text c.dropScanAngle ∧
      (c.options byExtent).keepTime = optMap Cond.text c.keepTime ∧
      (c.options byExtent).dropTime = optMap Cond.text c.dropTime ∧
      (c.options byExtent).keepColor = optMap ColorRange.tokens c.keepColor ∧
      (c.options byExtent).dropColor = optMap ColorRange.tokens c.dropColor ∧
      (c.options byExtent).firstOnly = c.firstOnly ∧ (c.options byExtent).lastOnly = c.lastOnly ∧
      (c.options byExtent).validOnly = c.validOnly := by
    unfold Choice.options
    cases c.window with
    | none => exact ⟨rfl, rfl, rfl, rfl, rfl, rfl, rfl, rfl, rfl, rfl, rfl⟩
    | some w => cases w <;> cases byExtent <;> exact ⟨rfl, rfl, rfl, rfl, rfl, rfl, rfl, rfl, rfl, rfl, rfl⟩
  obtain ⟨o6, o7, o8, o9, o10, o11, o12, o13, o14, o15, o16⟩ := o6
  obtain ⟨f1, e1, p1⟩ := class_block h hc.keepClasses hf
  obtain ⟨f3, e3, p3⟩ := returns_block h hc.keepReturns
  obtain ⟨f6, e6, p6⟩ := keepValue_block faithful_u16 hc.keepIntensity hin (fun _ => rfl)
  obtain ⟨f7, e7, p7⟩ := dropValue_block faithful_u16 hc.dropIntensity hin (fun _ => rfl)
  obtain ⟨f8, e8, p8⟩ := keepValue_block faithful_i32 hc.keepScanAngle hang' (fun _ => hsx)
  obtain ⟨f9, e9, p9⟩ := dropValue_block faithful_i32 hc.dropScanAngle hang' (fun _ => hsx)
  obtain ⟨f10, e10, p10⟩ := keepValue_block faithful_fl hc.keepTime htim' (fun h => ht (.inl h))
  obtain ⟨f11, e11, p11⟩ := dropValue_block faithful_fl hc.dropTime htim' (fun h => ht (.inr h))
  obtain ⟨f12, e12, p12⟩ := color_block h .inclusion c.keepColor
  obtain ⟨f13, e13, p13⟩ := color_block h .exclusion c.dropColor
  obtain ⟨f14, e14, p14⟩ := returnOnly_block h (o := c.options byExtent) (by rw [o14, o15]; exact hc.returns)
  have p15 : Picks (if (c.options byExtent).validOnly then [Filters.validation .inclusion] else []) p
      (c.validOnly = true → -90 ≤ a.scanAngle.toInt ∧ a.scanAngle.toInt ≤ 90) := by
    rw [o16]
    split
    · rename_i e
      obtain ⟨ar, k1, k2, -⟩ := valid_iff p hwf
      obtain ⟨⟨v, k3, k4⟩, -⟩ := validation_filter p hwf
      have har : ar = a.scanAngle := by rw [k1] at hang; exact Outcome.ok.inj hang
      refine .one k4 ?_
      rw [k2] at k3
      rw [← Outcome.ok.inj k3, har]
      simp [keeps, e]
    · exact .nil (fun e => absurd e (by assumption))
  have e2 : classFilters .exclusion (c.options byExtent).dropClasses = .ok [] := by rw [o2]; rfl
  have e4 : dropReturnFilters (c.options byExtent).dropReturns (c.options byExtent).keepReturns = .ok [] := by rw [o4]; rfl
  rw [← o1] at e1
  rw [← o3] at e3
  rw [← o6] at e6
  rw [← o7] at e7
  rw [← o8] at e8
  rw [← o9] at e9
  rw [← o10] at e10
  rw [← o11] at e11
  rw [← o12] at e12
  rw [← o13] at e13
  refine ⟨_, by
    unfold getFilters
    simp only [e1, e2, e3, e4, e5, e6, e7, e8, e9, e10, e11, e12, e13, e14, Outcome.bind_ok, Outcome.pure_eq]; rfl, ?_⟩
  have pn : Picks [] p True := .nil trivial
  have hp := (((((((((((((((p1.append pn).append p3).append pn).append p5).append p6).append p7).append p8).append p9).append
    p10).append p11).append p12).append p13).append p14).append p15).append p16)
  refine hp.congr ?_
  rw [o14, o15]
  constructor
  · rintro ⟨⟨⟨⟨⟨⟨⟨⟨⟨⟨⟨⟨⟨⟨⟨q1, -⟩, q3⟩, -⟩, qP⟩, q6⟩, q7⟩, q8⟩, q9⟩, q10⟩, q11⟩, q12⟩, q13⟩, q14, q15⟩, q16⟩, qQ⟩
    refine ⟨q1, ?_, q3, ?_, hPQ.1 ⟨qP, qQ⟩, q6, q7, q8, q9, q10, q11, ?_, ?_, q15, q14, q16⟩
    · rw [hc.dropClasses]; exact asked_none
    · rw [hc.dropReturns]; exact asked_none
    · intro k e; have := q12 k e; simpa [keeps] using this
    · intro k e; have := q13 k e; simpa [keeps] using this
  · rintro ⟨q1, -, q3, -, qw, q6, q7, q8, q9, q10, q11, q12, q13, q15, q14, q16⟩
    obtain ⟨qP, qQ⟩ := hPQ.2 qw
    refine ⟨⟨⟨⟨⟨⟨⟨⟨⟨⟨⟨⟨⟨⟨⟨q1, trivial⟩, q3⟩, trivial⟩, qP⟩, q6⟩, q7⟩, q8⟩, q9⟩, q10⟩, q11⟩, ?_⟩, ?_⟩, q14, q15⟩, q16⟩, qQ⟩
    · intro k e; have := q12 k e; simpa [keeps] using this
    · intro k e; have := q13 k e; simpa [keeps] using this

/-- C65, proved part: for every choice the code handles, `GetFilters` succeeds, and on every point with attributes `a`, at
position `(x, y, z)` and of GPS time `t`, the filters run without a failure and all accept it exactly if the point meets
every option given. Missing: `--drop-classes`, `--drop-returns`, points flagged synthetic, key-point or withheld, a window
given by fewer than four limits, a z interval without extent, `!=`, negative angles, see the theorems below. -/
theorem filter_options_partial (b : Build) (lx : Lexical) (c : Choice) (hc : c.Handled lx) (byExtent : Bool) :
    ∃ fs, getFilters b lx (c.options byExtent) = .ok fs ∧
      ∀ (p : Point) (a : Attrs) (x y z t : ℚ), p.WF → observe b p = .ok a →
        p.getX b = .ok (.fin x) → p.getY b = .ok (.fin y) → p.getZ b = .ok (.fin z) →
        ((c.keepTime ≠ none ∨ c.dropTime ≠ none) → Fl.ofBits a.time = .fin t) →
        (c.keepClasses ≠ none → a.classification.isSynthetic = false ∧ a.classification.isKeyPoint = false ∧
          a.classification.isWithheld = false) →
        (∀ f ∈ fs, ∃ v, f p = .ok v) ∧ ((∀ f ∈ fs, f p = .ok true) ↔ c.Allows a x y z t) := by
  obtain ⟨fs, e, -⟩ := options_at lx c hc byExtent (b := b) (p := groundPoint) (x := 0) (y := 0) (z := 0) (t := 0)
    ⟨rfl, by decide⟩ (observe_eq ⟨rfl, by decide⟩) (ground_zero b).1 (ground_zero b).2.1 (ground_zero b).2.2
    (fun _ => (ground_plain b).1) (fun _ => (ground_plain b).2)
  refine ⟨fs, e, ?_⟩
  intro p a x y z t hwf h hx hy hz ht hf
  obtain ⟨fs', e', hp⟩ := options_at lx c hc byExtent hwf h hx hy hz ht hf
  rw [e] at e'
  rw [Outcome.ok.inj e']
  exact hp

end Kernel
end LibLAS
