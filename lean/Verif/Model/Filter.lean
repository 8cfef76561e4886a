import Verif.Model.Bounds
/-
src/filter.cpp, include/liblas/filter.hpp.
-/
namespace LibLAS

/-- include/liblas/filter.hpp:68-72 `FilterI::FilterType`. -/
inductive FilterType where
  | exclusion
  | inclusion
  deriving DecidableEq, Repr

namespace Filters

/-- src/filter.cpp:65-78 and :159-173: the loop over the list, the same text in both filters; `output` is the local
of that name. -/
def listLoop {α : Type} [DecidableEq α] (ty : FilterType) (c : α) : List α → Bool → Bool
  | [], output => output
  | x :: xs, _ =>
    if c = x then (if ty = .inclusion then true else false)
    else listLoop ty c xs false

/-- src/filter.cpp:59-79 `ClassificationFilter::filter`; `c == *it` compares the whole byte
(include/liblas/classification.hpp:213-229). -/
def classification (ty : FilterType) (classes : List Classification) (p : Point) : Outcome Bool := do
  let c ← p.getClassification
  pure (listLoop ty c classes true)

/-- src/filter.cpp:95-102 `BoundsFilter::filter`; the filter type is not consulted. -/
def bounds (b : Build) (_ty : FilterType) (box : Bounds) (p : Point) : Outcome Bool := box.containsPoint b p

/-- include/liblas/filter.hpp:153-154: the state of a `ThinFilter`. -/
structure Thin where
  amount : BitVec 32
  count : BitVec 32
  deriving DecidableEq, Repr

/-- src/filter.cpp:106-111 -/
def Thin.new (thin : BitVec 32) : Thin := ⟨thin, 0⟩

/-- src/filter.cpp:115-134 `ThinFilter::filter`: the new state and the verdict. -/
def Thin.filter (f : Thin) : Thin × Bool :=
  let output := f.amount == f.count
  let count := if output then 0 else f.count
  (⟨f.amount, count + 1⟩, output)

/-- src/filter.cpp:143-174 `ReturnFilter::filter`. -/
def returns (ty : FilterType) (lastOnly : Bool) (list : List (BitVec 16)) (p : Point) : Outcome Bool :=
  if lastOnly then do
    let r ← p.getReturnNumber
    let n ← p.getNumberOfReturns
    let isLast := r == n
    let isLast := if ty = .exclusion then false else isLast
    pure isLast
  else do
    let r ← p.getReturnNumber
    pure (listLoop ty r list true)

/-- src/filter.cpp:184-197 `ValidationFilter::filter`. -/
def validation (ty : FilterType) (p : Point) : Outcome Bool := do
  let v ← p.isValid
  pure (if v then (if ty = .inclusion then true else false) else false)

/-- The two corner colours of a `ColorFilter`. -/
structure ColorBox where
  low : Color
  high : Color
  deriving DecidableEq, Repr

/-- src/filter.cpp:206-215, the constructor from six numbers (`uint16_t`, so the `Color` constructor cannot throw),
in the order of its parameters: red, blue, green; `Color(red, green, blue)`. -/
def ColorBox.ofChannels (low_red high_red low_blue high_blue low_green high_green : BitVec 16) : ColorBox :=
  ⟨⟨low_red, low_green, low_blue⟩, ⟨high_red, high_blue, high_green⟩⟩

/-- src/filter.cpp:217-224 `DoExclude`. -/
def doExclude (ty : FilterType) : Bool := if ty = .inclusion then true else false

/-- src/filter.cpp:227-251 `ColorFilter::filter` on the colour of the point. -/
def colorTest (ty : FilterType) (f : ColorBox) (c : Color) : Bool :=
  if c.getRed.toNat < f.low.getRed.toNat then !(doExclude ty)
  else if c.getRed.toNat > f.high.getRed.toNat then !(doExclude ty)
  else if c.getBlue.toNat < f.low.getBlue.toNat then !(doExclude ty)
  else if c.getBlue.toNat > f.high.getBlue.toNat then !(doExclude ty)
  else if c.getGreen.toNat < f.low.getGreen.toNat then !(doExclude ty)
  else if c.getGreen.toNat > f.high.getGreen.toNat then !(doExclude ty)
  else doExclude ty

/-- src/filter.cpp:227-251 `ColorFilter::filter`. -/
def color (b : Build) (ty : FilterType) (f : ColorBox) (p : Point) : Outcome Bool := do
  let c ← p.getColor b
  pure (colorTest ty f c)

/-- The function objects of include/liblas/filter.hpp:277-301: `std::greater_equal`, `greater`, `less_equal`, `less`,
`equal_to`. -/
inductive Cmp where
  | ge | gt | le | lt | eq
  deriving DecidableEq, Repr

/-- The built-in comparisons of the value type `T`. -/
structure Order (T : Type) where
  le : T → T → Bool
  lt : T → T → Bool
  eq : T → T → Bool

/-- `uint16_t` (intensity, return number, ... of include/liblas/point.hpp). -/
def u16Order : Order (BitVec 16) where
  le a b := decide (a.toNat ≤ b.toNat)
  lt a b := decide (a.toNat < b.toNat)
  eq a b := decide (a.toNat = b.toNat)

/-- `double` (GPS time, coordinates). -/
def flOrder : Order Fl where
  le := Fl.le
  lt := Fl.lt
  eq a b := Fl.le a b && Fl.le b a

/-- Calling the function object. -/
def Cmp.run {T : Type} (o : Order T) : Cmp → T → T → Bool
  | .ge, a, b => o.le b a
  | .gt, a, b => o.lt b a
  | .le, a, b => o.le a b
  | .lt, a, b => o.lt a b
  | .eq, a, b => o.eq a b

/-- include/liblas/filter.hpp:347-362 `HasPredicate`: whether every character of the predicate occurs somewhere. -/
def hasPredicate (s : List Char) (pred : List Char) : Bool :=
  match pred with
  | [] => false
  | _ => pred.all fun c => s.contains c

/-- `s.find_first_of(c) + 1`; `npos + 1` wraps to 0. -/
def afterFirst (c : Char) : List Char → Nat
  | [] => 0
  | x :: xs => if x = c then 1 else (match afterFirst c xs with | 0 => 0 | n + 1 => n + 2)

/-- `s.find_last_of(c) + 1`. -/
def afterLast (c : Char) : List Char → Nat
  | [] => 0
  | x :: xs => match afterLast c xs with
    | 0 => if x = c then 1 else 0
    | n + 1 => n + 2

/-- include/liblas/filter.hpp:265-306: the comparison chosen (`none`: the `compare_func` stays empty) and the text
handed to `boost::lexical_cast`. -/
def parseExpr (s : List Char) : Option Cmp × List Char :=
  let r : Option Cmp × Nat :=
    if hasPredicate s ['>', '='] then (some .ge, afterFirst '=' s)
    else if hasPredicate s ['>'] then (some .gt, afterFirst '>' s)
    else if hasPredicate s ['<', '='] then (some .le, afterFirst '=' s)
    else if hasPredicate s ['<'] then (some .lt, afterFirst '<' s)
    else if hasPredicate s ['=', '='] then (some .eq, afterLast '=' s)
    else (none, 0)
  (r.1, s.drop r.2)

/-- include/liblas/filter.hpp:343-345: a constructed `ContinuousValueFilter<T>`; `get` is the `filter_func`. -/
structure Continuous (T : Type) where
  get : Point → Outcome T
  cmp : Option Cmp
  value : T

/-- include/liblas/filter.hpp:260-310, the constructor from a text. `cast` is `boost::lexical_cast<T>`; it throws
`bad_lexical_cast` (a `std::bad_cast`, shown as `domainError`) when it fails. -/
def Continuous.ofText {T : Type} (cast : List Char → Option T) (get : Point → Outcome T) (s : List Char) :
    Outcome (Continuous T) :=
  match cast (parseExpr s).2 with
  | some v => .ok ⟨get, (parseExpr s).1, v⟩
  | none => .throw .domainError

/-- include/liblas/filter.hpp:228-230 -/
def Continuous.make {T : Type} (get : Point → Outcome T) (v : T) (c : Cmp) : Continuous T := ⟨get, some c, v⟩

/-- include/liblas/filter.hpp:312-337 `ContinuousValueFilter<T>::filter`. Calling an empty `boost::function` throws
`bad_function_call` (a `std::runtime_error`). -/
def Continuous.filter {T : Type} (o : Order T) (ty : FilterType) (f : Continuous T) (p : Point) : Outcome Bool := do
  let v ← f.get p
  match f.cmp with
  | none => .throw .runtimeError
  | some c =>
    if c.run o v f.value then pure (if ty = .inclusion then true else false)
    else pure (if ty = .inclusion then false else true)

end Filters
end LibLAS
