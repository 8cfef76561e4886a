import Verif.Spec.Kernel
import Verif.Spec.Filter
/-
What the filtering options of the applications are documented to mean (the help texts of apps/laskernel.cpp:331-362).
-/
namespace LibLAS.Spec

/-- A numeral and the number it stands for. -/
structure Numeral (N : Type) where
  text : List Char
  value : N

/-- An expression such as `>=200` or `0-100`. -/
inductive Cond (N : Type) where
  | compare (s : Sign) (n : Numeral N)
  | between (lo hi : Numeral N)

/-- How it is written. -/
def Cond.text {N : Type} : Cond N → List Char
  | .compare s n => s.text ++ n.text
  | .between lo hi => lo.text ++ ['-'] ++ hi.text

/-- What it says about a value. -/
def Cond.holds {N : Type} [LinearOrder N] : Cond N → N → Prop
  | .compare s n, x => s.holds x n.value = true
  | .between lo hi, x => lo.value ≤ x ∧ x ≤ hi.value

/-- The numerals in it. -/
def Cond.numerals {N : Type} : Cond N → List (Numeral N)
  | .compare _ n => [n]
  | .between lo hi => [lo, hi]

/-- A box in the plane or in space. -/
inductive Window where
  | plane (minx miny maxx maxy : ℚ)
  | space (minx miny minz maxx maxy maxz : ℚ)

/-- A position is inside. -/
def Window.contains : Window → ℚ → ℚ → ℚ → Prop
  | .plane x0 y0 x1 y1, x, y, _ => (x0 ≤ x ∧ x ≤ x1) ∧ (y0 ≤ y ∧ y ≤ y1)
  | .space x0 y0 z0 x1 y1 z1, x, y, z => (x0 ≤ x ∧ x ≤ x1) ∧ (y0 ≤ y ∧ y ≤ y1) ∧ (z0 ≤ z ∧ z ≤ z1)

/-- A box of colours. -/
structure ColorRange where
  low : Color
  high : Color

/-- A colour is inside. -/
def ColorRange.contains (k : ColorRange) (c : Color) : Prop :=
  (k.low.c0.toNat ≤ c.c0.toNat ∧ c.c0.toNat ≤ k.high.c0.toNat) ∧
  (k.low.c1.toNat ≤ c.c1.toNat ∧ c.c1.toNat ≤ k.high.c1.toNat) ∧
  (k.low.c2.toNat ≤ c.c2.toNat ∧ c.c2.toNat ≤ k.high.c2.toNat)

/-- What a user may ask for. -/
structure Choice where
  keepClasses : Option (List Nat) := none
  dropClasses : Option (List Nat) := none
  keepReturns : Option (List Nat) := none
  dropReturns : Option (List Nat) := none
  window : Option Window := none
  keepIntensity : Option (Cond Nat) := none
  dropIntensity : Option (Cond Nat) := none
  keepScanAngle : Option (Cond Int) := none
  dropScanAngle : Option (Cond Int) := none
  keepTime : Option (Cond ℚ) := none
  dropTime : Option (Cond ℚ) := none
  keepColor : Option ColorRange := none
  dropColor : Option ColorRange := none
  firstOnly : Bool := false
  lastOnly : Bool := false
  validOnly : Bool := false

/-- An option that is not given asks for nothing. -/
def asked {α : Type} (o : Option α) (P : α → Prop) : Prop := ∀ a, o = some a → P a

/-- A point with these attributes, at this position and time, meets every option given. -/
structure Choice.Allows (c : Choice) (a : Attrs) (x y z t : ℚ) : Prop where
  keepClasses : asked c.keepClasses fun l => a.classification.getClass.toNat ∈ l
  dropClasses : asked c.dropClasses fun l => a.classification.getClass.toNat ∉ l
  keepReturns : asked c.keepReturns fun l => a.returnNumber ∈ l
  dropReturns : asked c.dropReturns fun l => a.returnNumber ∉ l
  window : asked c.window fun w => w.contains x y z
  keepIntensity : asked c.keepIntensity fun k => k.holds a.intensity.toNat
  dropIntensity : asked c.dropIntensity fun k => ¬ k.holds a.intensity.toNat
  keepScanAngle : asked c.keepScanAngle fun k => k.holds a.scanAngle.toInt
  dropScanAngle : asked c.dropScanAngle fun k => ¬ k.holds a.scanAngle.toInt
  keepTime : asked c.keepTime fun k => k.holds t
  dropTime : asked c.dropTime fun k => ¬ k.holds t
  keepColor : asked c.keepColor fun k => k.contains a.color
  dropColor : asked c.dropColor fun k => ¬ k.contains a.color
  firstOnly : c.firstOnly = true → a.returnNumber = 1
  lastOnly : c.lastOnly = true → a.returnNumber = a.numberOfReturns
  validOnly : c.validOnly = true → -90 ≤ a.scanAngle.toInt ∧ a.scanAngle.toInt ≤ 90

end LibLAS.Spec
