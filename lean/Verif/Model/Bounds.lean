import Verif.Model.Point
/-
include/liblas/bounds.hpp for `T = double` (the only instantiation the library and its headers use). Release build:
the `verify()` calls under `#ifdef DEBUG` are not part of the constructors.
-/
namespace LibLAS

/-- include/liblas/bounds.hpp:63-172 `Range<double>`. -/
structure Range where
  minimum : Fl
  maximum : Fl
  deriving DecidableEq, Repr

namespace Range

/-- `std::numeric_limits<double>::max()`. -/
def dblMax : Fl := .fin ((2 - 1 / 2 ^ 52) * 2 ^ 1023)
/-- `std::numeric_limits<double>::min()`: the smallest positive normal number. -/
def dblMin : Fl := .fin (1 / 2 ^ 1022)

/-- include/liblas/bounds.hpp:72-73, the default constructor. -/
def default : Range := ⟨dblMax, dblMin⟩

/-- :92-112 `operator==`, `equal`. -/
def equal (r o : Range) : Bool :=
  if !(Point.compareDistance r.minimum o.minimum) || !(Point.compareDistance r.maximum o.maximum) then false else true

/-- :114-117 -/
def overlaps (a r : Range) : Bool := Fl.lt a.minimum r.maximum && Fl.lt r.minimum a.maximum
/-- :119-122 -/
def containsRange (a r : Range) : Bool := Fl.le a.minimum r.minimum && Fl.le r.maximum a.maximum
/-- :124-127 -/
def containsValue (a : Range) (v : Fl) : Bool := Fl.le a.minimum v && Fl.le v a.maximum
/-- :129-132 -/
def empty (a : Range) : Bool := Point.compareDistance a.minimum dblMax && Point.compareDistance a.maximum dblMin
/-- :134-138 -/
def shift (a : Range) (v : Fl) : Range := ⟨Fl.add a.minimum v, Fl.add a.maximum v⟩
/-- :140-144 -/
def scale (a : Range) (v : Fl) : Range := ⟨Fl.mul a.minimum v, Fl.mul a.maximum v⟩
/-- :146-152 -/
def clip (a r : Range) : Range :=
  let a1 : Range := if Fl.lt a.minimum r.minimum then { a with minimum := r.minimum } else a
  if Fl.lt r.maximum a1.maximum then { a1 with maximum := r.maximum } else a1
/-- :154-160 -/
def growValue (a : Range) (v : Fl) : Range :=
  let a1 : Range := if Fl.lt v a.minimum then { a with minimum := v } else a
  if Fl.lt a1.maximum v then { a1 with maximum := v } else a1
/-- :162-166 -/
def growRange (a r : Range) : Range := (a.growValue r.minimum).growValue r.maximum
/-- :168-171 -/
def length (a : Range) : Fl := Fl.sub a.maximum a.minimum

end Range

/-- include/liblas/bounds.hpp:174-606 `Bounds<double>`. -/
structure Bounds where
  ranges : List Range
  deriving DecidableEq, Repr

namespace Bounds

/-- :206-227 -/
def make3 (minx miny minz maxx maxy maxz : Fl) : Bounds := ⟨[⟨minx, maxx⟩, ⟨miny, maxy⟩, ⟨minz, maxz⟩]⟩
/-- :229-247 -/
def make2 (minx miny maxx maxy : Fl) : Bounds := ⟨[⟨minx, maxx⟩, ⟨miny, maxy⟩]⟩
/-- :249-265 -/
def ofPoints (b : Build) (lo hi : Point) : Outcome Bounds := do
  let x0 ← lo.getX b
  let y0 ← lo.getY b
  let z0 ← lo.getZ b
  let x1 ← hi.getX b
  let y1 ← hi.getY b
  let z1 ← hi.getZ b
  pure (make3 x0 y0 z0 x1 y1 z1)

/-- :287-297 -/
def getMin (b : Bounds) (i : Nat) : Fl :=
  match b.ranges[i]? with
  | some r => r.minimum
  | none => .fin 0
/-- :307-317 -/
def getMax (b : Bounds) (i : Nat) : Fl :=
  match b.ranges[i]? with
  | some r => r.maximum
  | none => .fin 0
/-- `ranges.resize(n)` when it grows: the new elements are default ranges (:302, :322, :396). -/
def resize (b : Bounds) (n : Nat) : Bounds := ⟨b.ranges ++ List.replicate (n - b.ranges.length) Range.default⟩
/-- :299-305 -/
def setMin (b : Bounds) (i : Nat) (v : Fl) : Bounds :=
  let b1 := if b.ranges.length ≤ i then b.resize (i + 1) else b
  ⟨b1.ranges.modify i fun r => { r with minimum := v }⟩
/-- :319-325 -/
def setMax (b : Bounds) (i : Nat) (v : Fl) : Bounds :=
  let b1 := if b.ranges.length ≤ i then b.resize (i + 1) else b
  ⟨b1.ranges.modify i fun r => { r with maximum := v }⟩
/-- :387-390 -/
def dimension (b : Bounds) : Nat := b.ranges.length
/-- :393-398 -/
def setDimension (b : Bounds) (d : Nat) : Bounds := if b.ranges.length < d then b.resize d else b

/-- The loop of `equal`, `intersects` and `contains(Bounds)` over `ranges[i]`, `other.ranges[i]` for `i < dimension()`
(:403-406, :414-417, :432-435): stop with `stop` at the first pair for which `f` holds; indexing `other.ranges`
outside its bounds is undefined. -/
def scan (f : Range → Range → Bool) (stop : Bool) : List Range → List Range → Outcome Bool
  | [], _ => .ok (!stop)
  | _ :: _, [] => .ub
  | a :: as, r :: rs => if f a r then .ok stop else scan f stop as rs

/-- :401-408 -/
def equal (a o : Bounds) : Outcome Bool := scan (fun x y => !(x.equal y)) false a.ranges o.ranges
/-- :411-427 `intersects`, `overlaps`. -/
def intersects (a o : Bounds) : Outcome Bool := scan Range.overlaps true a.ranges o.ranges
/-- :430-437 -/
def containsBounds (a o : Bounds) : Outcome Bool := scan (fun x y => !(x.containsRange y)) false a.ranges o.ranges

/-- :440-477 `contains(Point const&)`, on the three coordinates of the point (`GetX`, `GetY`, `GetZ`). -/
def containsXYZ (a : Bounds) (x y z : Fl) : Bool :=
  match a.ranges with
  | r0 :: r1 :: rest =>
    if !(r0.containsValue x) then false
    else if !(r1.containsValue y) then false
    else match rest with
      | r2 :: _ =>
        if !(r2.containsValue z) then
          if Point.compareDistance r2.length (.fin 0) then true else false
        else true
      | [] => true
  | _ => false

/-- :440-477 with the getters. Simplification: all three coordinates are read first (the code reads them as needed),
which differs only for records of fewer than 12 bytes. -/
def containsPoint (b : Build) (a : Bounds) (p : Point) : Outcome Bool := do
  let x ← p.getX b
  let y ← p.getY b
  let z ← p.getZ b
  pure (a.containsXYZ x y z)

/-- The loops of `clip` and `grow(Bounds)` (:517-520, :526-529): `ranges[i].op(ds[i])` for every own dimension. -/
def zipOp (f : Range → Range → Range) : List Range → List Range → Outcome (List Range)
  | [], _ => .ok []
  | _ :: _, [] => .ub
  | a :: as, r :: rs => do
    let t ← zipOp f as rs
    pure (f a r :: t)

/-- :515-521 -/
def clip (a r : Bounds) : Outcome Bounds := do
  let l ← zipOp Range.clip a.ranges r.ranges
  pure ⟨l⟩
/-- :524-530 -/
def growBounds (a r : Bounds) : Outcome Bounds := do
  let l ← zipOp Range.growRange a.ranges r.ranges
  pure ⟨l⟩
/-- :533-538 on the three coordinates; indexes 0, 1, 2 unchecked. -/
def growXYZ (a : Bounds) (x y z : Fl) : Outcome Bounds :=
  match a.ranges with
  | r0 :: r1 :: r2 :: rest => .ok ⟨r0.growValue x :: r1.growValue y :: r2.growValue z :: rest⟩
  | _ => .ub
/-- :533-538 -/
def growPoint (b : Build) (a : Bounds) (p : Point) : Outcome Bounds := do
  let x ← p.getX b
  let y ← p.getY b
  let z ← p.getZ b
  a.growXYZ x y z

/-- :479-494 -/
def shift (a : Bounds) (ds : List Fl) : Outcome Bounds :=
  if a.dimension ≠ ds.length then .throw .runtimeError else .ok ⟨List.zipWith Range.shift a.ranges ds⟩
/-- :497-512 -/
def scale (a : Bounds) (fs : List Fl) : Outcome Bounds :=
  if a.dimension ≠ fs.length then .throw .runtimeError else .ok ⟨List.zipWith Range.scale a.ranges fs⟩
/-- :540-548; `T output = T()` is 0. -/
def volume (a : Bounds) : Fl := a.ranges.foldl (fun out r => Fl.mul out r.length) (.fin 0)
/-- :550-557 -/
def empty (a : Bounds) : Bool := a.ranges.any Range.empty

end Bounds
end LibLAS
