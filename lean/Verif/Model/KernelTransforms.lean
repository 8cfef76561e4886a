import Verif.Model.Transform
/-
apps/laskernel.cpp: the options of las2las that change points. Reprojection and colour fetching need GDAL and are not
modelled.
-/
namespace LibLAS.Kernel

/-- A transform works on a point and may throw; its `bool` result is ignored (src/detail/reader/reader.cpp:91-102). -/
abbrev PTransform := Point → Outcome Point

/-- apps/laskernel.cpp:5-26: the new angle. `1.944445` is the nearest double. -/
def fixedAngle (a : BitVec 8) : Outcome (BitVec 8) := do
  let n ← Fl.toInt32 (Point.sround (Fl.mul (Fl.ofRat (1944445 / 1000000)) (.fin a.toInt)))
  if n.toInt > 127 then pure 127
  else if n.toInt < -128 then pure 0x80
  else pure (n.setWidth 8)

/-- apps/laskernel.cpp:3-31 `OptechScanAngleFixer::transform`. -/
def fixAngle (p : Point) : Outcome Point := do
  let a ← p.getScanAngleRank
  let v ← fixedAngle a
  p.setScanAngleRank v

/-- The options: `--point-translate` with its text, `--fix-optech-scan-angle`. -/
structure TransformOpts where
  translate : Option (List Char) := none
  fixAngles : Bool := false

/-- apps/laskernel.cpp:1424-1434. `wraps` as in `Transform.run`. -/
def translateTransforms (wraps : Bool) (b : Build) (cast : List Char → Option Fl) : Option (List Char) → Outcome (List PTransform)
  | none => .ok []
  | some s => do
    let ops ← Transform.make cast s
    pure [Transform.run wraps b ops]

/-- apps/laskernel.cpp:1279-1446 `GetTransforms`, for the two options. -/
def getTransforms (wraps : Bool) (b : Build) (cast : List Char → Option Fl) (o : TransformOpts) : Outcome (List PTransform) := do
  let t ← translateTransforms wraps b cast o.translate
  pure (t ++ if o.fixAngles then [fixAngle] else [])

/-- What the reader does with such a transform: the record after it. `src` is the header of the input. A transform that
throws ends the program; the theorems assume that none does. -/
def asReaderTransform (src : PHeader) (t : PTransform) (d : List Byte) : List Byte :=
  match t ⟨d, src⟩ with
  | .ok q => q.data
  | _ => d

end LibLAS.Kernel
