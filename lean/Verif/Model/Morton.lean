import Verif.Model.Float
/-
The Morton codes of apps/las2pg.c and apps/las2col.c (the two programs have the same functions).
-/
namespace LibLAS.Morton

/-- apps/las2pg.c:251-260, apps/las2col.c:541-550 `Expand1`. -/
def expand1 (a : BitVec 32) : BitVec 64 :=
  let b : BitVec 64 := (a &&& 0x7fffffff).setWidth 64
  let b := (b ^^^ (b <<< 16)) &&& 0x0000ffff0000ffff
  let b := (b ^^^ (b <<< 8)) &&& 0x00ff00ff00ff00ff
  let b := (b ^^^ (b <<< 4)) &&& 0x0f0f0f0f0f0f0f0f
  let b := (b ^^^ (b <<< 2)) &&& 0x3333333333333333
  (b ^^^ (b <<< 1)) &&& 0x5555555555555555

/-- apps/las2pg.c:262-265 `EncodeMorton2D`, apps/las2col.c:563. -/
def encode (x y : BitVec 32) : BitVec 64 := (expand1 x <<< 1) + expand1 y

/-- `(int64_t)` of a double: truncation, undefined for what does not fit (platform). -/
def toInt64 : Fl → Outcome Int
  | .fin q =>
    let t : Int := if 0 ≤ q then ⌊q⌋ else ⌈q⌉
    if -(2 ^ 63) ≤ t ∧ t < 2 ^ 63 then .ok t else .ub
  | _ => .ub

/-- An `int64_t`: signed overflow is undefined. -/
def int64 (i : Int) : Outcome Int := if -(2 ^ 63) ≤ i ∧ i < 2 ^ 63 then .ok i else .ub

/-- apps/las2pg.c:534-535, apps/las2col.c:396-397: what is added to the raw coordinates. -/
def factor (offset scale : Fl) (global : Int) : Outcome Int := do
  let t ← toInt64 (Fl.div offset scale)
  int64 (t - global)

/-- apps/las2pg.c:570-572: the code of a point. -/
def code (rawX rawY : BitVec 32) (factorX factorY : Int) : Outcome (BitVec 64) := do
  let x ← int64 (rawX.toInt + factorX)
  let y ← int64 (rawY.toInt + factorY)
  pure (encode (BitVec.ofInt 32 x) (BitVec.ofInt 32 y))

/-- apps/las2col.c:560-566, :481: the code of a point; the factors are passed as `unsigned int`. (The call goes through a
pointer to a function of another type; here it is what the calling conventions in use make of it.) -/
def codeCol (rawX rawY : BitVec 32) (factorX factorY : Int) : BitVec 64 :=
  encode (BitVec.ofInt 32 (rawX.toInt + (BitVec.ofInt 32 factorX).toNat)) (BitVec.ofInt 32 (rawY.toInt + (BitVec.ofInt 32 factorY).toNat))

/-- `fabs`. -/
def fabs : Fl → Fl
  | .fin q => .fin |q|
  | .inf _ => .inf false
  | .nan => .nan

/-- `TOLERANCE` (apps/las2pg.c:138, apps/las2col.c:143). -/
def tolerance : Fl := Fl.ofRat (1 / 10 ^ 7)

/-- apps/las2pg.c:482-515 and apps/las2col.c:399-432, for one axis: whether the checks let the file pass. `scale` is the scale given
by the user. -/
def checkAxis (scale fileScale min max : Fl) (global : Int) : Bool :=
  let g := Fl.mul (Fl.ofRat global) scale
  !Fl.lt tolerance (fabs (Fl.sub scale fileScale)) &&
  !Fl.lt (Fl.sub (Fl.add (.fin 1) min) g) tolerance &&
  !Fl.lt (Fl.mul (.fin 2147483648) scale) (Fl.sub max g)

end LibLAS.Morton
