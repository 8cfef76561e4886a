import Verif.Model.Point
/-
src/transform.cpp: `TranslationTransform` (the other transforms need GDAL and are not modelled).
-/
namespace LibLAS.Transform

/-- The dimension name of an operation, always "X", "Y" or "Z" (src/transform.cpp:280-292). -/
inductive Axis where
  | x | y | z
  deriving DecidableEq, Repr

/-- include/liblas/transform.hpp:111-117 `OPER_TYPE` (`eOPER_NONE` never leaves `GetOperation`). -/
inductive Oper where
  | multiply | divide | subtract | add
  deriving DecidableEq, Repr

/-- include/liblas/transform.hpp:120-129 `operation`, without the stored text. -/
structure Operation where
  oper : Oper
  axis : Axis
  value : Fl
  deriving DecidableEq, Repr

/-- `s.find_last_of(c) + 1`; 0 stands for `npos + 1`. -/
def afterLast (c : Char) : List Char → Nat
  | [] => 0
  | x :: xs => match afterLast c xs with
    | 0 => if x = c then 1 else 0
    | n + 1 => n + 2

/-- src/transform.cpp:240-343 `GetOperation` on a token. `cast` is `boost::lexical_cast<double>`; its failure
(`bad_lexical_cast`) is shown as `domainError`. `invalid_expression` is a `liblas_error`. A token has no spaces, so
`erase_all` does nothing, but it is modelled. -/
def getOperation (cast : List Char → Option Fl) (expr : List Char) : Outcome Operation :=
  if !(expr.contains 'x') && !(expr.contains 'y') && !(expr.contains 'z') then .throw .liblasError
  else
    let e := expr.filter (· ≠ ' ')
    if e.contains 'x' && e.contains 'y' && e.contains 'z' then .throw .liblasError
    else
      let axis : Option Axis := if e.contains 'x' then some .x else none
      let axis := if e.contains 'y' then some .y else axis
      let axis := if e.contains 'z' then some .z else axis
      match axis with
      | none => .throw .liblasError
      | some axis =>
        let op : Option (Oper × Nat) := if e.contains '*' then some (.multiply, afterLast '*' e) else none
        let op := if e.contains '/' then some (.divide, afterLast '/' e) else op
        let op := if e.contains '+' then some (.add, afterLast '+' e) else op
        let op := if e.contains '-' then some (.subtract, afterLast '-' e) else op
        match op with
        | none => .throw .liblasError
        | some (o, pos) =>
          match cast (e.drop pos) with
          | none => .throw .domainError
          | some v => .ok ⟨o, axis, v⟩

/-- `boost::tokenizer` with `char_separator(" ")`: maximal runs of other characters, empty tokens dropped. `cur` is
the current run, reversed. -/
def tokensAux : List Char → List Char → List (List Char)
  | [], cur => if cur = [] then [] else [cur.reverse]
  | c :: cs, cur =>
    if c = ' ' then (if cur = [] then tokensAux cs [] else cur.reverse :: tokensAux cs [])
    else tokensAux cs (c :: cur)

/-- The tokens of a text. -/
def tokens (s : List Char) : List (List Char) := tokensAux s []

/-- The loop of the constructor. -/
def parseAll (cast : List Char → Option Fl) : List (List Char) → Outcome (List Operation)
  | [] => .ok []
  | t :: ts => do
    let op ← getOperation cast t
    let rest ← parseAll cast ts
    pure (op :: rest)

/-- src/transform.cpp:223-238, the constructor. -/
def make (cast : List Char → Option Fl) (s : List Char) : Outcome (List Operation) :=
  if s.length = 0 then .throw .runtimeError else parseAll cast (tokens s)

/-- The arithmetic of one operation. -/
def Oper.run : Oper → Fl → Fl → Fl
  | .multiply, a, v => Fl.mul a v
  | .divide, a, v => Fl.div a v
  | .add, a, v => Fl.add a v
  | .subtract, a, v => Fl.sub a v

/-- src/transform.cpp:351-409: the coordinate of the axis is replaced. -/
def applyOp (b : Build) (op : Operation) (p : Point) : Outcome Point :=
  match op.axis with
  | .x => do
    let x ← p.getX b
    p.setX b (op.oper.run x op.value)
  | .y => do
    let y ← p.getY b
    p.setY b (op.oper.run y op.value)
  | .z => do
    let z ← p.getZ b
    p.setZ b (op.oper.run z op.value)

/-- `compare_distance<int32_t>(actual, expected)` (include/liblas/detail/private_utility.hpp:225-237) with
`epsilon() = 0`: `actual - expected` is an `int` subtraction, undefined when it overflows unless the compiler is told
to wrap (`wraps`). -/
def sameInt (wraps : Bool) (a e : BitVec 32) : Outcome Bool :=
  if !wraps && BitVec.ssubOverflow a e then .ub else .ok (a - e == 0)

/-- The test `compare_distance(raw, max) || compare_distance(raw, min)` of src/transform.cpp:417-430. -/
def extreme (wraps : Bool) (raw : BitVec 32) : Outcome Bool := do
  let a ← sameInt wraps raw 0x7FFFFFFF#32
  if a then pure true else sameInt wraps raw 0x80000000#32

/-- src/transform.cpp:417-430: throws `domain_error` when a raw coordinate is extreme. -/
def checkRaw (wraps : Bool) (b : Build) (p : Point) : Outcome Unit := do
  let x ← p.getRawX b
  let ex ← extreme wraps x
  if ex then .throw .domainError else do
    let y ← p.getRawY b
    let ey ← extreme wraps y
    if ey then .throw .domainError else do
      let z ← p.getRawZ b
      let ez ← extreme wraps z
      if ez then .throw .domainError else pure ()

/-- src/transform.cpp:344-434 `transform`. An exception leaves the point changed; that state is not modelled. -/
def run (wraps : Bool) (b : Build) : List Operation → Point → Outcome Point
  | [], p => .ok p
  | op :: ops, p => do
    let p ← applyOp b op p
    let _ ← checkRaw wraps b p
    run wraps b ops p

end LibLAS.Transform
