import Verif.Model.Float
/-
apps/laskernel.cpp `term_progress`: the progress meter of the tools (`-v`).
-/
namespace LibLAS.Progress

/-- apps/laskernel.cpp:93-95: the tick of a completed part. -/
def tickOf (complete : Fl) : Outcome Int := do
  let v ← Fl.toInt32 (Fl.mul complete (.fin 40))
  pure (min 40 (max 0 v.toInt))

/-- `os << n` for a number that is not negative. -/
def decimal (n : Int) : List Char := Nat.toDigits 10 n.toNat

/-- apps/laskernel.cpp:107-110. -/
def mark (k : Int) : List Char := if k % 4 = 0 then decimal (k / 4 * 10) else ['.']

/-- The loop of apps/laskernel.cpp:104-111, `tick - lastTick` rounds. -/
def fill (lastTick : Int) : Nat → List Char
  | 0 => []
  | k + 1 => mark (lastTick + 1) ++ fill (lastTick + 1) k

/-- apps/laskernel.cpp:90-119 `term_progress` (the same code in apps/las2ogr.cpp:92-120): the new value of the static variable
`lastTick`, which is -1 when the program starts, and the characters written. -/
def progress (lastTick : Int) (complete : Fl) : Outcome (Int × List Char) := do
  let tick ← tickOf complete
  let last := if tick < lastTick ∧ 39 ≤ lastTick then -1 else lastTick
  if tick ≤ last then pure (last, [])
  else pure (tick, fill last (tick - last).toNat ++ (if tick = 40 then " - done.\n".toList else []))

/-- A sequence of calls. -/
def run : Int → List Fl → Outcome (Int × List Char)
  | last, [] => .ok (last, [])
  | last, c :: cs => do
    let (last, out) ← progress last c
    let (last, rest) ← run last cs
    pure (last, out ++ rest)

/-- `(i + 1) / static_cast<double>(size)` on `uint32_t` (apps/lasinfo.cpp:56, las2las.cpp:157, las2txt.cpp:342, lasblock.cpp:147
and :198, las2ogr.cpp:365). -/
def part (i size : BitVec 32) : Fl := Fl.div (.fin (i + 1).toNat) (.fin size.toNat)

/-- The calls for the first `k` of `n` points: the loops around these calls count from 0. -/
def calls (k n : Nat) : List Fl := (List.range k).map fun i => part (BitVec.ofNat 32 i) (BitVec.ofNat 32 n)

/-- apps/ts2las.cpp:264-266: here the counter is increased before the call. -/
def callsLate (k n : Nat) : List Fl := (List.range k).map fun i => part (BitVec.ofNat 32 (i + 1)) (BitVec.ofNat 32 n)

end LibLAS.Progress
