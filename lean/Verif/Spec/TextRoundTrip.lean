import Verif.Spec.Txt2las
/-
What is left of a point that has gone through text.
-/
namespace LibLAS.Spec.Text

/-- The attributes `a'` of a point that was printed with these letters (the coordinates among them) and read back, against the attributes `a` of the
original: the same for every letter, and zero without a letter, except that only the class is printed of the
classification, without its flags, and that the time is the double nearest to a decimal with `pt` decimals next to the
original time. -/
structure Kept (letters : List Char) (pt : Nat) (a a' : Attrs) : Prop where
  x : a'.rawX = a.rawX
  y : a'.rawY = a.rawY
  z : a'.rawZ = a.rawZ
  intensity : a'.intensity = if 'i' ∈ letters then a.intensity else 0
  returnNumber : a'.returnNumber = if 'r' ∈ letters then a.returnNumber else 0
  numberOfReturns : a'.numberOfReturns = if 'n' ∈ letters then a.numberOfReturns else 0
  scanDirection : a'.scanDirection = if 'd' ∈ letters then a.scanDirection else 0
  edge : a'.edge = if 'e' ∈ letters then a.edge else 0
  classification : a'.classification.flags.toNat = if 'c' ∈ letters then a.classification.flags.toNat % 32 else 0
  scanAngle : a'.scanAngle = if 'a' ∈ letters then a.scanAngle else 0
  userData : a'.userData = if 'u' ∈ letters then a.userData else 0
  sourceId : a'.sourceId = if 'p' ∈ letters then a.sourceId else 0
  time : if 't' ∈ letters then ∃ q w : ℚ, Fl.ofBits a.time = .fin q ∧ |w - q| ≤ 1 / 2 / 10 ^ pt ∧ a'.time = (Fl.ofRat w).toBits
    else a'.time = 0
  red : a'.color.c0 = if 'R' ∈ letters then a.color.c0 else 0
  green : a'.color.c1 = if 'G' ∈ letters then a.color.c1 else 0
  blue : a'.color.c2 = if 'B' ∈ letters then a.color.c2 else 0

end LibLAS.Spec.Text
