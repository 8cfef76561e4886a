import Verif.Spec.Reading
import Verif.Props.Coord
import Verif.Props.Transform
/-
What the options of las2las that change points promise.
-/
namespace LibLAS.Spec
open Point Transform

/-- `n` is the integer nearest to 1.944445 times the angle `a`, and `a'` is `n` brought into the range of a signed byte. -/
def AngleFixed (a a' : BitVec 8) : Prop :=
  ∃ n : ℤ, |(n : ℚ) - 1944445 / 1000000 * a.toInt| < 1 / 2 ∧ a'.toInt = max (-128) (min 127 n)

/-- Point `q` is point `p` with one coordinate replaced: the new one is the nearest the record can hold to the result of
the operation. Everything else reads the same. -/
def ShiftedBy (b : Build) (op : Operation) (p q : Point) : Prop :=
  q.hdr = p.hdr ∧ q.data.length = p.data.length ∧ ∃ a w, observe b p = .ok a ∧
    match op.axis with
    | .x => observe b q = .ok { a with rawX := w } ∧
      ∃ x, p.getX b = .ok x ∧ Nearest w (operResult op.oper x op.value) p.hdr.scale.x p.hdr.offset.x
    | .y => observe b q = .ok { a with rawY := w } ∧
      ∃ y, p.getY b = .ok y ∧ Nearest w (operResult op.oper y op.value) p.hdr.scale.y p.hdr.offset.y
    | .z => observe b q = .ok { a with rawZ := w } ∧
      ∃ z, p.getZ b = .ok z ∧ Nearest w (operResult op.oper z op.value) p.hdr.scale.z p.hdr.offset.z

/-- The operations in turn, each on what the one before left. -/
def Shifted (b : Build) : List Operation → Point → Point → Prop
  | [], p, q => p = q
  | op :: ops, p, q => ∃ m, ShiftedBy b op p m ∧ Shifted b ops m q

/-- The same point but for the angle. -/
def OnlyAngleFixed (b : Build) (p q : Point) : Prop :=
  q.hdr = p.hdr ∧ q.data.length = p.data.length ∧ ∃ a v, observe b p = .ok a ∧ AngleFixed a.scanAngle v ∧
    observe b q = .ok { a with scanAngle := v }

end LibLAS.Spec
