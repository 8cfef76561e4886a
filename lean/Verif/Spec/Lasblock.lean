import Verif.Spec.Las2las
import Verif.Spec.NewFile
import Verif.Spec.Records
import Verif.Lemmas.Point
/-
What tiling a file must leave.
-/
namespace LibLAS.Spec
open Point

/-- The file holds the points of the input with the given numbers, in that order, under the header values of the input
(`h`), and its header describes them. -/
def TileOf (env : Env) (today : BitVec 16 × BitVec 16) (b : Build) (h : Header) (input f : List Byte) (ids : List Nat) : Prop :=
  ∃ r, FileWith env today h (outputRecords env h) f (ids.map fun i => record input h.dataOffset.toNat h.dataRecordLength i) r ∧
    ∀ as, ids.map (fun i => observe b ⟨record input h.dataOffset.toNat h.dataRecordLength i, h.toP⟩) = as.map .ok →
      Describes h.toP as r.hdr

end LibLAS.Spec
