import Verif.Props.Las2pg
import Verif.Props.Las2txtCases
/-
C82: concrete runs.
-/
namespace LibLAS.Las2pg
open LibLAS Spec Spec.Dump Point

/-- The hypotheses of `dump_partial` are met by a file of five points and all letters. -/
theorem input_five : ∃ r, Input plainEnv (1, 2000) (sampleFile fivePoints) r fivePoints ∧
    Whole (Fl.div r.hdr.toP.offset.x r.hdr.toP.scale.x) 0 ∧ Whole (Fl.div r.hdr.toP.offset.y r.hdr.toP.scale.y) 0 ∧
    wanted true fivePoints = fivePoints ∧ fivePoints.length ≤ 2 ^ 31 := by
  obtain ⟨r, e, ⟨⟨a1, a2, a3⟩, ⟨b1, b2, b3⟩, ⟨c1, c2, c3⟩, ⟨d1, d2, d3⟩, ⟨e1, e2, e3⟩, f1⟩, h2, h3, h4, h5, h6⟩ :
      ∃ r, Reader.make plainEnv (1, 2000) (IStream.onFile (sampleFile fivePoints)) = .ok r ∧
      (((r.readNext.2 = .ok true ∧ r.readNext.1.point = List.replicate 28 1 ∧ True) ∧
        (r.readNext.1.readNext.2 = .ok true ∧ r.readNext.1.readNext.1.point = List.replicate 28 2 ∧ True) ∧
        (r.readNext.1.readNext.1.readNext.2 = .ok true ∧ r.readNext.1.readNext.1.readNext.1.point = List.replicate 28 3 ∧ True) ∧
        (r.readNext.1.readNext.1.readNext.1.readNext.2 = .ok true ∧ r.readNext.1.readNext.1.readNext.1.readNext.1.point = List.replicate 28 4 ∧ True) ∧
        (r.readNext.1.readNext.1.readNext.1.readNext.1.readNext.2 = .ok true ∧
          r.readNext.1.readNext.1.readNext.1.readNext.1.readNext.1.point = List.replicate 28 5 ∧ True) ∧
        r.readNext.1.readNext.1.readNext.1.readNext.1.readNext.1.readNext.2 = .ok false) ∧
      227 ≤ (sampleFile fivePoints).length ∧ r.hdr.vlrs.find? VLR.isSchema = none ∧
      formatSize r.hdr.schema.fmt ≤ r.hdr.dataRecordLength ∧ Fl.div r.hdr.toP.offset.x r.hdr.toP.scale.x = .fin 0 ∧
      Fl.div r.hdr.toP.offset.y r.hdr.toP.scale.y = .fin 0) := Outcome.exists_of_check (by decide +kernel)
  refine ⟨r, ⟨e, ⟨a1, a2, b1, b2, c1, c2, d1, d2, e1, e2, .inl f1⟩, h2, noSchema_none h3, h4⟩, ⟨0, h5, by norm_num, by norm_num, by norm_num⟩,
    ⟨0, h6, by norm_num, by norm_num, by norm_num⟩, by decide +kernel, by decide⟩

/-- The dump of that file with two letters, read back: the intensities as numbers of four bytes and the numbers of the points. -/
theorem dump_run : ∃ out, main plainEnv (1, 2000) ⟨.little, false⟩ ⟨['i', 'M'], false, (0, 0), none⟩ (sampleFile fivePoints) = .ok out ∧
    copyDecode out = some ((List.range 5).map fun i =>
      [some [0, 0, BitVec.ofNat 8 (i + 1), BitVec.ofNat 8 (i + 1)], some [0, 0, 0, BitVec.ofNat 8 i]]) :=
  Outcome.exists_of_check (by decide +kernel)

/-- Two points, the first with a scan angle of 100 degrees. -/
def skippedFirst : List (List Byte) := [List.replicate 28 100, List.replicate 28 1]

/-- **C82, not valid** for the numbers of tuples with `--skip_invalid`: every skipped point makes the number one smaller; here the first
tuple gets the number -1. -/
theorem number_after_skip : ∃ out, main plainEnv (1, 2000) ⟨.little, false⟩ ⟨['M'], true, (0, 0), none⟩ (sampleFile skippedFirst) = .ok out ∧
    copyDecode out = some [[some [255, 255, 255, 255]]] :=
  Outcome.exists_of_check (by decide +kernel)

/-- **C82, not valid** for letters without a meaning: the tuple announces a field that is not there, and what is written cannot be read. -/
theorem unknown_letter : ∃ out, main plainEnv (1, 2000) ⟨.little, false⟩ ⟨['i', 'q'], false, (0, 0), none⟩ (sampleFile fivePoints) = .ok out ∧
    copyDecode out = none :=
  Outcome.exists_of_check (by decide +kernel)

/-- **C82, not valid** for an empty `--parse`: the string is read beyond its end. -/
theorem empty_parse : main plainEnv (1, 2000) ⟨.little, false⟩ ⟨[], false, (0, 0), none⟩ (sampleFile fivePoints) = .ub := by
  decide +kernel

/-- A header with scales of zero. -/
def flatFile : List Byte := (sampleFile fivePoints).take 131 ++ List.replicate 48 0 ++ (sampleFile fivePoints).drop 179

/-- **C82, not valid** for files with a scale of zero: although no Morton codes are wanted, the quotient of offset and scale, not a number,
is cast to an integer. -/
theorem zero_scale : main plainEnv (1, 2000) ⟨.little, false⟩ ⟨['i'], false, (0, 0), none⟩ flatFile = .ub := by
  decide +kernel

/-- **C82, not valid** for a file that ends too early: no error, and the record that is only half there gets a tuple, filled up with the
bytes of the one before. -/
theorem truncated_file : ∃ out, main plainEnv (1, 2000) ⟨.little, false⟩ ⟨['i', 'p'], false, (0, 0), none⟩
      ((sampleFile (fivePoints.take 3)).take (227 + 57 + 28 + 14)) = .ok out ∧
    copyDecode out = some [[some [0, 0, 1, 1], some [0, 0, 1, 1]], [some [0, 0, 2, 2], some [0, 0, 1, 1]]] :=
  Outcome.exists_of_check (by decide +kernel)

end LibLAS.Las2pg
