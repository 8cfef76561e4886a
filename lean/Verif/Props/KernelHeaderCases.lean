import Verif.Props.KernelHeader
import Verif.Props.Las2lasCases
/-
C66, C67: cases that meet the hypotheses, and more that does not hold.
-/
namespace LibLAS
open Spec

namespace Kernel

/-- A file of five points with two variable records, one of them of the spatial reference. -/
def recordsFile : List Byte :=
  match session plainEnv [] { sampleHeader with
      vlrs := [sampleRecord "me" 1, sampleRecord "LASF_Projection" 34735]
      srs := [sampleRecord "LASF_Projection" 34735] } Las2las.casePoints with
  | .ok b => b
  | _ => []

theorem recordsFile_ordinary : ∃ r, OrdinaryFile plainEnv (1, 2000) recordsFile r ∧ OrdinaryScaling r.hdr.toP ∧
    delivers ((r.setFilters []).setTransforms []) Las2las.casePoints ∧ gap r.hdr ≤ 2 ∧ r.hdr.vlrs.map VLR.recordId = [1, 34735] ∧
    r.hdr.schema.fmt = .f1 := by
  obtain ⟨r, e, h⟩ : ∃ r, Reader.make plainEnv (1, 2000) (IStream.onFile recordsFile) = .ok r ∧
      ((227 ≤ recordsFile.length ∧ 227 ≤ r.hdr.headerSize.toNat ∧ r.hdr.dataRecordLength = formatSize r.hdr.schema.fmt ∧
        r.hdr.headerSize.toNat + recordBytes r.hdr.vlrs ≤ r.hdr.dataOffset.toNat ∧ r.hdr.dataOffset.toNat + 2 ^ 17 < 2 ^ 31 ∧
        (∀ v ∈ r.hdr.vlrs, recordName v ≠ (lit "liblas", 7) ∧ recordName v ≠ (lit "laszip encoded", 22204))) ∧
      (Las2las.ordinaryAxis r.hdr.toP.scale.x r.hdr.toP.offset.x = true ∧
        Las2las.ordinaryAxis r.hdr.toP.scale.y r.hdr.toP.offset.y = true ∧
        Las2las.ordinaryAxis r.hdr.toP.scale.z r.hdr.toP.offset.z = true) ∧
      delivers ((r.setFilters []).setTransforms []) Las2las.casePoints ∧
      (r.hdr.dataOffset.toNat - (r.hdr.headerSize.toNat + recordBytes r.hdr.vlrs) ≤ 2 ∧ r.hdr.vlrs.map VLR.recordId = [1, 34735] ∧
        r.hdr.schema.fmt = .f1)) :=
    Outcome.exists_of_check (by decide +kernel)
  obtain ⟨⟨h1, h2, h3, h4, h5, h6⟩, ⟨k1, k2, k3⟩, hd, hg, hi, hf⟩ := h
  exact ⟨r, ⟨e, h1, h2, h3, h4, h5, h6⟩,
    ⟨Las2las.ordinaryAxis_spec k1, Las2las.ordinaryAxis_spec k2, Las2las.ordinaryAxis_spec k3⟩, hd, hg, hi, hf⟩

/-- A word for a number. -/
def num (n : Nat) : Word := ⟨(toString n).toList.map fun c => BitVec.ofNat 8 c.toNat, BitVec.ofNat 32 n, 0⟩

/-- A word for a text. -/
def word (s : String) : Word := ⟨lit s, 0, 0⟩

/-- A request for everything but deletions: a new version, date, record, software and system identifier. -/
def everything : HeaderRequest where
  version := some 0
  format := some .f0
  date := some (17, 2011)
  add := some ⟨lit "you", 3, lit "a text", [7, 8, 9]⟩
  software := some (lit "mine")
  system := some []

/-- The options for it; the data are in a file. -/
def everythingOpts : HeaderOpts where
  fileFormat := some [num 1, num 0]
  pointFormat := some 0
  fileCreation := some [num 17, num 2011]
  addVlr := some [word "you", num 3, word "a text", word "data.bin"]
  software := some (lit "mine")
  system := some []

/-- The files there are. -/
def oneFile (t : List Byte) : Option (List Byte) := if t = lit "data.bin" then some [7, 8, 9] else none

theorem everything_asked : everything.Asked oneFile everythingOpts where
  offset := rfl
  scale := rfl
  version := ⟨by decide, _, _, rfl, rfl, rfl⟩
  format := ⟨0, rfl, by decide⟩
  padHeader := rfl
  date := ⟨by decide, by decide, _, _, rfl, rfl, rfl⟩
  addSchema := rfl
  delete := rfl
  add := ⟨by unfold shortText; decide +kernel, by decide, by unfold shortText; decide +kernel, by decide, by decide, _, _, _, _, rfl, rfl, rfl,
    rfl, Or.inr (by decide +kernel)⟩
  software := ⟨rfl, by intro t e; injection e with e; subst e; unfold shortText; decide +kernel⟩
  system := ⟨rfl, by intro t e; injection e with e; subst e; unfold shortText; decide +kernel⟩

/-- The hypotheses of C67 are met; the file has the five points, cut to the 20 bytes of format 0. -/
example (b : Build) : ∃ f r, Las2las.main plainEnv (1, 2000) b (Las2las.plain 0 0) (editHeader plainEnv (1, 2000) oneFile everythingOpts)
      recordsFile = .ok [f] ∧ Reader.make plainEnv (1, 2000) (IStream.onFile f) = .ok r ∧
    delivers r (Las2las.casePoints.map fun p => p.take 20) ∧ r.hdr.verMinor = 0 ∧ r.hdr.year = 2011 ∧ r.hdr.vlrs.length = 3 := by
  obtain ⟨r₀, hf, hs, hd, hg, hi, hfm⟩ := recordsFile_ordinary
  obtain ⟨h', f, r, hm, e, hw, -⟩ := header_options_kept_partial (b := b) (o := Las2las.plain 0 0) hf hd hs (by simp [Las2las.plain])
    everything_asked (by intro n hn; injection hn with hn; subst hn; decide +kernel) (by rw [hfm]; decide) rfl rfl rfl rfl hg
  refine ⟨f, r, e, hw.opens, ?_, ?_, ?_, ?_⟩
  · have := hw.points
    rw [hm.recordLength] at this
    exact this
  · rw [hw.version]
    apply BitVec.eq_of_toNat_eq
    rw [hm.version]; rfl
  · rw [hw.year]
    apply BitVec.eq_of_toNat_eq
    rw [hm.year]; rfl
  · have hlen := congrArg List.length hw.records
    rw [List.length_map, List.length_map] at hlen
    rw [hlen]
    obtain ⟨new, hn, v, hv, his⟩ := hm.records
    subst hv
    unfold editedRecords
    rw [hn]
    have hnot : recordName v ∉ geoNames := by
      unfold recordName
      rw [his.1]
      show (lit "you", v.recordId) ∉ geoNames
      unfold geoNames
      simp only [List.mem_cons, Prod.mk.injEq, List.not_mem_nil, or_false, not_or, not_and]
      refine ⟨fun h => absurd h (by decide +kernel), fun h => absurd h (by decide +kernel), fun h => absurd h (by decide +kernel),
        fun h => absurd h (by decide +kernel)⟩
    have hcount : (r₀.hdr.vlrs.filter fun v => decide (recordName v ∉ geoNames)).length +
        (r₀.hdr.vlrs.filter fun v => decide (recordName v ∈ geoNames)).length = 2 := by
      have : ∀ l : List VLR, (l.filter fun v => decide (recordName v ∉ geoNames)).length +
          (l.filter fun v => decide (recordName v ∈ geoNames)).length = l.length := by
        intro l
        induction l with
        | nil => rfl
        | cons u l ih => by_cases hg : recordName u ∈ geoNames <;> simp [hg] at ih ⊢ <;> omega
      rw [this]
      have := congrArg List.length hi
      simpa using this
    rw [List.filter_append, List.length_append, List.length_append]
    rw [List.filter_cons_of_pos (by simpa using hnot)]
    show (((r₀.hdr.vlrs.filter fun v => decide ((v.getUserId false, v.recordId.toNat) ∉ ([] : List (List Byte × Nat)))).filter _).length + 1 + _) = 3
    simp only [List.not_mem_nil, not_false_eq_true, decide_true, List.filter_true]
    omega

/-- A request to delete the first record of the file. -/
def deletion : HeaderRequest where
  delete := [(lit "me", 1)]

/-- The hypotheses of `delete_vlr_ub` are met: deleting the record (me, 1) of a file that has it is undefined. -/
theorem delete_vlr_case (b : Build) : Las2las.main plainEnv (1, 2000) b (Las2las.plain 0 0)
    (editHeader plainEnv (1, 2000) oneFile { deleteVlr := some [word "me", num 1] }) recordsFile = .ub := by
  obtain ⟨r₀, hf, hs, hd, hg, hi, hfm⟩ := recordsFile_ordinary
  obtain ⟨v, hv, h1⟩ : ∃ v ∈ r₀.hdr.vlrs, recordName v = (lit "me", 1) := by
    obtain ⟨r, e, h⟩ : ∃ r, Reader.make plainEnv (1, 2000) (IStream.onFile recordsFile) = .ok r ∧
        (∃ v ∈ r.hdr.vlrs, recordName v = (lit "me", 1)) := Outcome.exists_of_check (by decide +kernel)
    rw [hf.opens] at e
    injection e with e
    subst e
    exact h
  have h2 := congrArg Prod.fst h1
  have h3 := congrArg Prod.snd h1
  unfold recordName at h2 h3
  simp only at h2 h3
  refine delete_vlr_ub (b := b) (q := deletion) (o := Las2las.plain 0 0) hf hd hs (by simp [Las2las.plain]) ?_ (by rw [hfm]; decide) rfl rfl rfl rfl hv
    (by rw [h1]; decide +kernel) (by rw [h2, h3]; simp [deletion])
  exact ⟨rfl, rfl, rfl, rfl, rfl, rfl, rfl, ⟨rfl, rfl, by decide, trivial⟩, rfl, ⟨rfl, by simp [deletion]⟩, ⟨rfl, by simp [deletion]⟩⟩

/-- The hypotheses of `pad_header_ub` are met. -/
example (b : Build) : Las2las.main plainEnv (1, 2000) b (Las2las.plain 0 0)
    (editHeader plainEnv (1, 2000) oneFile { padHeader := some 2000 }) recordsFile = .ub := by
  obtain ⟨r₀, hf, hs, hd, hg, hi, hfm⟩ := recordsFile_ordinary
  refine pad_header_ub (b := b) hf rfl rfl ?_ (by decide)
  obtain ⟨r, e, h⟩ : ∃ r, Reader.make plainEnv (1, 2000) (IStream.onFile recordsFile) = .ok r ∧
      (r.hdr.headerSize.toNat + recordBytes r.hdr.vlrs + 2 < (2000 : BitVec 32).toNat) := Outcome.exists_of_check (by decide +kernel)
  rw [hf.opens] at e
  injection e with e
  subst e
  exact h

/-- The coordinates of the first point and the header bounds after a run of las2las. -/
def firstPoint (o : HeaderOpts) (input : List Byte) : Outcome (Fl × Fl) := do
  let fs ← Las2las.main plainEnv (1, 2000) ⟨.little, false⟩ (Las2las.plain 0 0) (editHeader plainEnv (1, 2000) oneFile o) input
  Las2las.firstX (fs.headD [])

/-- C67 refuted: `--scale` and `--offset` move the points. The first point has `x = 35`; with scale 0.5 the output has it at 17.5,
with offset 1 at 36, and the bounds of the header (maximum 100) are those of the input. -/
theorem scale_moves_points :
    (∃ p, firstPoint {} recordsFile = .ok p ∧ p = (.fin 35, .fin 100)) ∧
    (∃ p, firstPoint { scale := some [0x3FE0000000000000#64, Header.one, Header.one] } recordsFile = .ok p ∧
      p = (.fin (35 / 2), .fin 100)) ∧
    (∃ p, firstPoint { offset := some [⟨lit "1", 1, Header.one⟩, ⟨lit "0", 0, 0⟩, ⟨lit "0", 0, 0⟩] } recordsFile = .ok p ∧
      p = (.fin 36, .fin 100)) :=
  ⟨Outcome.exists_of_check (by decide +kernel), Outcome.exists_of_check (by decide +kernel), Outcome.exists_of_check (by decide +kernel)⟩

/-- A file with one point of format 3: time bits `0x0102030405060708`, colour (1, 2, 3). -/
def colourFile : List Byte :=
  match session plainEnv [] (Header.new 1 2000) [List.replicate 20 0#8 ++ leBytes 8 0x0102030405060708#64 ++ [1, 0, 2, 0, 3, 0]] with
  | .ok b => b
  | _ => []

/-- The colour of the first point of the output of las2las. -/
def firstColour (o : HeaderOpts) (input : List Byte) : Outcome Color := do
  let fs ← Las2las.main plainEnv (1, 2000) ⟨.little, false⟩ (Las2las.plain 0 0) (editHeader plainEnv (1, 2000) oneFile o) input
  let r ← Reader.make plainEnv (1, 2000) (IStream.onFile (fs.headD []))
  match r.readNext with
  | (r, .ok true) => Point.getColor ⟨.little, false⟩ ⟨r.point, r.hdr.toP⟩
  | _ => .ub

/-- C67 refuted: `--point-format 2` for a file of format 3 does not drop the time: the first bytes of the time become the colour. -/
theorem format_garbles_colour :
    (∃ c, firstColour {} colourFile = .ok c ∧ c = ⟨1, 2, 3⟩) ∧
    (∃ c, firstColour { pointFormat := some 2 } colourFile = .ok c ∧ c = ⟨0x0708, 0x0506, 0x0304⟩) :=
  ⟨Outcome.exists_of_check (by decide +kernel), Outcome.exists_of_check (by decide +kernel)⟩

/-- The file again, with three bytes between the variable records and the points. -/
def spacedFile : List Byte :=
  (recordsFile.take 341).set 96 0x58 ++ [0, 0, 0] ++ recordsFile.drop 341

/-- Case for C66 and `filler_ub`: the spaced file opens and delivers its points, but its header cannot be given to a writer, and
las2las is undefined on it. -/
theorem filler_case : (∃ r, Reader.make plainEnv (1, 2000) (IStream.onFile spacedFile) = .ok r ∧
      (r.hdr.dataOffset.toNat = r.hdr.headerSize.toNat + recordBytes r.hdr.vlrs + 3 ∧ delivers r Las2las.casePoints ∧
        Writer.make plainEnv (OStream.onFile []) r.hdr = .ub)) ∧
    Las2las.main plainEnv (1, 2000) ⟨.little, false⟩ (Las2las.plain 0 0) .ok spacedFile = .ub := by
  refine ⟨?_, by decide +kernel⟩
  obtain ⟨r, e, h1, h2, h3⟩ : ∃ r, Reader.make plainEnv (1, 2000) (IStream.onFile spacedFile) = .ok r ∧
      (r.hdr.dataOffset.toNat = r.hdr.headerSize.toNat + recordBytes r.hdr.vlrs + 3 ∧ delivers r Las2las.casePoints ∧
        ((match Writer.make plainEnv (OStream.onFile []) r.hdr with | .ub => true | _ => false) = true)) :=
    Outcome.exists_of_check (by decide +kernel)
  refine ⟨r, e, h1, h2, ?_⟩
  generalize Writer.make plainEnv (OStream.onFile []) r.hdr = x at h3 ⊢
  cases x <;> first | rfl | cases h3

/-- C66: the hypotheses of `copy_header_exactly` are met by the first file, and a writer is made. -/
example : ∃ r w, Reader.make plainEnv (1, 2000) (IStream.onFile recordsFile) = .ok r ∧
    Writer.make plainEnv (OStream.onFile []) r.hdr = .ok w := by
  obtain ⟨r₀, hf, hs, hd, hg, hi, hfm⟩ := recordsFile_ordinary
  have hlay := hf.layout
  have hsm := hf.small
  obtain ⟨w, e, -⟩ := (copy_header_exactly plainEnv (1, 2000) hf.long hf.opens hf.noSchema hf.size hf.standard.plain
    (fun v hv => (hf.names v hv).2) (by omega) (by omega)).1 hg
  exact ⟨r₀, w, hf.opens, e⟩

end Kernel
end LibLAS
