import Verif.Props.Las2las
/-
C61 to C64: cases that meet the hypotheses, and where las2las does not do what its users expect.
-/
namespace LibLAS
open Spec Point

namespace Las2las

/-! ## Cutting a list -/

/-- The pieces of `splitEvery` put together are the list. -/
theorem splitEvery_flatten {α : Type} {k : Nat} (hk : 0 < k) (xs : List α) : (splitEvery k xs).flatten = xs := by
  induction h : xs.length using Nat.strong_induction_on generalizing xs with
  | _ n ih =>
    subst h
    rcases Nat.lt_or_ge xs.length k with h | h
    · rw [splitEvery_short h]; simp
    · have hk' : (xs.take k).length = k := by rw [List.length_take]; omega
      conv_lhs => rw [← List.take_append_drop k xs]
      rw [splitEvery_full hk hk', List.flatten_cons, ih _ (by rw [List.length_drop]; omega) _ rfl, List.take_append_drop]

/-- All pieces but the last have exactly `k` elements, and the last has fewer. -/
theorem splitEvery_lengths {α : Type} {k : Nat} (hk : 0 < k) (xs : List α) (i : Nat) (c : List α)
    (h : (splitEvery k xs)[i]? = some c) :
    (i + 1 < (splitEvery k xs).length → c.length = k) ∧ (i + 1 = (splitEvery k xs).length → c.length < k) := by
  unfold splitEvery at h ⊢
  rw [List.getElem?_map] at h
  rw [List.length_map, List.length_range]
  have h1 : xs.length / k * k ≤ xs.length := Nat.div_mul_le_self _ _
  have h2 : xs.length < (xs.length / k + 1) * k := by
    have := Nat.lt_div_mul_add (a := xs.length) hk
    rw [Nat.succ_mul]; omega
  cases hr : (List.range (xs.length / k + 1))[i]? with
  | none => rw [hr] at h; cases h
  | some j =>
    rw [hr] at h
    injection h with h
    obtain ⟨hi, hj⟩ := List.getElem?_eq_some_iff.1 hr
    rw [List.getElem_range] at hj
    subst hj
    rw [← h, List.length_take, List.length_drop]
    refine ⟨fun h => ?_, fun h => ?_⟩
    · have : (i + 1) * k ≤ xs.length / k * k := Nat.mul_le_mul_right _ (by omega)
      rw [Nat.succ_mul] at this
      omega
    · have : i = xs.length / k := by omega
      rw [this, Nat.min_def]; split <;> (rw [Nat.succ_mul] at h2; omega)

section
variable {env : Env} {today : BitVec 16 × BitVec 16} {o : Opts} {input : List Byte} {r₀ : Reader}
  {ps : List (List Byte)} {h : Header} {w : Writer}

/-- C64: the help text promises files of "this size in MB or less". Every file but the last is larger, whatever the
input, for every size below 2048. -/
theorem split_bytes_exceeds {b : Build} {edit : Header → Outcome Header} {h' : Header} (hi : Input env today o input r₀ ps)
    (he : edit r₀.hdr = .ok h') (hh : h = { h' with compressed := false }) (ho : Output env r₀ h w)
    (hmin : o.minOffset = false) (hmb : o.splitMb ≠ 0) (hpts : o.splitPts = 0) (hsize : o.splitMb.toNat < 2048) :
    ∃ files, main env today b o edit input = .ok files ∧
      ∀ i f, files[i]? = some f → i + 1 < files.length → o.splitMb.toNat * 2 ^ 20 < f.length := by
  obtain ⟨files, e1, hp⟩ := split_bytes_partial (b := b) hi he hh ho hmin hmb hpts
  refine ⟨files, e1, fun i f hf hi' => ?_⟩
  rw [hp.same] at hi'
  obtain ⟨r, hr, -⟩ := hp.content i f _ hf (List.getElem?_eq_getElem (by omega))
  have hpos := ho.positive
  have hB : o.splitMb.toNat * 2 ^ 20 % 2 ^ 32 = o.splitMb.toNat * 2 ^ 20 := Nat.mod_eq_of_lt (by omega)
  have hK : pointsPerFile h.dataRecordLength o.splitMb.toNat = o.splitMb.toNat * 2 ^ 20 / h.dataRecordLength + 1 := by
    unfold pointsPerFile; dsimp only; rw [hB, if_pos (by omega)]
  have hl := (splitEvery_lengths (by rw [hK]; exact Nat.succ_pos _) ps i _ (List.getElem?_eq_getElem (by omega))).1 hi'
  have hb := hr.bytes
  rw [hl, hK] at hb
  have := Nat.lt_div_mul_add (a := o.splitMb.toNat * 2 ^ 20) hpos
  rw [Nat.succ_mul] at hb
  omega

/-- C64: for sizes from 2049 to 4095 the 32-bit byte counter starts negative, and every file but the last holds one
point. -/
theorem split_bytes_single {b : Build} {edit : Header → Outcome Header} {h' : Header} (hi : Input env today o input r₀ ps)
    (he : edit r₀.hdr = .ok h') (hh : h = { h' with compressed := false }) (ho : Output env r₀ h w)
    (hmin : o.minOffset = false) (hpts : o.splitPts = 0) (h1 : 2048 < o.splitMb.toNat) (h2 : o.splitMb.toNat < 4096) :
    ∃ files, main env today b o edit input = .ok files ∧ Pieces env today b r₀.hdr.toP h files (ps.map (fun p => [p]) ++ [[]]) := by
  obtain ⟨files, e1, hp⟩ := split_bytes_partial (b := b) hi he hh ho hmin (by rintro e; rw [e] at h1; simp at h1) hpts
  refine ⟨files, e1, ?_⟩
  have hK : pointsPerFile h.dataRecordLength o.splitMb.toNat = 1 := by
    unfold pointsPerFile; dsimp only; rw [Nat.mod_eq_of_lt (by omega), if_neg (by omega)]
  have hs : ∀ xs : List (List Byte), splitEvery 1 xs = xs.map (fun p => [p]) ++ [[]] := by
    intro xs
    induction xs with
    | nil => simp [splitEvery]
    | cons x xs ih => rw [← List.singleton_append, splitEvery_full (k := 1) (xs := [x]) (by norm_num) rfl, ih]; rfl
  rw [hK, hs] at hp
  exact hp

end

/-! ## A case -/

/-- Deciding `delivers`, for examples. -/
def decDelivers : (ps : List (List Byte)) → (r : Reader) → Decidable (delivers r ps)
  | [], r => inferInstanceAs (Decidable (r.readNext.2 = .ok false))
  | p :: ps, r =>
    have := decDelivers ps r.readNext.1
    inferInstanceAs (Decidable (r.readNext.2 = .ok true ∧ r.readNext.1.point = p ∧ delivers r.readNext.1 ps))

instance (r : Reader) (ps : List (List Byte)) : Decidable (delivers r ps) := decDelivers ps r

/-- Deciding that scale and offset are ordinary, for examples. -/
def ordinaryAxis : Fl → Fl → Bool
  | .fin p, .fin q => decide (0 < p ∧ p ≤ 2 ^ 900 ∧ |q| ≤ 2 ^ 900)
  | _, _ => false

theorem ordinaryAxis_spec {s o : Fl} (h : ordinaryAxis s o = true) : OrdinaryAxis s o := by
  unfold ordinaryAxis at h
  split at h
  · rename_i p q
    exact ⟨p, q, rfl, rfl, by simpa using h⟩
  · cases h

/-- Points of format 1 from raw coordinates and return number. -/
def pt (x y z : Int) (ret : Nat) : List Byte :=
  leBytes 4 (BitVec.ofInt 32 x) ++ leBytes 4 (BitVec.ofInt 32 y) ++ leBytes 4 (BitVec.ofInt 32 z) ++
    [0, 0, BitVec.ofNat 8 ret] ++ List.replicate 13 0#8

/-- Five points. -/
def casePoints : List (List Byte) := [pt 35 (-20) 7 1, pt 1 2 3 2, pt 100 50 (-3) 1, pt 4 4 4 6, pt 60 0 9 0]

/-- Options that do nothing but split. -/
def plain (mb pts : BitVec 32) : Opts := ⟨[], [], mb, pts, false⟩

/-- The hypotheses of C61 to C64 are met: las2las without header options on a file of five points, with a filter that
drops the points with `x = 1` and a transform that sets the last byte. -/
example : ∃ r w, Input plainEnv (1, 2000) ⟨[fun p => p.take 1 != [1]], [fun p => p.take 27 ++ (p.drop 27).map fun _ => 9], 0, 0, false⟩
      (sampleFile casePoints) r
      ((casePoints.filter fun p => p.take 1 != [1]).map fun p => p.take 27 ++ (p.drop 27).map fun _ => 9) ∧
    Output plainEnv r { r.hdr with compressed := false } w := by
  obtain ⟨r, e, h⟩ : ∃ r, Reader.make plainEnv (1, 2000) (IStream.onFile (sampleFile casePoints)) = .ok r ∧
      (delivers ((r.setFilters [fun p => p.take 1 != [1]]).setTransforms [fun p => p.take 27 ++ (p.drop 27).map fun _ => 9])
        ((casePoints.filter fun p => p.take 1 != [1]).map fun p => p.take 27 ++ (p.drop 27).map fun _ => 9) ∧
      227 ≤ (sampleFile casePoints).length ∧ r.hdr.vlrs.find? VLR.isSchema = none ∧
      (ordinaryAxis r.hdr.toP.scale.x r.hdr.toP.offset.x = true ∧ ordinaryAxis r.hdr.toP.scale.y r.hdr.toP.offset.y = true ∧
        ordinaryAxis r.hdr.toP.scale.z r.hdr.toP.offset.z = true) ∧
      formatSize r.hdr.schema.fmt ≤ r.hdr.dataRecordLength ∧
      (r.hdr.signature = lit "LASF" ∧ r.hdr.guid.length = 16 ∧ r.hdr.systemId.length = 32 ∧ r.hdr.softwareId.length = 32 ∧
        r.hdr.verMajor = 1 ∧ r.hdr.verMinor.toNat ≤ 3 ∧ 227 ≤ r.hdr.headerSize.toNat ∧
        r.hdr.schema.fmt ∈ [PointFormat.f0, .f1, .f2, .f3]) ∧
      (∀ v ∈ r.hdr.vlrs ++ r.hdr.srs, v.userId.length = 16 ∧ v.description.length = 32 ∧ v.recordSize.toNat = v.data.length) ∧
      0 < r.hdr.dataRecordLength ∧ r.hdr.schema.byteSize < 2 ^ 16 ∧
      ((Writer.make plainEnv (OStream.onFile []) { r.hdr with compressed := false }).check fun w =>
        decide (r.hdr.headerSize.toNat + recordBytes w.hdr.vlrs + 4 < 2 ^ 31 ∧ w.hdr.vlrs.find? VLR.isSchema = none)) = true) :=
    Outcome.exists_of_check (by decide +kernel)
  obtain ⟨h1, h2, h3, h4, h5, ⟨g1, g2, g3, g4, g5, g6, g7, g8⟩, h6, h7, h8, h9⟩ := h
  obtain ⟨w, ew, k1, k2⟩ := Outcome.exists_of_check h9
  refine ⟨r, w, ⟨e, h1, h2, noSchema_none h3, ⟨ordinaryAxis_spec h4.1, ordinaryAxis_spec h4.2.1, ordinaryAxis_spec h4.2.2⟩, h5, ?_⟩,
    ⟨⟨⟨g1, g2, g3, g4, g5, g6, g7, g8, h6⟩, ew, k1, noSchema_none k2, h7, h8⟩, le_refl _⟩⟩
  intro t ht p
  simp only [List.mem_singleton] at ht
  subst ht
  simp; omega

/-! ## What does not hold -/

/-- A run, and the headers of the output files. -/
def runHeaders (o : Opts) (edit : Header → Outcome Header) (input : List Byte) : Outcome (List Header) := do
  let fs ← main plainEnv (1, 2000) ⟨.little, false⟩ o edit input
  fs.mapM (Kernel.fetchHeader plainEnv (1, 2000))

/-- C62, C63 refuted for the last file of a split run: split at two points, the fifth point (`x = 60`, `z = 9`) is alone in
the last file, whose header says bounds 0 to 0 (those of the input's header, which nobody had repaired) and no returns. -/
theorem last_split_file_unrepaired : ∃ hs, runHeaders (plain 0 2) .ok (sampleFile casePoints) = .ok hs ∧
    hs.length = 3 ∧ ((hs[2]?.map fun g => (g.pointCount, g.max.x, g.max.z, g.byReturn.take 5)) =
      some (1, 0, 0, [0, 0, 0, 0, 0])) :=
  Outcome.exists_of_check (by decide +kernel)

/-- C63: five points split at five give two files, the second without points. -/
theorem empty_split_file : ∃ hs, runHeaders (plain 0 5) .ok (sampleFile casePoints) = .ok hs ∧
    hs.map (fun g => g.pointCount) = [5, 0] :=
  Outcome.exists_of_check (by decide +kernel)

/-- C62: points with return numbers 6, 7 or 0 are in none of the counts of the header (if other points have a return
number): of five points three are counted. -/
theorem returns_uncounted : ∃ hs, runHeaders (plain 0 0) .ok (sampleFile casePoints) = .ok hs ∧
    hs.map (fun g => (g.pointCount, g.byReturn.take 5)) = [(5, [2, 1, 0, 0, 0])] :=
  Outcome.exists_of_check (by decide +kernel)

/-- Two runs, the second on the output of the first. -/
def runTwice (o₁ o₂ : Opts) (input : List Byte) : Outcome (List Header) := do
  let fs ← main plainEnv (1, 2000) ⟨.little, false⟩ o₁ .ok input
  runHeaders o₂ .ok (fs.headD [])

/-- C62 refuted for outputs without points: a filter that drops every point leaves a file whose header still claims the
bounds and the counts by return of the input. -/
theorem empty_output_keeps_bounds : ∃ hs, runTwice (plain 0 0) ⟨[fun _ => false], [], 0, 0, false⟩ (sampleFile casePoints) = .ok hs ∧
    hs.map (fun g => (g.pointCount, Fl.ofBits g.min.x, Fl.ofBits g.max.x, g.byReturn.take 5)) =
      [(0, .fin 1, .fin 100, [2, 1, 0, 0, 0])] :=
  Outcome.exists_of_check (by decide +kernel)

/-- A file with scale 0.01. -/
def centimetres (pts : List (List Byte)) : List Byte :=
  match session plainEnv [] { sampleHeader with scale := ⟨0x3F847AE147AE147B#64, 0x3F847AE147AE147B#64, 0x3F847AE147AE147B#64⟩ } pts with
  | .ok b => b
  | _ => []

/-- The first coordinate of the first point of a file, and the upper bound of its header. -/
def firstX (f : List Byte) : Outcome (Fl × Fl) := do
  let r ← Reader.make plainEnv (1, 2000) (IStream.onFile f)
  match r.readNext with
  | (r, .ok true) => do
    let x ← Point.getX ⟨.little, false⟩ ⟨r.point, r.hdr.toP⟩
    pure (x, Fl.ofBits r.hdr.max.x)
  | _ => .ub

/-- C62: the bounds of the header agree to 15 digits only, because they went through text of 16 digits. A single point
with raw coordinate 35 and scale 0.01 has the coordinate 0.35000000000000003; the maximum in the header of the output is
0.35, which is smaller. -/
theorem bounds_exclude_point : ∃ p, (do
      let fs ← main plainEnv (1, 2000) ⟨.little, false⟩ (plain 0 0) .ok (centimetres [pt 35 0 0 1])
      firstX (fs.headD [])) = Outcome.ok p ∧ Fl.lt p.2 p.1 = true :=
  Outcome.exists_of_check (by decide +kernel)

/-- Changing to point format 3 (34 bytes) for an input of format 1 (28 bytes) reads behind every point: undefined. -/
theorem longer_output_ub : main plainEnv (1, 2000) ⟨.little, false⟩ (plain 0 0)
    (fun h => HeaderReader.set (h.setDataFormatId .f3)) (sampleFile casePoints) = .ub := by
  decide +kernel

/-- Names of split outputs are cut at the first dot, wherever it is: in a relative path nothing of the name is left. -/
theorem split_name_relative (k : Nat) :
    splitName "./out.las".toList k = "-".toList ++ (toString k).toList ++ ".las".toList ∧
    splitName "../v1.2/out.las".toList k = splitName "./other.las".toList k := by
  constructor <;> rfl

/-- Split outputs of one run have different names. -/
theorem split_names_differ (output : List Char) {j k : Nat} (h : splitName output j = splitName output k) : j = k := by
  unfold splitName at h
  have h2 := List.append_cancel_left (List.append_cancel_right h)
  injection h2 with _ h2
  have h3 : j.repr.toList = k.repr.toList := h2
  rw [Nat.toList_repr, Nat.toList_repr] at h3
  have h4 := congrArg (Nat.ofDigitChars 10 · 0) h3
  simpa only [Nat.ofDigitChars_ten_toDigits] using h4

end Las2las
end LibLAS
