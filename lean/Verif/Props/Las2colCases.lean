import Verif.Props.Las2col
import Verif.Props.Las2pgCases
/-
C83: concrete runs.
-/
namespace LibLAS.Las2col
open Spec Spec.Dump Point

/-- The columns of a run. -/
def columns (o : Las2pg.Opts) (input : List Byte) : Outcome (List (List Byte)) := do
  let cols ← readFile plainEnv (1, 2000) ⟨.little, false⟩ o (fun _ => 0xee) input
  pure ((List.range o.parse.length).map cols)

/-- The file of five points read by las2col: intensity, number, scan angle and raw `X`. -/
theorem column_run : columns ⟨['i', 'M', 'a', 'X'], false, (0, 0), none⟩ (sampleFile fivePoints) =
    .ok [[1, 1, 2, 2, 3, 3, 4, 4, 5, 5], [0, 0, 0, 0, 1, 0, 0, 0, 2, 0, 0, 0, 3, 0, 0, 0, 4, 0, 0, 0], [1, 2, 3, 4, 5],
      [1, 1, 1, 1, 2, 2, 2, 2, 3, 3, 3, 3, 4, 4, 4, 4, 5, 5, 5, 5]] := by
  decide +kernel

/-- **C83, not valid** with `--skip_invalid` when an accepted point was followed by an invalid one: its element is overwritten, and the
columns keep the length of the whole file, filled up with what was in memory. -/
theorem skip_overwrites : columns ⟨['i'], true, (0, 0), none⟩ (sampleFile [List.replicate 28 1, List.replicate 28 100, List.replicate 28 2]) =
    .ok [[2, 2, 0xee, 0xee, 0xee, 0xee]] := by
  decide +kernel

/-- **C83, not valid** with `--skip_invalid` when the first point is invalid: the next one is stored far outside the arrays. -/
theorem skip_first : columns ⟨['i'], true, (0, 0), none⟩ (sampleFile Las2pg.skippedFirst) = .ub := by
  decide +kernel

/-- **C83, not valid** for a letter without a meaning: a NULL pointer is called. -/
theorem unknown_letter : columns ⟨['q'], false, (0, 0), none⟩ (sampleFile fivePoints) = .ub := by
  decide +kernel

/-- **C83, not valid** for an empty `--parse`, and for more than 21 letters. -/
theorem too_few_or_many : columns ⟨[], false, (0, 0), none⟩ (sampleFile fivePoints) = .ub ∧
    columns ⟨List.replicate 22 'i', false, (0, 0), none⟩ (sampleFile fivePoints) = .ub := by
  decide +kernel

/-- **C83, not valid** for a file that ends too early, here after two of five points: the last point comes twice (the reader invents it, C30), and the
columns are filled up with what was in memory. -/
theorem truncated_file : columns ⟨['i'], false, (0, 0), none⟩ ((sampleFile fivePoints).take (227 + 57 + 2 * 28)) =
    .ok [[1, 1, 2, 2, 2, 2, 0xee, 0xee, 0xee, 0xee]] := by
  decide +kernel

/-- **C83, not valid** for the decimal columns: with scale 0.01 and no offset, the stored coordinate 29 (0.29) becomes 28, the decimal 0.28. -/
theorem decimal_short : Fl.toInt32 (Fl.div (scaled 29 (Fl.ofRat (1 / 100)) (.fin 0)) (Fl.ofRat (1 / 100))) = .ok 28 := by
  decide +kernel

/-- The hypotheses of `column_complete` are met by the file of five points. -/
example : ∃ r, Input plainEnv (1, 2000) (sampleFile fivePoints) r fivePoints ∧ fivePoints.length = r.hdr.pointCount.toNat ∧
    Suits ⟨.little, false⟩ ⟨['x', 'X', 'M', 'k', 'i'], true, (0, 0), none⟩ r fivePoints 0 0 := by
  obtain ⟨r, hi, hx, hy, -⟩ := Las2pg.input_five
  obtain ⟨r', e, h1, h2, h3⟩ : ∃ r, Reader.make plainEnv (1, 2000) (IStream.onFile (sampleFile fivePoints)) = .ok r ∧
      (fivePoints.length = r.hdr.pointCount.toNat ∧ r.hdr.toP.scale.x = .fin 1 ∧
      (fivePoints.map fun p => getX ⟨.little, false⟩ ⟨p, r.hdr.toP⟩) = [.ok (.fin 16843009), .ok (.fin 33686018), .ok (.fin 50529027), .ok (.fin 67372036),
        .ok (.fin 84215045)]) := Outcome.exists_of_check (by decide +kernel)
  have e' := hi.opens
  rw [e] at e'
  cases e'
  refine ⟨r, hi, h1, ⟨by simp, by decide, by decide, rfl, by decide, ?_, hx, hy, by norm_num, by norm_num, by norm_num, by norm_num⟩⟩
  intro p hp c hc hX
  simp only [List.mem_cons, List.not_mem_nil, or_false] at hc hX
  have : c = 'X' := by rcases hc with rfl | rfl | rfl | rfl | rfl <;> simp_all
  subst this
  obtain ⟨j, hj⟩ := List.mem_iff_getElem?.1 hp
  have hj' := congrArg (fun l => l[j]?) h3
  simp only [List.getElem?_map, hj, Option.map_some] at hj'
  have exact : ∀ m : Int, |m| < 2 ^ 53 → Whole (Fl.div (.fin m) r.hdr.toP.scale.x) m := by
    intro m hm
    rw [h2]
    exact exact_quotient ⟨m, 1, rfl, rfl, by norm_num, by ring, hm⟩
  have key : ∀ m : Int, getX ⟨.little, false⟩ ⟨p, r.hdr.toP⟩ = .ok (.fin m) → 0 ≤ m → m < 2 ^ 31 →
      ∃ t, ColValue ⟨.little, false⟩ r.hdr.toP p 0 0 0 'X' (.int t) ∧ -(2 ^ 31) ≤ t ∧ t < 2 ^ 31 := by
    intro m hm h0 h1
    exact ⟨m, ⟨_, m, hm, exact m (by rw [abs_lt]; constructor <;> omega), rfl⟩, by omega, h1⟩
  match j, hj' with
  | 0, hj' => exact key 16843009 (by simpa using hj') (by norm_num) (by norm_num)
  | 1, hj' => exact key 33686018 (by simpa using hj') (by norm_num) (by norm_num)
  | 2, hj' => exact key 50529027 (by simpa using hj') (by norm_num) (by norm_num)
  | 3, hj' => exact key 67372036 (by simpa using hj') (by norm_num) (by norm_num)
  | 4, hj' => exact key 84215045 (by simpa using hj') (by norm_num) (by norm_num)
  | j + 5, hj' => simp at hj'

end LibLAS.Las2col
