import Verif.Spec.Las2txt
import Init.Data.List.SplitOn
/-
Lemmas for C73: reading the text back as a table.
-/
namespace LibLAS.Spec.Text

theorem numberChar_digit {c : Char} (h : '0' ≤ c ∧ c ≤ '9') : numberChar c = true := by
  simp [numberChar, h.1, h.2]

theorem showsInt_chars {v : Int} {t : List Char} (h : ShowsInt v t) : ∀ c ∈ t, numberChar c = true := by
  obtain ⟨ds, rfl, ⟨⟨-, hd⟩, -⟩, -⟩ := h
  intro c hc
  rw [List.mem_append] at hc
  rcases hc with hc | hc
  · split at hc
    · simp at hc; subst hc; decide
    · simp at hc
  · exact numberChar_digit (hd c hc)

theorem showsReal_chars {p : Nat} {x : Fl} {t : List Char} (h : ShowsReal p x t) : ∀ c ∈ t, numberChar c = true := by
  cases x with
  | nan => simp only [ShowsReal] at h; subst h; decide
  | inf n => simp only [ShowsReal] at h; subst h; cases n <;> decide
  | fin q =>
    obtain ⟨v, ⟨neg, i, f, rfl, ⟨⟨-, hi⟩, -⟩, -, hf, -⟩, -⟩ := h
    intro c hc
    simp only [List.mem_append] at hc
    rcases hc with (hc | hc) | hc
    · split at hc
      · simp at hc; subst hc; decide
      · simp at hc
    · exact numberChar_digit (hi c hc)
    · split at hc
      · simp at hc
      · rcases List.mem_cons.1 hc with rfl | hc
        · decide
        · exact numberChar_digit (hf c hc)

theorem shows_chars {a : Attrs} {x y z time : Fl} {px py pz pt index : Nat} {c : Char} {t : List Char} (hc : c ≠ 'C')
    (h : Shows a x y z time px py pz pt index c t) : ∀ k ∈ t, numberChar k = true := by
  unfold Shows at h
  split at h
  all_goals first
    | exact showsInt_chars h
    | exact showsReal_chars h
    | exact absurd rfl hc
    | (subst h; simp)

theorem splitOn_lines : ∀ lines : List (List Char), (∀ l ∈ lines, '\n' ∉ l) →
    ((lines.map (· ++ ['\n'])).flatten).splitOn '\n' = lines ++ [[]] := by
  intro lines h
  have e : (lines.map (· ++ ['\n'])).flatten = ['\n'].intercalate (lines ++ [[]]) := by
    induction lines with
    | nil => rfl
    | cons l ls ih =>
      rw [List.map_cons, List.flatten_cons, ih (fun m hm => h m (List.mem_cons_of_mem _ hm))]
      cases ls with
      | nil => simp [List.intercalate]
      | cons m ms => simp [List.intercalate]
  rw [e, List.splitOn_intercalate]
  · intro l hl
    rw [List.mem_append] at hl
    rcases hl with hl | hl
    · exact h l hl
    · simp at hl; subst hl; simp
  · simp

end LibLAS.Spec.Text
