import Verif.Model.Las2txt
import Verif.Spec.Las2txt
import Verif.Lemmas.Point
import Verif.Lemmas.Float
import Mathlib.Data.Nat.Digits.Lemmas
import Mathlib.Tactic.Linarith
import Mathlib.Tactic.FieldSimp
/-
Lemmas for C73 and C74: decimal text.
-/
namespace LibLAS.Las2txt
open Spec.Text

theorem digitChar_spec : ∀ d, d < 10 → ('0' ≤ d.digitChar ∧ d.digitChar ≤ '9') ∧ d.digitChar.toNat - '0'.toNat = d ∧
    (d.digitChar = '0' → d = 0) ∧ d.digitChar ≠ '-' := by decide

theorem numeral_digits (l : List Nat) (h : ∀ d ∈ l, d < 10) :
    numeral (l.reverse.map Nat.digitChar) = Nat.ofDigits 10 l := by
  unfold numeral
  rw [List.foldl_map, List.foldl_reverse]
  induction l with
  | nil => rfl
  | cons d l ih =>
    rw [List.foldr_cons, ih (fun e he => h e (List.mem_cons_of_mem _ he)), (digitChar_spec d (h d List.mem_cons_self)).2.1,
      Nat.ofDigits_cons]
    omega

theorem natText_spec (n : Nat) : Plain (natText n) ∧ numeral (natText n) = n := by
  unfold natText
  by_cases h : n = 0
  · subst h
    rw [if_pos rfl]
    exact ⟨⟨⟨by simp, by decide⟩, fun _ => rfl⟩, rfl⟩
  · rw [if_neg h]
    have hlt : ∀ d ∈ Nat.digits 10 n, d < 10 := fun d hd => Nat.digits_lt_base (by decide) hd
    have hne : Nat.digits 10 n ≠ [] := Nat.digits_ne_nil_iff_ne_zero.2 h
    refine ⟨⟨⟨by simpa using hne, ?_⟩, ?_⟩, by rw [numeral_digits _ hlt, Nat.ofDigits_digits]⟩
    · intro c hc
      simp only [List.mem_map, List.mem_reverse] at hc
      obtain ⟨d, hd, rfl⟩ := hc
      exact (digitChar_spec d (hlt d hd)).1
    · intro hz
      exfalso
      rw [List.head?_map, List.head?_reverse, List.getLast?_eq_some_getLast hne, Option.map_some, Option.some.injEq] at hz
      have := (digitChar_spec _ (hlt _ (List.getLast_mem hne))).2.2.1 hz
      exact Nat.getLast_digit_ne_zero 10 h this

theorem showsNat (n : Nat) : ShowsInt (n : Int) (natText n) :=
  ⟨natText n, by simp, (natText_spec n).1, by rw [(natText_spec n).2]; simp⟩

theorem showsInt (i : Int) : ShowsInt i (intText i) := by
  unfold intText
  refine ⟨natText i.natAbs, ?_, (natText_spec _).1, (natText_spec _).2⟩
  split <;> simp

theorem numeral_zeros (k : Nat) (t : List Char) : numeral (List.replicate k '0' ++ t) = numeral t := by
  induction k with
  | zero => rfl
  | succ k ih =>
    rw [List.replicate_succ, List.cons_append, ← ih]
    rfl

theorem head_digit {t : List Char} (h : ∀ c ∈ t, '0' ≤ c ∧ c ≤ '9') : t.head? ≠ some '-' := by
  intro he
  have hm : '-' ∈ t := List.mem_of_mem_head? (by rw [he]; rfl)
  exact absurd (h _ hm).1 (by decide)

theorem rne_nonneg {y : ℚ} (h : 0 ≤ y) : 0 ≤ Fl.rne y := by
  have := Fl.rne_mono h
  rw [show Fl.rne (0 : ℚ) = 0 from Fl.rne_int 0] at this
  exact this

theorem fixedText_spec (p : Nat) (x : Fl) : ShowsReal p x (fixedText p x) := by
  cases x with
  | nan => rfl
  | inf n => cases n <;> rfl
  | fin q =>
    simp only [ShowsReal, fixedText]
    have hy : 0 ≤ |q| * 10 ^ p := by positivity
    have hn0 := rne_nonneg hy
    have herr := Fl.rne_err (|q| * 10 ^ p)
    generalize hn : Fl.rne (|q| * 10 ^ p) = n at *
    obtain ⟨⟨⟨hd1, hd2⟩, hd3⟩, hval⟩ := natText_spec n.toNat
    generalize natText n.toNat = t at *
    have hlen : 0 < t.length := List.length_pos_iff.2 hd1
    generalize hds : padZeros (p + 1) t = ds
    have hdl : ds.length = max (p + 1) t.length := by rw [← hds]; simp [padZeros]; omega
    have hdig : ∀ c ∈ ds, '0' ≤ c ∧ c ≤ '9' := by
      intro c hc
      rw [← hds, padZeros, List.mem_append, List.mem_replicate] at hc
      rcases hc with ⟨-, rfl⟩ | hc
      · decide
      · exact hd2 c hc
    have hnum : numeral ds = n.toNat := by rw [← hds, padZeros, numeral_zeros, hval]
    have hi : ds.take (ds.length - p) ≠ [] := by
      rw [← List.length_pos_iff]; simp; omega
    refine ⟨(if q < 0 then -1 else 1) * (n.toNat / 10 ^ p : ℚ), ?_, ?_, ?_⟩
    · refine ⟨decide (q < 0), ds.take (ds.length - p), ds.drop (ds.length - p), by simp, ?_, ?_, ?_, ?_⟩
      · refine ⟨⟨hi, fun c hc => hdig c (List.mem_of_mem_take hc)⟩, ?_⟩
        intro hz
        by_cases hp : t.length < p + 1
        · have hk : ds.length - p = 1 := by omega
          rw [hk] at hz ⊢
          cases ds with
          | nil => simp at hz
          | cons c cs => simp at hz ⊢; exact hz
        · have : ds = t := by rw [← hds, padZeros, show p + 1 - t.length = 0 by omega]; rfl
          rw [this] at hz ⊢
          rw [List.head?_take, if_neg (by omega)] at hz
          have ht := hd3 hz
          subst ht
          simp at hp
          subst hp
          rfl
      · simp; omega
      · exact fun c hc => hdig c (List.mem_of_mem_drop hc)
      · rw [List.take_append_drop, hnum]; simp
    · have hc : ((n.toNat : ℕ) : ℚ) = n := by
        have : ((n.toNat : ℕ) : ℤ) = n := Int.toNat_of_nonneg hn0
        exact_mod_cast this
      rw [hc]
      have h10 : (0 : ℚ) < 10 ^ p := by positivity
      have key : |(n : ℚ) / 10 ^ p - (|q|)| ≤ 1 / 2 / 10 ^ p := by
        rw [le_div_iff₀ h10]
        calc |(n : ℚ) / 10 ^ p - (|q|)| * 10 ^ p = |((n : ℚ) / 10 ^ p - (|q|)) * 10 ^ p| := by rw [abs_mul, abs_of_pos h10]
          _ = |(n : ℚ) - |q| * 10 ^ p| := by congr 1; field_simp
          _ ≤ 1 / 2 := herr
      by_cases hq : q < 0
      · rw [if_pos hq]
        rw [abs_of_neg hq] at key
        rw [show (-1 : ℚ) * ((n : ℚ) / 10 ^ p) - q = -((n : ℚ) / 10 ^ p - (-q)) by ring, abs_neg]
        exact key
      · rw [if_neg hq, one_mul]
        rwa [abs_of_nonneg (not_lt.1 hq)] at key
    · by_cases hq : q < 0
      · simp [hq]
      · simp only [hq, if_false, List.nil_append, iff_false]
        intro h
        rw [List.head?_append_of_ne_nil _ hi] at h
        exact head_digit (fun c hc => hdig c (List.mem_of_mem_take hc)) h

end LibLAS.Las2txt
