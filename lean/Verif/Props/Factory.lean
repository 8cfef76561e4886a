import Mathlib.Tactic.Tauto
import Verif.Model.Factory
/-
C46: file types from file names.
-/
namespace LibLAS
open Factory

/-- The text after the last dot. -/
def Spec.extensionIs (name ext : List Char) : Prop := ∃ stem, name = stem ++ '.' :: ext ∧ '.' ∉ ext

private theorem lastDot_none {l : List Char} (h : '.' ∉ l) : fromLastDot l = none := by
  induction l with
  | nil => rfl
  | cons c cs ih =>
    have hc : ¬ c = '.' := fun e => h (by simp [e])
    rw [fromLastDot, ih (fun m => h (List.mem_cons_of_mem _ m))]
    simp [hc]

private theorem lastDot_some (stem ext : List Char) (h : '.' ∉ ext) :
    fromLastDot (stem ++ '.' :: ext) = some ('.' :: ext) := by
  induction stem with
  | nil => rw [List.nil_append, fromLastDot, lastDot_none h]; simp
  | cons c cs ih => rw [List.cons_append, fromLastDot, ih]

private theorem lastDot_inv {l e : List Char} (h : fromLastDot l = some e) :
    ∃ ext, e = '.' :: ext ∧ Spec.extensionIs l ext := by
  induction l with
  | nil => simp [fromLastDot] at h
  | cons c cs ih =>
    rw [fromLastDot] at h
    cases hc : fromLastDot cs with
    | some e' =>
      rw [hc] at h
      obtain ⟨ext, he, stem, hs, hd⟩ := ih (by rw [hc]; exact h)
      exact ⟨ext, he, c :: stem, by rw [hs]; rfl, hd⟩
    | none =>
      rw [hc] at h
      simp only at h
      split at h
      · rename_i e1
        subst e1
        injection h with h
        refine ⟨cs, h.symm, [], rfl, ?_⟩
        intro hm
        obtain ⟨s, t, rfl, hs⟩ := List.eq_append_cons_of_mem hm
        -- the last dot of `cs`
        have : ∀ l : List Char, '.' ∈ l → fromLastDot l ≠ none := by
          intro l
          induction l with
          | nil => simp
          | cons d ds ihd =>
            intro hm
            rw [fromLastDot]
            cases hds : fromLastDot ds with
            | some _ => simp
            | none =>
              rcases List.mem_cons.mp hm with e | e
              · simp [← e]
              · exact absurd hds (ihd e)
        exact this _ hm hc
      · simp at h

private theorem lower_eq (c : Char) (d : Char) (hd : d = '.' ∨ d = 'l' ∨ d = 'a' ∨ d = 'z' ∨ d = 's') :
    lower c = lower d ↔ c = d ∨ (d ≠ '.' ∧ c.toNat + 32 = d.toNat) := by
  have hld : lower d = d := by rcases hd with e | e | e | e | e <;> subst e <;> rfl
  rw [hld]
  have key : ∀ n : Fin 26, ∀ d ∈ ['.', 'l', 'a', 'z', 's'],
      (Char.ofNat (65 + n.val + 32) = d ↔ (d ≠ '.' ∧ 65 + n.val + 32 = d.toNat)) ∧ Char.ofNat (65 + n.val) ≠ 'l' ∧
      Char.ofNat (65 + n.val) ≠ d := by decide +kernel
  have hmem : d ∈ ['.', 'l', 'a', 'z', 's'] := by rcases hd with e | e | e | e | e <;> subst e <;> decide
  unfold lower
  split
  · rename_i h
    have h1 : 65 ≤ c.toNat ∧ c.toNat ≤ 90 := ⟨h.1, h.2⟩
    have hc : c = Char.ofNat (65 + (c.toNat - 65)) := by
      rw [show 65 + (c.toNat - 65) = c.toNat by omega, Char.ofNat_toNat]
    obtain ⟨k1, -, k3⟩ := key ⟨c.toNat - 65, by omega⟩ d hmem
    simp only at k1 k3
    rw [show 65 + (c.toNat - 65) + 32 = c.toNat + 32 by omega] at k1
    rw [← hc] at k3
    rw [k1]
    exact ⟨fun x => .inr x, fun x => x.resolve_left k3⟩
  · rename_i h
    constructor
    · exact fun e => .inl e
    · rintro (e | ⟨e1, e2⟩)
      · exact e
      · exfalso
        apply h
        have : 65 ≤ c.toNat ∧ c.toNat ≤ 90 := by
          have : ∀ d ∈ ['l', 'a', 'z', 's'], 97 ≤ d.toNat ∧ d.toNat ≤ 122 := by decide
          have := this d (by rcases hd with e | e | e | e | e <;> simp [e] at e1 ⊢)
          omega
        exact ⟨this.1, this.2⟩

private theorem char_of_toNat {c : Char} {n : Nat} (h : c.toNat = n) : c = Char.ofNat n := by
  rw [← h, Char.ofNat_toNat]

private theorem letter (c : Char) (d u : Char) (hd : d = 'l' ∨ d = 'a' ∨ d = 'z' ∨ d = 's')
    (hu : u.toNat + 32 = d.toNat) : lower c = lower d ↔ c = d ∨ c = u := by
  rw [lower_eq c d (by tauto)]
  have hne : d ≠ '.' := by rcases hd with e | e | e | e <;> subst e <;> decide
  constructor
  · rintro (e | ⟨-, e⟩)
    · exact .inl e
    · right
      have : c.toNat = u.toNat := by omega
      rw [char_of_toNat this, Char.ofNat_toNat]
  · rintro (e | e)
    · exact .inl e
    · exact .inr ⟨hne, by rw [e]; exact hu⟩

/-- C46: a name is taken for LAZ exactly when the text after its last dot is `laz` in any letter case, for LAS exactly
when it is `las` in any letter case, and for unknown otherwise (also without a dot). -/
theorem file_type_by_extension (name : List Char) :
    (inferFileType name = .laz ↔ ∃ a b c, Spec.extensionIs name [a, b, c] ∧
      (a = 'l' ∨ a = 'L') ∧ (b = 'a' ∨ b = 'A') ∧ (c = 'z' ∨ c = 'Z')) ∧
    (inferFileType name = .las ↔ ∃ a b c, Spec.extensionIs name [a, b, c] ∧
      (a = 'l' ∨ a = 'L') ∧ (b = 'a' ∨ b = 'A') ∧ (c = 's' ∨ c = 'S')) := by
  have eqv : ∀ ext : List Char, ∀ d u, (d = 'z' ∨ d = 's') → u.toNat + 32 = d.toNat →
      (streqInsensitive ('.' :: ext) ['.', 'l', 'a', d] = true ↔
        ∃ a b c, ext = [a, b, c] ∧ (a = 'l' ∨ a = 'L') ∧ (b = 'a' ∨ b = 'A') ∧ (c = d ∨ c = u)) := by
    intro ext d u hd hu
    match ext with
    | [] => simp [streqInsensitive]
    | [a] => simp [streqInsensitive]
    | [a, b] => simp [streqInsensitive]
    | [a, b, c] =>
      simp only [streqInsensitive, ne_eq, not_true_eq_false, if_false]
      simp only [letter a 'l' 'L' (by simp) rfl, letter b 'a' 'A' (by simp) rfl, letter c d u (by tauto) hu]
      constructor
      · intro h
        refine ⟨a, b, c, rfl, ?_⟩
        simpa using h
      · rintro ⟨a', b', c', e, h1, h2, h3⟩
        simp only [List.cons.injEq, and_true] at e
        obtain ⟨rfl, rfl, rfl⟩ := e
        simp [h1, h2, h3]
    | a :: b :: c :: e :: l => simp [streqInsensitive]
  have uniq : ∀ e1 e2, Spec.extensionIs name e1 → Spec.extensionIs name e2 → e1 = e2 := by
    rintro e1 e2 ⟨s1, h1, d1⟩ ⟨s2, h2, d2⟩
    have a1 := lastDot_some s1 e1 d1
    have a2 := lastDot_some s2 e2 d2
    rw [← h1] at a1
    rw [← h2, a1] at a2
    simpa using a2
  have hcase : inferFileType name = .unknown ∧ (∀ ext, ¬ Spec.extensionIs name ext) ∨
      ∃ ext, Spec.extensionIs name ext ∧ inferFileType name =
        (if streqInsensitive ('.' :: ext) ['.', 'l', 'a', 'z'] then .laz
         else if streqInsensitive ('.' :: ext) ['.', 'l', 'a', 's'] then .las else .unknown) := by
    unfold inferFileType
    cases h : fromLastDot name with
    | none =>
      left
      refine ⟨rfl, ?_⟩
      rintro ext ⟨stem, hs, hd⟩
      rw [hs, lastDot_some stem ext hd] at h
      simp at h
    | some e =>
      right
      obtain ⟨ext, rfl, hx⟩ := lastDot_inv h
      exact ⟨ext, hx, rfl⟩
  rcases hcase with ⟨h1, h2⟩ | ⟨ext, hx, h⟩
  · rw [h1]
    exact ⟨⟨fun x => by simp at x, fun ⟨a, b, c, x, _⟩ => absurd x (h2 _)⟩,
      ⟨fun x => by simp at x, fun ⟨a, b, c, x, _⟩ => absurd x (h2 _)⟩⟩
  · have z := eqv ext 'z' 'Z' (.inl rfl) rfl
    have s := eqv ext 's' 'S' (.inr rfl) rfl
    rw [h]
    constructor
    · constructor
      · intro e
        split at e
        · rename_i hz
          obtain ⟨a, b, c, he, hh⟩ := z.mp hz
          exact ⟨a, b, c, he ▸ hx, hh⟩
        · split at e <;> simp at e
      · rintro ⟨a, b, c, he, hh⟩
        rw [if_pos (z.mpr ⟨a, b, c, uniq _ _ hx he, hh⟩)]
    · constructor
      · intro e
        split at e
        · simp at e
        · split at e
          · rename_i hs
            obtain ⟨a, b, c, he, hh⟩ := s.mp hs
            exact ⟨a, b, c, he ▸ hx, hh⟩
          · simp at e
      · rintro ⟨a, b, c, he, hh⟩
        have hs := s.mpr ⟨a, b, c, uniq _ _ hx he, hh⟩
        rw [if_pos hs, if_neg]
        intro hz
        obtain ⟨a', b', c', e1, -, -, e2⟩ := z.mp hz
        have := uniq _ _ hx he
        rw [e1] at this
        simp only [List.cons.injEq, and_true] at this
        obtain ⟨-, -, rfl⟩ := this
        rcases e2 with e | e <;> rcases hh.2.2 with e' | e' <;> rw [e] at e' <;> simp at e'

example : inferFileType "tile.01.LaZ".toList = .laz ∧ inferFileType "a.las".toList = .las ∧
    inferFileType "las".toList = .unknown ∧ inferFileType "x.lasz".toList = .unknown ∧
    inferFileType "dir.las/file".toList = .unknown := by decide +kernel

end LibLAS
