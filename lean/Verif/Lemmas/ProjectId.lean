import Verif.Spec.ProjectId
import Verif.Lemmas.NewFile
/- C101: the reader and writer of identifier texts. -/
namespace LibLAS.ProjectId

theorem digit_of_mem : ∀ p ∈ digitTable, digit p.1 = .ok p.2 := by decide +kernel

private theorem digit_all : ∀ n < 256, digit (BitVec.ofNat 8 n) = .throw .runtimeError ∨
    ∃ p ∈ digitTable, p.1 = BitVec.ofNat 8 n ∧ digit (BitVec.ofNat 8 n) = .ok p.2 := by decide +kernel

theorem digit_cases (c : Byte) : digit c = .throw .runtimeError ∨ ∃ x, (c, x) ∈ digitTable ∧ digit c = .ok x := by
  have := digit_all c.toNat c.isLt
  rw [BitVec.ofNat_toNat, BitVec.setWidth_eq] at this
  rcases this with h | ⟨p, hp, he, h⟩
  · exact .inl h
  · exact .inr ⟨p.2, by rw [← he]; exact hp, h⟩

theorem mem_of_digit {c : Byte} {x : Nat} (h : digit c = .ok x) : (c, x) ∈ digitTable := by
  rcases digit_cases c with he | ⟨y, hy, he⟩
  · rw [he] at h; cases h
  · rw [he] at h; cases h; exact hy

theorem not_dash : ∀ p ∈ digitTable, p.1 ≠ 0x2D#8 := by decide +kernel
theorem not_brace : ∀ p ∈ digitTable, p.1 ≠ 0x7B#8 := by decide +kernel

/-- The dash before byte `i`. -/
def sep (dashed : Bool) (i : Nat) : List Byte := if dashed = true ∧ (i = 4 ∨ i = 6 ∨ i = 8 ∨ i = 10) then [0x2D#8] else []

def body (dashed : Bool) (i : Nat) : List Byte → List Byte
  | a :: c :: ds => sep dashed i ++ a :: c :: body dashed (i + 1) ds
  | _ => []

theorem next_ok {t : List Byte} {x : Byte × List Byte} (h : next t = .ok x) : t = x.1 :: x.2 := by
  cases t with
  | nil => cases h
  | cons c r => cases h; rfl

theorem dashBefore_ok {dashes : Bool} {i : Nat} {t : List Byte} {d : Bool × List Byte} (h : dashBefore dashes i t = .ok d) :
    (i ≠ 4 → d.1 = dashes) ∧ ∀ dashed, (4 ≤ i → dashed = d.1) → t = sep dashed i ++ d.2 := by
  unfold dashBefore at h
  split at h
  · rename_i hi
    subst hi
    refine ⟨fun h => absurd rfl h, fun dashed hd => ?_⟩
    rw [hd (by omega)]
    obtain ⟨x, hx, h⟩ := bind_eq_ok h
    rw [next_ok hx] at h ⊢
    split at h
    · rename_i he
      cases h
      simp [sep, he]
    · cases h
      simp [sep]
  · rename_i hi
    split at h
    · rename_i hd
      obtain ⟨x, hx, h⟩ := bind_eq_ok h
      rw [next_ok hx]
      split at h
      · rename_i he
        cases h
        refine ⟨fun _ => rfl, fun dashed hs => ?_⟩
        rw [hs (by omega)]
        have hc : i = 4 ∨ i = 6 ∨ i = 8 ∨ i = 10 := by omega
        simp [sep, hd.1, hc, he]
      · cases h
    · rename_i hd
      cases h
      refine ⟨fun _ => rfl, fun dashed hs => ?_⟩
      by_cases h4 : 4 ≤ i
      · rw [hs h4]
        have : ¬(dashes = true ∧ (i = 4 ∨ i = 6 ∨ i = 8 ∨ i = 10)) := by
          rintro ⟨h1, h2⟩
          exact hd ⟨h1, by omega⟩
        rw [sep, if_neg this]
        rfl
      · rw [sep, if_neg (by omega)]
        rfl

theorem dashBefore_sep {dashes dashed : Bool} {i : Nat} {a : Byte} {t : List Byte} (ha : a ≠ 0x2D#8) (hd : 4 < i → dashed = dashes) :
    dashBefore dashes i (sep dashed i ++ a :: t) = .ok (if i = 4 then dashed else dashes, a :: t) := by
  unfold dashBefore
  by_cases h4 : i = 4
  · subst h4
    cases dashed <;> simp [sep, next, ha]
  · rw [if_neg h4, if_neg h4]
    by_cases hc : dashes = true ∧ (i = 6 ∨ i = 8 ∨ i = 10)
    · rw [if_pos hc]
      have hc' : i = 4 ∨ i = 6 ∨ i = 8 ∨ i = 10 := by omega
      rw [hd (by omega)]
      simp [sep, hc.1, hc', next]
    · rw [if_neg hc]
      have : sep dashed i = [] := by
        rw [sep, if_neg]
        rintro ⟨h1, h2⟩
        have h6 : 4 < i := by omega
        exact hc ⟨by rw [← hd h6]; exact h1, by omega⟩
      rw [this]
      rfl

theorem bytes_sound : ∀ (n i : Nat) (dashes : Bool) (t ids r : List Byte), i + n = 16 →
    bytesFrom dashes i n t = .ok (ids, r) →
    ∃ dashed ds, (4 < i → dashed = dashes) ∧ Spells ds ids ∧ ids.length = n ∧ t = body dashed i ds ++ r
  | 0, i, dashes, t, ids, r, _, h => by
    cases h
    exact ⟨dashes, [], fun _ => rfl, .nil, rfl, rfl⟩
  | n + 1, i, dashes, t, ids, r, hi, h => by
    simp only [bytesFrom] at h
    obtain ⟨d, hd, h⟩ := bind_eq_ok h
    obtain ⟨a, ha, h⟩ := bind_eq_ok h
    obtain ⟨x, hx, h⟩ := bind_eq_ok h
    obtain ⟨c, hc, h⟩ := bind_eq_ok h
    obtain ⟨y, hy, h⟩ := bind_eq_ok h
    obtain ⟨rest, hr, h⟩ := bind_eq_ok h
    cases h
    obtain ⟨dashed, ds, h1, h2, h3, h4⟩ := bytes_sound n (i + 1) d.1 c.2 rest.1 rest.2 (by omega) hr
    obtain ⟨e1, e2⟩ := dashBefore_ok hd
    refine ⟨dashed, a.1 :: c.1 :: ds, fun h => by rw [h1 (by omega), e1 (by omega)], ?_, by simp [h3], ?_⟩
    · rw [Nat.mul_comm x 16]
      exact .cons (mem_of_digit hx) (mem_of_digit hy) h2
    · rw [e2 dashed (fun h => h1 (by omega)), next_ok ha, next_ok hc, h4]
      simp [body]

theorem bytes_complete : ∀ (n i : Nat) (dashes dashed : Bool) (ds ids r : List Byte), i + n = 16 → (4 < i → dashed = dashes) →
    Spells ds ids → ids.length = n → bytesFrom dashes i n (body dashed i ds ++ r) = .ok (ids, r)
  | 0, i, dashes, dashed, ds, ids, r, _, _, h, hl => by
    cases h with
    | nil => rfl
    | cons => simp at hl
  | n + 1, i, dashes, dashed, ds, ids, r, hi, hd, h, hl => by
    cases h with
    | nil => simp at hl
    | @cons a c x y ds bs ha hc hs =>
      simp only [bytesFrom, body, List.append_assoc, List.cons_append]
      rw [dashBefore_sep (not_dash _ ha) hd]
      simp only [Outcome.bind_ok, next, digit_of_mem _ ha, digit_of_mem _ hc]
      have ih := bytes_complete n (i + 1) (if i = 4 then dashed else dashes) dashed ds bs r (by omega)
        (by intro h; split
            · rfl
            · exact hd (by omega)) hs (by simpa using hl)
      rw [ih]
      simp only [Outcome.bind_ok, Outcome.pure_eq]
      rw [Nat.mul_comm x 16]

theorem Spells.length {ds bs : List Byte} (h : Spells ds bs) : ds.length = 2 * bs.length := by
  induction h with
  | nil => rfl
  | cons _ _ _ ih => simp [ih]; omega

theorem Spells.first {ds bs : List Byte} (h : Spells ds bs) (hb : bs.length = 16) : ∃ a t, ds = a :: t ∧ a ≠ 0x7B#8 := by
  cases h with
  | nil => simp at hb
  | cons ha _ _ => exact ⟨_, _, rfl, not_brace _ ha⟩

theorem body_false : ∀ (ds bs : List Byte) (i : Nat), Spells ds bs → body false i ds = ds
  | _, _, _, .nil => rfl
  | _, _, i, .cons (ds := ds) (bs := bs) ha hc hs => by
    simp [body, sep, body_false ds bs (i + 1) hs]

private theorem uncons {α : Type} {l : List α} {n : Nat} (h : l.length = n + 1) : ∃ a t, l = a :: t ∧ t.length = n := by
  cases l with
  | nil => simp at h
  | cons a t => exact ⟨a, t, rfl, by simpa using h⟩

theorem body_true {ds bs : List Byte} (h : Spells ds bs) (hb : bs.length = 16) : body true 0 ds = grouped ds := by
  have hl := h.length
  rw [hb] at hl
  clear h hb
  obtain ⟨a0, d0, rfl, l0⟩ := uncons hl
  obtain ⟨a1, d1, rfl, l1⟩ := uncons l0
  obtain ⟨a2, d2, rfl, l2⟩ := uncons l1
  obtain ⟨a3, d3, rfl, l3⟩ := uncons l2
  obtain ⟨a4, d4, rfl, l4⟩ := uncons l3
  obtain ⟨a5, d5, rfl, l5⟩ := uncons l4
  obtain ⟨a6, d6, rfl, l6⟩ := uncons l5
  obtain ⟨a7, d7, rfl, l7⟩ := uncons l6
  obtain ⟨a8, d8, rfl, l8⟩ := uncons l7
  obtain ⟨a9, d9, rfl, l9⟩ := uncons l8
  obtain ⟨a10, d10, rfl, l10⟩ := uncons l9
  obtain ⟨a11, d11, rfl, l11⟩ := uncons l10
  obtain ⟨a12, d12, rfl, l12⟩ := uncons l11
  obtain ⟨a13, d13, rfl, l13⟩ := uncons l12
  obtain ⟨a14, d14, rfl, l14⟩ := uncons l13
  obtain ⟨a15, d15, rfl, l15⟩ := uncons l14
  obtain ⟨a16, d16, rfl, l16⟩ := uncons l15
  obtain ⟨a17, d17, rfl, l17⟩ := uncons l16
  obtain ⟨a18, d18, rfl, l18⟩ := uncons l17
  obtain ⟨a19, d19, rfl, l19⟩ := uncons l18
  obtain ⟨a20, d20, rfl, l20⟩ := uncons l19
  obtain ⟨a21, d21, rfl, l21⟩ := uncons l20
  obtain ⟨a22, d22, rfl, l22⟩ := uncons l21
  obtain ⟨a23, d23, rfl, l23⟩ := uncons l22
  obtain ⟨a24, d24, rfl, l24⟩ := uncons l23
  obtain ⟨a25, d25, rfl, l25⟩ := uncons l24
  obtain ⟨a26, d26, rfl, l26⟩ := uncons l25
  obtain ⟨a27, d27, rfl, l27⟩ := uncons l26
  obtain ⟨a28, d28, rfl, l28⟩ := uncons l27
  obtain ⟨a29, d29, rfl, l29⟩ := uncons l28
  obtain ⟨a30, d30, rfl, l30⟩ := uncons l29
  obtain ⟨a31, d31, rfl, l31⟩ := uncons l30
  obtain rfl := List.length_eq_zero_iff.1 l31
  rfl

theorem bytes_total (n : Nat) : ∀ (i : Nat) (dashes : Bool) (t : List Byte),
    (∃ x, bytesFrom dashes i n t = .ok x) ∨ bytesFrom dashes i n t = .throw .runtimeError := by
  induction n with
  | zero => intro i dashes t; exact .inl ⟨_, rfl⟩
  | succ n ih =>
    intro i dashes t
    have hd : (∃ d, dashBefore dashes i t = .ok d) ∨ dashBefore dashes i t = .throw .runtimeError := by
      unfold dashBefore
      cases t with
      | nil =>
        split
        · exact .inr rfl
        · split
          · exact .inr rfl
          · exact .inl ⟨_, rfl⟩
      | cons c r =>
        simp only [next, Outcome.bind_ok]
        split
        · split <;> exact .inl ⟨_, rfl⟩
        · split
          · split
            · exact .inl ⟨_, rfl⟩
            · exact .inr rfl
          · exact .inl ⟨_, rfl⟩
    simp only [bytesFrom]
    rcases hd with ⟨d, hd⟩ | hd
    swap
    · rw [hd]; exact .inr rfl
    rw [hd]
    simp only [Outcome.bind_ok]
    rcases d.2 with _ | ⟨a, _ | ⟨c, r⟩⟩
    · exact .inr rfl
    · simp only [next, Outcome.bind_ok]
      rcases digit_cases a with h | ⟨x, _, h⟩ <;> rw [h] <;> exact .inr rfl
    · simp only [next, Outcome.bind_ok]
      rcases digit_cases a with h | ⟨x, _, h⟩ <;> rw [h]
      · exact .inr rfl
      simp only [Outcome.bind_ok]
      rcases digit_cases c with h | ⟨y, _, h⟩ <;> rw [h]
      · exact .inr rfl
      simp only [Outcome.bind_ok]
      rcases ih (i + 1) d.1 r with ⟨z, h⟩ | h <;> rw [h]
      · exact .inl ⟨_, rfl⟩
      · exact .inr rfl

theorem parse_total (strict : Bool) (t : List Byte) : (∃ id, parse strict t = .ok id) ∨ parse strict t = .throw .runtimeError := by
  unfold parse
  cases t with
  | nil => exact .inr rfl
  | cons c r =>
    simp only [next, Outcome.bind_ok]
    rcases bytes_total 16 0 false (if decide (c = 0x7B#8) = true then r else c :: r) with ⟨z, h⟩ | h <;> rw [h]
    · simp only [Outcome.bind_ok]
      have : finish strict (decide (c = 0x7B#8)) z.2 = .ok () ∨ finish strict (decide (c = 0x7B#8)) z.2 = .throw .runtimeError := by
        unfold finish
        split
        · rcases z.2 with _ | ⟨a, q⟩
          · exact .inr rfl
          · simp only [next, Outcome.bind_ok]
            split
            · split
              · exact .inr rfl
              · exact .inl rfl
            · exact .inr rfl
        · split
          · exact .inr rfl
          · exact .inl rfl
      rcases this with h | h <;> rw [h]
      · exact .inl ⟨_, rfl⟩
      · exact .inr rfl
    · exact .inr rfl

theorem body_text {dashed : Bool} {ds bs : List Byte} (h : Spells ds bs) (hb : bs.length = 16) :
    body dashed 0 ds = if dashed then grouped ds else ds := by
  cases dashed
  · exact body_false ds bs 0 h
  · exact body_true h hb

theorem parse_iff (strict : Bool) (t id : List Byte) : parse strict t = .ok id ↔ Accepted strict t id := by
  constructor
  · intro h
    unfold parse at h
    obtain ⟨x, hx, h⟩ := bind_eq_ok h
    obtain ⟨r, hr, h⟩ := bind_eq_ok h
    obtain ⟨u, hf, h⟩ := bind_eq_ok h
    cases h
    obtain ⟨dashed, ds, -, h2, h3, h4⟩ := bytes_sound 16 0 false _ r.1 r.2 rfl hr
    rw [body_text h2 h3] at h4
    by_cases hb : x.1 = 0x7B#8
    · simp only [hb, decide_true, if_true, finish] at hf h4
      obtain ⟨y, hy, hf⟩ := bind_eq_ok hf
      split at hf
      swap
      · cases hf
      rename_i he
      split at hf
      · cases hf
      rename_i hs
      refine ⟨[0x7B#8] ++ (if dashed then grouped ds else ds) ++ [0x7D#8], y.2, ?_, ⟨ds, h2, h3, ?_⟩, ?_⟩
      · rw [next_ok hx, hb, h4, next_ok hy, he]
        simp
      · cases dashed <;> simp
      · intro h
        by_contra hc
        exact hs ⟨h, hc⟩
    · simp only [hb, decide_false, Bool.false_eq_true, if_false, finish] at hf h4
      split at hf
      · cases hf
      rename_i hs
      refine ⟨if dashed then grouped ds else ds, r.2, h4, ⟨ds, h2, h3, ?_⟩, ?_⟩
      · cases dashed <;> simp
      · intro h
        by_contra hc
        exact hs ⟨h, hc⟩
  · rintro ⟨s, rest, rfl, ⟨ds, hs, hl, hf⟩, hr⟩
    obtain ⟨a, u, hd, ha⟩ := hs.first hl
    have plain : ∀ dashed : Bool, parse strict ((if dashed then grouped ds else ds) ++ rest) = .ok id := by
      intro dashed
      have hfirst : ∃ u, (if dashed = true then grouped ds else ds) ++ rest = a :: u := by
        cases dashed <;> simp [hd, grouped]
      obtain ⟨u', hu⟩ := hfirst
      have hb := bytes_complete 16 0 false dashed ds id rest rfl (by omega) hs hl
      rw [body_text hs hl, hu] at hb
      unfold parse
      rw [hu]
      simp only [next, Outcome.bind_ok, ha, decide_false, Bool.false_eq_true, if_false]
      rw [hb]
      simp only [Outcome.bind_ok, finish, Bool.false_eq_true, if_false]
      rw [if_neg (by rintro ⟨h1, h2⟩; exact h2 (hr h1))]
      rfl
    have braced : ∀ dashed : Bool, parse strict (([0x7B#8] ++ (if dashed then grouped ds else ds) ++ [0x7D#8]) ++ rest) = .ok id := by
      intro dashed
      have hb := bytes_complete 16 0 false dashed ds id (0x7D#8 :: rest) rfl (by omega) hs hl
      rw [body_text hs hl] at hb
      unfold parse
      simp only [List.cons_append, List.nil_append, List.append_assoc, next, Outcome.bind_ok, decide_true, if_true]
      rw [hb]
      simp only [Outcome.bind_ok, finish, if_true, next]
      rw [if_neg (by rintro ⟨h1, h2⟩; exact h2 (hr h1))]
      rfl
    rcases hf with rfl | rfl | rfl | rfl
    · simpa using plain false
    · simpa using plain true
    · simpa using braced false
    · simpa using braced true

/-- The digits that are printed. -/
def hexes (id : List Byte) : List Byte := id.flatMap fun x => [hexDigit (x.toNat / 16), hexDigit (x.toNat % 16)]

theorem hexDigit_mem : ∀ n < 16, (hexDigit n, n) ∈ digitTable := by decide +kernel

theorem spells_hexes : ∀ id : List Byte, Spells (hexes id) id
  | [] => .nil
  | x :: xs => by
    have h := Spells.cons (hexDigit_mem (x.toNat / 16) (by have := x.isLt; omega)) (hexDigit_mem (x.toNat % 16) (by omega)) (spells_hexes xs)
    rw [show BitVec.ofNat 8 (16 * (x.toNat / 16) + x.toNat % 16) = x by
      rw [Nat.div_add_mod]; simp] at h
    exact h

theorem print_eq {id : List Byte} (h : id.length = 16) : print id = grouped (hexes id) := by
  match id, h with
  | [_, _, _, _, _, _, _, _, _, _, _, _, _, _, _, _], _ => rfl

end LibLAS.ProjectId
