import Verif.Spec.XmlDoc
import Verif.Lemmas.SchemaXml
/-
The parser on documents.
-/
namespace LibLAS.Xml
open LibLAS.Spec PTree Doc

theorem ascii_lit (s : String) : ascii s = lit s := rfl

theorem span_stop {p : Byte → Bool} {l m : List Byte} (hl : ∀ x ∈ l, p x = true) (hm : ∀ b ∈ m.head?, p b = false) :
    (l ++ m).takeWhile p = l ∧ (l ++ m).dropWhile p = m := by
  rw [List.takeWhile_append_of_pos hl, List.dropWhile_append_of_pos hl]
  cases m with
  | nil => simp
  | cons b m =>
    have hb : ¬ (p b = true) := by simpa using hm b rfl
    rw [List.takeWhile_cons_of_neg hb, List.dropWhile_cons_of_neg hb]
    simp

/-! Character references. -/

theorem digit?_digitByte (up : Bool) (d : Fin 16) : digit? (digitByte up d.val) = some d.val := by
  revert up d; decide +kernel

theorem digit?_low (d : Fin 10) : digit? (digitByte false d.val) = some d.val := by
  revert d; decide +kernel

theorem not_x (d : Fin 10) : (120#8 == digitByte false d.val) = false := by
  revert d; decide +kernel

theorem refCode_mod (base : Nat) (bs : List Byte) : ∀ (ds : List Nat) (c : Nat), bs.map digit? = ds.map some →
    bs.foldl (fun c b => (c * base + (digit? b).getD 0) % 2 ^ 64) (c % 2 ^ 64) = (ds.foldl (fun n d => n * base + d) c) % 2 ^ 64 := by
  induction bs with
  | nil =>
    intro ds c h
    cases ds with
    | nil => rfl
    | cons => simp at h
  | cons b bs ih =>
    intro ds c h
    cases ds with
    | nil => simp at h
    | cons d ds =>
      rw [List.map_cons, List.map_cons, List.cons.injEq] at h
      rw [List.foldl_cons, List.foldl_cons, ← ih ds (c * base + d) h.2, h.1]
      congr 1
      show (c % 2 ^ 64 * base + d) % 2 ^ 64 = _
      rw [Nat.add_mod, Nat.mod_mul_mod, ← Nat.add_mod]

theorem refCode_eq {base : Nat} {bs : List Byte} {ds : List Nat} (h : bs.map digit? = ds.map some)
    (hlt : written base ds < 2 ^ 64) : refCode base bs = written base ds := by
  have := refCode_mod base bs ds 0 h
  unfold refCode written
  rw [Nat.zero_mod] at this
  rw [this]
  exact Nat.mod_eq_of_lt hlt

theorem utf8_char (c : Char) : utf8 c.toNat = some ((String.utf8EncodeChar c).map UInt8.toBitVec) := by
  have hv : c.toNat < 0x110000 := by
    have := c.valid
    unfold UInt32.isValidChar Nat.isValidChar at this
    show c.val.toNat < _
    omega
  unfold utf8 String.utf8EncodeChar
  show _ = _
  have e : c.val.toNat = c.toNat := rfl
  simp only [e]
  generalize c.toNat = v at *
  have hb : ∀ n, UInt8.toBitVec (UInt8.ofNat n) = BitVec.ofNat 8 n := fun n => rfl
  by_cases h1 : v < 0x80
  · rw [if_pos h1, if_pos (show v ≤ 127 by omega)]
    rfl
  rw [if_neg h1, if_neg (show ¬ v ≤ 127 by omega)]
  by_cases h2 : v < 0x800
  · rw [if_pos h2, if_pos (show v ≤ 2047 by omega), Nat.mod_eq_of_lt (a := v / 64) (by omega)]
    simp only [List.map_cons, List.map_nil, hb, Nat.add_comm]
  rw [if_neg h2, if_neg (show ¬ v ≤ 2047 by omega)]
  by_cases h3 : v < 0x10000
  · rw [if_pos h3, if_pos (show v ≤ 65535 by omega), Nat.mod_eq_of_lt (a := v / 4096) (by omega)]
    simp only [List.map_cons, List.map_nil, hb, Nat.add_comm]
  rw [if_neg h3, if_neg (show ¬ v ≤ 65535 by omega), if_pos hv, Nat.mod_eq_of_lt (a := v / 262144) (by omega)]
  simp only [List.map_cons, List.map_nil, hb, Nat.add_comm]

theorem numericRef_eq {base : Nat} {bs : List Byte} {ds : List Nat} {c : Char} (h : bs.map digit? = ds.map some)
    (hc : written base ds = c.toNat) (r : List Byte) :
    numericRef base (bs ++ 59#8 :: r) = .ok ((String.utf8EncodeChar c).map UInt8.toBitVec, r) := by
  have hd : ∀ b ∈ bs, (digit? b).isSome = true := by
    intro b hb
    have : digit? b ∈ bs.map digit? := List.mem_map_of_mem hb
    rw [h] at this
    obtain ⟨d, -, e⟩ := List.mem_map.1 this
    rw [← e]; rfl
  have hs : ¬ ((digit? 59#8).isSome = true) := by decide
  have hv : c.toNat < 0x110000 := by
    have := c.valid
    unfold UInt32.isValidChar Nat.isValidChar at this
    show c.val.toNat < _
    omega
  unfold numericRef
  have h1 : (bs ++ 59#8 :: r).takeWhile (fun b => (digit? b).isSome) = bs := (span_stop hd (by simpa using hs)).1
  have h2 : (bs ++ 59#8 :: r).dropWhile (fun b => (digit? b).isSome) = 59#8 :: r := (span_stop hd (by simpa using hs)).2
  rw [h1, h2, refCode_eq h (by rw [hc]; omega), hc, utf8_char]
  rfl

theorem expand_piece {q : Byte} (hq : q ≠ 38#8) {p : Piece} (hp : p.Ok q) (g : Nat) (r : List Byte) :
    expand (· == q) (g + 1) (p.text ++ r) = (expand (· == q) g r).bind fun x => .ok (p.value ++ x.1, x.2) := by
  have hq' : ((38#8 == q) = true) = False := by simpa using Ne.symm hq
  cases p with
  | byte b =>
    obtain ⟨-, h1, h2⟩ := hp
    show expand (· == q) (g + 1) (b :: r) = _
    rw [expand, if_neg (by simpa using h2), reference_other r h1]
    rfl
  | entity e =>
    have : ∃ t, e.text ++ r = 38#8 :: t ∧ reference (e.text ++ r) = some (.ok ([e.value], r)) := by
      cases e <;> exact ⟨_, rfl, rfl⟩
    obtain ⟨t, e1, e2⟩ := this
    show expand (· == q) (g + 1) (e.text ++ r) = _
    rw [e1] at e2 ⊢
    rw [expand, if_neg (by simpa using Ne.symm hq), e2]
    rfl
  | decimal ds c =>
    obtain ⟨h1, -⟩ := hp
    have hm : (ds.map fun d => digitByte false d.val).map digit? = (ds.map Fin.val).map some := by
      rw [List.map_map, List.map_map]
      exact List.map_congr_left fun d _ => digit?_low d
    have hr := numericRef_eq hm h1 r
    have e1 : (Piece.decimal ds c).text ++ r = 38#8 :: 35#8 :: ((ds.map fun d => digitByte false d.val) ++ 59#8 :: r) := by
      show (ascii "&#" ++ _ ++ ascii ";") ++ r = _
      rw [show ascii "&#" = [38#8, 35#8] from rfl, show ascii ";" = [59#8] from rfl]
      simp
    have hx : (lit "&#x").isPrefixOf (38#8 :: 35#8 :: ((ds.map fun d => digitByte false d.val) ++ 59#8 :: r)) = false := by
      rw [show lit "&#x" = [38#8, 35#8, 120#8] from rfl]
      cases ds with
      | nil => rfl
      | cons d ds =>
        show ((38#8 == 38#8) && ((35#8 == 35#8) && ((120#8 == digitByte false d.val) && true))) = false
        have : (120#8 == digitByte false d.val) = false := not_x d
        rw [this]; rfl
    have e2 : reference (38#8 :: 35#8 :: ((ds.map fun d => digitByte false d.val) ++ 59#8 :: r)) =
        some (.ok ((String.utf8EncodeChar c).map UInt8.toBitVec, r)) := by
      unfold reference
      rw [if_neg (by rw [show (lit "&amp;").isPrefixOf _ = false from rfl]; decide),
        if_neg (by rw [show (lit "&apos;").isPrefixOf _ = false from rfl]; decide),
        if_neg (by rw [show (lit "&quot;").isPrefixOf _ = false from rfl]; decide),
        if_neg (by rw [show (lit "&gt;").isPrefixOf _ = false from rfl]; decide),
        if_neg (by rw [show (lit "&lt;").isPrefixOf _ = false from rfl]; decide),
        if_neg (by rw [hx]; decide), if_pos (show (lit "&#").isPrefixOf _ = true from rfl)]
      show some (numericRef 10 ((ds.map fun d => digitByte false d.val) ++ 59#8 :: r)) = _
      rw [hr]
    rw [e1, expand, if_neg (by simpa using Ne.symm hq), e2]
    rfl
  | hex ds up c =>
    obtain ⟨h1, -⟩ := hp
    have hm : (ds.map fun d => digitByte up d.val).map digit? = (ds.map Fin.val).map some := by
      rw [List.map_map, List.map_map]
      exact List.map_congr_left fun d _ => digit?_digitByte up d
    have hr := numericRef_eq hm h1 r
    have e1 : (Piece.hex ds up c).text ++ r = 38#8 :: 35#8 :: 120#8 :: ((ds.map fun d => digitByte up d.val) ++ 59#8 :: r) := by
      show (ascii "&#x" ++ _ ++ ascii ";") ++ r = _
      rw [show ascii "&#x" = [38#8, 35#8, 120#8] from rfl, show ascii ";" = [59#8] from rfl]
      simp
    have e2 : reference (38#8 :: 35#8 :: 120#8 :: ((ds.map fun d => digitByte up d.val) ++ 59#8 :: r)) =
        some (.ok ((String.utf8EncodeChar c).map UInt8.toBitVec, r)) := by
      unfold reference
      rw [if_neg (by rw [show (lit "&amp;").isPrefixOf _ = false from rfl]; decide),
        if_neg (by rw [show (lit "&apos;").isPrefixOf _ = false from rfl]; decide),
        if_neg (by rw [show (lit "&quot;").isPrefixOf _ = false from rfl]; decide),
        if_neg (by rw [show (lit "&gt;").isPrefixOf _ = false from rfl]; decide),
        if_neg (by rw [show (lit "&lt;").isPrefixOf _ = false from rfl]; decide),
        if_pos (show (lit "&#x").isPrefixOf _ = true from rfl)]
      show some (numericRef 16 ((ds.map fun d => digitByte up d.val) ++ 59#8 :: r)) = _
      rw [hr]
    rw [e1, expand, if_neg (by simpa using Ne.symm hq), e2]
    rfl

theorem expand_pieces {q : Byte} (hq : q ≠ 38#8) (r : List Byte) : ∀ (ps : List Piece), (∀ p ∈ ps, p.Ok q) → ∀ g, ps.length + 1 ≤ g →
    expand (· == q) g (ps.flatMap Piece.text ++ q :: r) = .ok (ps.flatMap Piece.value, q :: r)
  | [], _, g, hg => by
    obtain ⟨g, rfl⟩ : ∃ k, g = k + 1 := ⟨g - 1, by simp at hg; omega⟩
    rw [List.flatMap_nil, List.nil_append, expand, if_pos (by simp)]
    rfl
  | p :: ps, h, g, hg => by
    obtain ⟨g, rfl⟩ : ∃ k, g = k + 1 := ⟨g - 1, by simp at hg; omega⟩
    rw [List.flatMap_cons, List.append_assoc, expand_piece hq (h p (by simp)),
      expand_pieces hq r ps (fun p hp => h p (by simp [hp])) g (by simp at hg; omega)]
    rfl

theorem piece_length (p : Piece) : 1 ≤ p.text.length := by
  cases p with
  | byte => exact le_refl 1
  | entity e => cases e <;> decide
  | decimal ds c => show 1 ≤ (ascii "&#" ++ _ ++ _).length; rw [show ascii "&#" = [38#8, 35#8] from rfl]; simp
  | hex ds up c => show 1 ≤ (ascii "&#x" ++ _ ++ _).length; rw [show ascii "&#x" = [38#8, 35#8, 120#8] from rfl]; simp

theorem pieces_length (ps : List Piece) : ps.length ≤ (ps.flatMap Piece.text).length := by
  induction ps with
  | nil => simp
  | cons p ps ih =>
    have := piece_length p
    rw [List.flatMap_cons, List.length_append, List.length_cons]
    omega

theorem noZero_char {c : Char} (h : c.toNat ≠ 0) : NoZero ((String.utf8EncodeChar c).map UInt8.toBitVec) := by
  have hu := utf8_char c
  have hv : c.toNat < 0x110000 := by
    have := c.valid
    unfold UInt32.isValidChar Nat.isValidChar at this
    show c.val.toNat < _
    omega
  generalize (String.utf8EncodeChar c).map UInt8.toBitVec = l at *
  generalize c.toNat = v at *
  have nz : ∀ n, n % 256 ≠ 0 → BitVec.ofNat 8 n ≠ 0#8 := by
    intro n hn e
    have := congrArg BitVec.toNat e
    simp at this
    omega
  unfold utf8 at hu
  simp only at hu
  split_ifs at hu with h1 h2 h3
  all_goals
    injection hu with hu
    subst hu
    intro b hb
    simp only [List.mem_cons, List.not_mem_nil, or_false] at hb
  · subst hb; exact nz _ (by omega)
  · rcases hb with rfl | rfl <;> exact nz _ (by omega)
  · rcases hb with rfl | rfl | rfl <;> exact nz _ (by omega)
  · rcases hb with rfl | rfl | rfl | rfl <;> exact nz _ (by omega)

theorem noZero_piece {q : Byte} {p : Piece} (h : p.Ok q) : NoZero p.value := by
  cases p with
  | byte b => intro x hx; rw [List.mem_singleton.1 hx]; exact h.1
  | entity e => cases e <;> (unfold NoZero; decide)
  | decimal ds c => exact noZero_char h.2
  | hex ds up c => exact noZero_char h.2

theorem noZero_pieces {q : Byte} {ps : List Piece} (h : ∀ p ∈ ps, p.Ok q) : NoZero (ps.flatMap Piece.value) := by
  intro x hx
  obtain ⟨p, hp, hx⟩ := List.mem_flatMap.1 hx
  exact noZero_piece (h p hp) x hx

/-! The marks that end comments, instructions and character data. -/

theorem upTo_mark {m : List Byte} (hm : 62#8 ∉ m) (rest : List Byte) : ∀ t : List Byte, Without (m ++ [62#8]) t →
    upTo (m ++ [62#8]) (t ++ (m ++ [62#8] ++ rest)) = .ok (t, rest)
  | [], _ => by
    have hp : (m ++ [62#8]).isPrefixOf (m ++ [62#8] ++ rest) = true := List.isPrefixOf_iff_prefix.2 (List.prefix_append _ _)
    have hd : (m ++ [62#8] ++ rest).drop (m ++ [62#8]).length = rest := by simp
    rw [List.nil_append]
    obtain ⟨b, s, e⟩ : ∃ b s, m ++ [62#8] ++ rest = b :: s := by
      cases m with
      | nil => exact ⟨_, _, rfl⟩
      | cons b m => exact ⟨_, _, rfl⟩
    rw [e] at hp hd ⊢
    rw [upTo, if_pos hp, hd]
  | b :: t, h => by
    have hn : ¬ (m ++ [62#8]).isPrefixOf (b :: (t ++ (m ++ [62#8] ++ rest))) = true := by
      rw [List.isPrefixOf_iff_prefix]
      intro hp
      rw [← List.cons_append] at hp
      rcases List.prefix_or_prefix_of_prefix hp (List.prefix_append (b :: t) _) with h1 | ⟨x, e⟩
      · exact h h1.isInfix
      · obtain ⟨y, hy⟩ := hp
        rw [← e, List.append_assoc] at hy
        rw [e] at hy
        have hy := List.append_cancel_left hy
        have hl := congrArg List.length e
        simp only [List.length_append, List.length_cons, List.length_nil] at hl
        rcases List.eq_nil_or_concat x with rfl | ⟨x', c, rfl⟩
        · exact h (by rw [← e, List.append_nil])
        · rw [List.concat_eq_append] at e hy hl
          have hc : c = 62#8 := by
            have := congrArg List.getLast? e
            rw [← List.append_assoc, List.getLast?_append, List.getLast?_append] at this
            simpa using this
          subst hc
          have hx : (x' ++ [62#8]) <+: m := by
            have h1 : (x' ++ [62#8]) <+: m ++ ([62#8] ++ rest) := ⟨y, by rw [hy]; simp⟩
            exact List.prefix_of_prefix_length_le h1 (List.prefix_append _ _) (by
              simp only [List.length_append, List.length_cons, List.length_nil] at hl ⊢; omega)
          exact hm (hx.subset (by simp))
    rw [List.cons_append, upTo, if_neg hn, upTo_mark hm rest t fun hi => h (hi.trans (List.suffix_cons b t).isInfix)]
    rfl

theorem doctype_balanced {l : List Byte} (h : Balanced l) : ∀ (d : Nat) (rest : List Byte),
    doctype (d + 1) (l ++ rest) = doctype (d + 1) rest := by
  induction h with
  | nil => intros; rfl
  | char b l _ h1 h2 _ ih =>
    intro d rest
    rw [List.cons_append, doctype, if_neg h1, if_neg h2, ih]
  | group a l _ _ iha ihl =>
    intro d rest
    rw [List.append_assoc, List.cons_append, doctype, if_pos rfl, iha, List.cons_append, doctype, if_neg (by decide), if_pos rfl, ihl]

theorem doctype_plain {l : List Byte} (h : ∀ x ∈ l, x ≠ 62#8 ∧ x ≠ 91#8) (rest : List Byte) :
    doctype 0 (l ++ rest) = doctype 0 rest := by
  induction l with
  | nil => rfl
  | cons b l ih =>
    rw [List.cons_append, doctype, if_neg (h b (by simp)).1, if_neg (h b (by simp)).2, ih fun x hx => h x (by simp [hx])]

theorem doctype_all {a c : List Byte} {b : Option (List Byte)} (h : ∀ x ∈ a ++ c, x ≠ 62#8 ∧ x ≠ 91#8)
    (hb : ∀ t, b = some t → Balanced t) (rest : List Byte) :
    doctype 0 (a ++ (bracketed b ++ (c ++ 62#8 :: rest))) = .ok rest := by
  rw [doctype_plain fun x hx => h x (by simp [hx])]
  have hc : doctype 0 (c ++ 62#8 :: rest) = .ok rest := by
    rw [doctype_plain fun x hx => h x (by simp [hx]), doctype, if_pos rfl]
  cases b with
  | none => exact hc
  | some t =>
    show doctype 0 ([91#8] ++ t ++ [93#8] ++ (c ++ 62#8 :: rest)) = _
    rw [List.append_assoc, List.append_assoc, List.singleton_append, doctype, if_neg (by decide), if_pos rfl,
      doctype_balanced (hb t rfl), List.singleton_append, doctype, if_neg (by decide), if_pos rfl, hc]

theorem afterQuestion_not {x m l w : Byte} {r : List Byte}
    (h : x = 63#8 ∨ m = 63#8 ∨ l = 63#8 ∨ w = 63#8) : afterQuestion (x :: m :: l :: w :: r) = x :: m :: l :: w :: r := by
  unfold afterQuestion
  dsimp only
  rw [if_neg]
  rcases h with rfl | rfl | rfl | rfl
  · rw [show (63#8 == 120#8 || 63#8 == 88#8) = false by decide]; simp
  · rw [show (63#8 == 109#8 || 63#8 == 77#8) = false by decide]; simp
  · rw [show (63#8 == 108#8 || 63#8 == 76#8) = false by decide]; simp
  · rw [show isWs 63#8 = false by decide]; simp

theorem afterQuestion_drop (t : List Byte) (x : List Byte) : ∃ a b, t = a ++ b ∧ afterQuestion (t ++ 63#8 :: x) = b ++ 63#8 :: x := by
  have short : ∀ s : List Byte, s.length ≤ 3 → afterQuestion s = s := by
    intro s hs
    unfold afterQuestion
    split
    · simp only [List.length_cons] at hs; omega
    · rfl
  match t with
  | [] =>
    refine ⟨[], [], rfl, ?_⟩
    match x with
    | [] | [_] | [_, _] => exact short _ (by simp)
    | _ :: _ :: _ :: _ => exact afterQuestion_not (by simp)
  | [p] =>
    refine ⟨[], [p], rfl, ?_⟩
    match x with
    | [] | [_] => exact short _ (by simp)
    | _ :: _ :: _ => exact afterQuestion_not (by simp)
  | [p, q] =>
    refine ⟨[], [p, q], rfl, ?_⟩
    match x with
    | [] => exact short _ (by simp)
    | _ :: _ => exact afterQuestion_not (by simp)
  | [p, q, r] => exact ⟨[], [p, q, r], rfl, afterQuestion_not (by simp)⟩
  | p :: q :: r :: w :: t =>
    rw [show p :: q :: r :: w :: t ++ 63#8 :: x = p :: q :: r :: w :: (t ++ 63#8 :: x) from rfl]
    unfold afterQuestion
    dsimp only
    split_ifs
    · exact ⟨[p, q, r, w], t, rfl, rfl⟩
    · exact ⟨[], _, rfl, rfl⟩

theorem afterQuestion_mark {t : List Byte} (h : Without (ascii "?>") t) (rest : List Byte) :
    ∃ u, upTo (lit "?>") (afterQuestion (t ++ (63#8 :: 62#8 :: rest))) = .ok (u, rest) := by
  obtain ⟨a, b, e, h2⟩ := afterQuestion_drop t (62#8 :: rest)
  refine ⟨b, ?_⟩
  rw [h2]
  refine upTo_mark (m := [63#8]) (by decide) rest b fun hi => h ?_
  rw [e]
  exact hi.trans (List.suffix_append a b).isInfix

/-! Names and attributes. -/

theorem blank_ws {ws : List Byte} (h : Blank ws) : ∀ b ∈ ws, isWs b = true := by
  intro b hb
  rcases h b hb with rfl | rfl | rfl | rfl <;> decide

theorem name_facts {b : Byte} (h : b ∉ [0#8, 32#8, 10#8, 13#8, 9#8, 47#8, 60#8, 62#8, 61#8, 63#8, 33#8]) :
    isAttr b = true ∧ isName b = true ∧ isWs b = false ∧ b ≠ 0#8 ∧ b ≠ 33#8 := by
  revert b; decide +kernel

theorem ws_facts {b : Byte} (h : isWs b = true) : isAttr b = false ∧ isName b = false ∧ b ≠ 0#8 := by
  revert b; decide +kernel

theorem name_key {n : List Byte} (h : NameText n) : Key n := by
  refine ⟨h.1, fun b hb => ⟨(name_facts (h.2 b hb)).2.1, (name_facts (h.2 b hb)).2.2.2.1⟩, fun e => ?_⟩
  have := List.mem_of_head? e
  exact (name_facts (h.2 _ this)).2.2.2.2 rfl

/-- The first byte of a text is no name character or blank. -/
def Stops (t : List Byte) : Prop := ∀ b ∈ t.head?, isWs b = false

theorem attribute_head {a : Attribute} (ha : a.Ok) (r : List Byte) :
    ∃ b s, a.text ++ r = b :: s ∧ isAttr b = true ∧ isWs b = false := by
  obtain ⟨b, n, e⟩ := List.exists_cons_of_ne_nil ha.name.1
  have hb := name_facts (ha.name.2 b (by rw [e]; simp))
  have e' : a.text ++ r = b :: (n ++ a.beforeEq ++ [61#8] ++ a.afterEq ++ [a.quote] ++ a.value.flatMap Piece.text ++ [a.quote] ++ a.after ++ r) := by
    unfold Attribute.text
    rw [e]
    simp only [List.cons_append, List.append_assoc]
  exact ⟨b, _, e', hb.1, hb.2.2.1⟩

theorem attribute_one {a : Attribute} (ha : a.Ok) {rest : List Byte} (hr : Stops rest) :
    oneAttribute (a.text ++ rest) = .ok ((a.name, .node (a.value.flatMap Piece.value) []), rest) := by
  have e : a.text ++ rest = a.name ++ (a.beforeEq ++ (61#8 :: (a.afterEq ++ (a.quote :: (a.value.flatMap Piece.text ++ (a.quote :: (a.after ++ rest))))))) := by
    unfold Attribute.text
    simp only [List.append_assoc, List.cons_append, List.nil_append]
  have hq : a.quote ≠ 38#8 ∧ isWs a.quote = false ∧ (a.quote == 39#8 || a.quote == 34#8) = true := by
    rcases ha.quote with h | h <;> rw [h] <;> decide
  have h1 := span_stop (p := isAttr) (l := a.name)
    (m := a.beforeEq ++ (61#8 :: (a.afterEq ++ (a.quote :: (a.value.flatMap Piece.text ++ (a.quote :: (a.after ++ rest)))))))
    (fun b hb => (name_facts (ha.name.2 b hb)).1) (by
      intro b hb
      cases hw : a.beforeEq with
      | nil => rw [hw] at hb; simp at hb; rw [← hb]; decide
      | cons c w =>
        rw [hw] at hb; simp at hb; rw [← hb]
        exact (ws_facts (blank_ws ha.beforeEq c (by rw [hw]; simp))).1)
  unfold oneAttribute
  rw [e, h1.1, h1.2, (span_stop (blank_ws ha.beforeEq) (by simp; decide)).2]
  show (match List.dropWhile isWs (a.afterEq ++ (a.quote :: (a.value.flatMap Piece.text ++ (a.quote :: (a.after ++ rest))))) with
    | q :: r => _ | [] => _) = _
  rw [(span_stop (blank_ws ha.afterEq) (by simpa using hq.2.1)).2]
  dsimp only
  rw [if_pos hq.2.2, expand_pieces hq.1 _ _ ha.value _ (by
    have := pieces_length a.value
    simp only [List.length_append, List.length_cons]; omega)]
  show Outcome.ok _ = _
  rw [cstr_noZero (noZero_pieces ha.value), (span_stop (blank_ws ha.after) hr).2]

theorem attributes_all {b : Byte} (hb : isAttr b = false) (hw : isWs b = false) (r : List Byte) : ∀ (as : List Attribute),
    (∀ a ∈ as, a.Ok) → ∀ g, as.length ≤ g → attributes g (as.flatMap Attribute.text ++ b :: r) =
      .ok (as.map fun a => (a.name, .node (a.value.flatMap Piece.value) []), b :: r)
  | [], _, g, _ => attributes_end hb g r
  | a :: as, h, g, hg => by
    obtain ⟨g, rfl⟩ : ∃ k, g = k + 1 := ⟨g - 1, by simp at hg; omega⟩
    have ha := h a (by simp)
    have hr : Stops (as.flatMap Attribute.text ++ b :: r) := by
      cases as with
      | nil => intro x hx; simp at hx; rw [← hx]; exact hw
      | cons a' as =>
        obtain ⟨c, s, e, -, hc⟩ := attribute_head (h a' (by simp)) (as.flatMap Attribute.text ++ b :: r)
        rw [List.flatMap_cons, List.append_assoc, e]
        intro x hx; simp at hx; rw [← hx]; exact hc
    rw [List.flatMap_cons, List.append_assoc]
    obtain ⟨c, s, e, hc, -⟩ := attribute_head ha (as.flatMap Attribute.text ++ b :: r)
    rw [e, attributes, if_pos hc, ← e, attribute_one ha hr]
    show (attributes g (as.flatMap Attribute.text ++ b :: r)).bind _ = _
    rw [attributes_all hb hw r as (fun a ha => h a (by simp [ha])) g (by simp at hg; omega)]
    rfl

theorem attributes_length {as : List Attribute} (h : ∀ a ∈ as, a.Ok) : as.length ≤ (as.flatMap Attribute.text).length := by
  induction as with
  | nil => simp
  | cons a as ih =>
    obtain ⟨b, s, e, -⟩ := attribute_head (h a (by simp)) []
    rw [List.append_nil] at e
    have := ih fun a ha => h a (by simp [ha])
    rw [List.flatMap_cons, List.length_append, e, List.length_cons, List.length_cons]
    omega

/-- The start of a tag: the name, then what the attributes say. -/
theorem tag_start {n ws : List Byte} {as : List Attribute} (hn : NameText n) (hw : Blank ws) (hwa : as ≠ [] → ws ≠ [])
    (ha : ∀ a ∈ as, a.Ok) {b : Byte} (hb : b = 62#8 ∨ b = 47#8) (r : List Byte) :
    let t := n ++ (ws ++ (as.flatMap Attribute.text ++ b :: r))
    t.takeWhile isName = n ∧
    attributes t.length ((t.dropWhile isName).dropWhile isWs) = .ok (as.map fun a => (a.name, .node (a.value.flatMap Piece.value) []), b :: r) := by
  have hb' : isName b = false ∧ isAttr b = false ∧ isWs b = false := by rcases hb with rfl | rfl <;> decide
  have h1 := span_stop (p := isName) (l := n) (m := ws ++ (as.flatMap Attribute.text ++ b :: r))
    (fun b hb => (name_facts (hn.2 b hb)).2.1) (by
      intro x hx
      cases ws with
      | cons c w =>
        simp at hx; rw [← hx]; exact (ws_facts (blank_ws hw c (by simp))).2.1
      | nil =>
        cases as with
        | nil => simp at hx; rw [← hx]; exact hb'.1
        | cons => exact absurd rfl (hwa (by simp)))
  have h2 := span_stop (p := isWs) (l := ws) (m := as.flatMap Attribute.text ++ b :: r) (blank_ws hw) (by
    cases as with
    | nil => intro x hx; simp at hx; rw [← hx]; exact hb'.2.2
    | cons a as =>
      obtain ⟨c, s, e, -, hc⟩ := attribute_head (ha a (by simp)) (as.flatMap Attribute.text ++ b :: r)
      rw [List.flatMap_cons, List.append_assoc, e]
      intro x hx; simp at hx; rw [← hx]; exact hc)
  refine ⟨h1.1, ?_⟩
  rw [h1.2, h2.2, attributes_all hb'.2.1 hb'.2.2 r as ha]
  have := attributes_length ha
  simp only [List.length_append]
  omega

theorem closing_name {k ws : List Byte} (hk : NameText k) (hw : Blank ws) (r : List Byte) :
    closing (k ++ (ws ++ 62#8 :: r)) = .ok r := by
  have h1 := span_stop (p := isName) (l := k) (m := ws ++ 62#8 :: r) (fun b hb => (name_facts (hk.2 b hb)).2.1) (by
      intro x hx
      cases ws with
      | cons c w => simp at hx; rw [← hx]; exact (ws_facts (blank_ws hw c (by simp))).2.1
      | nil => simp at hx; rw [← hx]; decide)
  unfold closing
  rw [h1.2, (span_stop (blank_ws hw) (by simp; decide)).2]
  rfl

/-! Nodes. -/

theorem node_head {n : Node} (hn : n.isText = false) : ∃ s, n.write = 60#8 :: s := by
  cases n with
  | text => exact absurd hn (by simp [Node.isText])
  | cdata t => exact ⟨_, rfl⟩
  | comment t => exact ⟨_, rfl⟩
  | instruction t => exact ⟨_, rfl⟩
  | doctype a b c => exact ⟨_, rfl⟩
  | empty => exact ⟨_, rfl⟩
  | element => exact ⟨_, rfl⟩

theorem text_head {ps : List Piece} (h : ps ≠ []) (hp : ∀ p ∈ ps, p.Ok 60#8) (r : List Byte) :
    ∃ b s, ps.flatMap Piece.text ++ r = b :: s ∧ b ≠ 60#8 := by
  obtain ⟨p, ps, rfl⟩ := List.exists_cons_of_ne_nil h
  have := hp p (by simp)
  rw [List.flatMap_cons, List.append_assoc]
  cases p with
  | byte b => exact ⟨b, _, rfl, this.2.2⟩
  | entity e => cases e <;> exact ⟨38#8, _, rfl, by decide⟩
  | decimal => exact ⟨38#8, _, rfl, by decide⟩
  | hex => exact ⟨38#8, _, rfl, by decide⟩

theorem node_length {n : Node} (hn : n.Ok) : 1 ≤ n.write.length := by
  by_cases h : n.isText = false
  · obtain ⟨s, e⟩ := node_head h
    rw [e]; simp
  · cases n with
    | text ps =>
      rw [Node.Ok] at hn
      obtain ⟨b, s, e, -⟩ := text_head hn.1 hn.2 []
      rw [List.append_nil] at e
      rw [Node.write, e]; simp
    | _ => exact absurd rfl h

theorem attrKids_said (as : List Attribute) :
    attrKids (as.map fun a => (a.name, .node (a.value.flatMap Piece.value) [])) = attributesSaid as := by
  unfold attrKids attributesSaid
  cases as <;> rfl

theorem name_head {n : List Byte} (hn : NameText n) (x : List Byte) : (n ++ x).head? ≠ some 47#8 := by
  intro e
  obtain ⟨b, k, rfl⟩ := List.exists_cons_of_ne_nil hn.1
  have hb := (name_facts (hn.2 b (by simp))).2.1
  simp only [List.cons_append, List.head?_cons, Option.some.injEq] at e
  rw [e] at hb
  exact absurd hb (by decide)

mutual
theorem parse_doc_node (n : Node) (hn : n.Ok) (ht : n.isText = false) (r : List Byte) (f : Nat)
    (hf : (n.write ++ r).length ≤ f) :
    ∃ s, n.write ++ r = 60#8 :: s ∧ s.head? ≠ some 47#8 ∧ ∃ i, parseNode f s = .ok (i, r) ∧
      ∀ acc, addItem acc i = (acc.1 ++ n.says.1, acc.2 ++ n.says.2) := by
  obtain ⟨f, rfl⟩ : ∃ g, f = g + 1 := by
    refine ⟨f - 1, ?_⟩
    have := node_length hn
    rw [List.length_append] at hf
    omega
  match n, hn, ht with
  | .cdata t, hn, _ =>
    rw [Node.Ok] at hn
    refine ⟨lit "![CDATA[" ++ (t ++ (lit "]]>" ++ r)), by rw [Node.write]; simp only [List.append_assoc]; rfl, by
      rw [show lit "![CDATA[" = 33#8 :: lit "[CDATA[" from rfl]; simp, some (.text t), ?_, ?_⟩
    · have h := upTo_mark (m := [93#8, 93#8]) (by decide) r t hn.2
      rw [parseNode]
      show (upTo (lit "]]>") (t ++ (lit "]]>" ++ r))).bind _ = _
      rw [show upTo (lit "]]>") (t ++ (lit "]]>" ++ r)) = _ from h]
      rfl
    · intro acc
      rw [Node.says, List.append_nil]
      rfl
  | .comment t, hn, _ =>
    rw [Node.Ok] at hn
    refine ⟨lit "!--" ++ (t ++ (lit "-->" ++ r)), by rw [Node.write]; simp only [List.append_assoc]; rfl, by
      rw [show lit "!--" = 33#8 :: lit "--" from rfl]; simp, some (.comment t), ?_, ?_⟩
    · have h := upTo_mark (m := [45#8, 45#8]) (by decide) r t hn.2
      rw [parseNode]
      show (upTo (lit "-->") (t ++ (lit "-->" ++ r))).bind _ = _
      rw [show upTo (lit "-->") (t ++ (lit "-->" ++ r)) = _ from h]
      rfl
    · intro acc
      rw [Node.says, List.append_nil]
      rfl
  | .instruction t, hn, _ =>
    rw [Node.Ok] at hn
    obtain ⟨u, h⟩ := afterQuestion_mark hn.2 r
    refine ⟨63#8 :: (t ++ (63#8 :: 62#8 :: r)), by
      rw [Node.write]; simp only [List.append_assoc]; rfl, by
      simp, none, ?_, ?_⟩
    · rw [parseNode]
      show (upTo (lit "?>") (afterQuestion (t ++ (63#8 :: 62#8 :: r)))).bind _ = _
      rw [h]
      rfl
    · intro acc
      rw [Node.says, List.append_nil, List.append_nil]
      rfl
  | .doctype a b c, hn, _ =>
    rw [Node.Ok] at hn
    refine ⟨lit "!DOCTYPE " ++ (a ++ (bracketed b ++ (c ++ 62#8 :: r))), by
      rw [Node.write]; simp only [List.append_assoc]; rfl, by
      rw [show lit "!DOCTYPE " = 33#8 :: lit "DOCTYPE " from rfl]; simp, none, ?_, ?_⟩
    · rw [parseNode]
      show (doctype 0 (a ++ (bracketed b ++ (c ++ 62#8 :: r)))).bind _ = _
      rw [doctype_all hn.2.2.1 hn.2.2.2]
      rfl
    · intro acc
      rw [Node.says, List.append_nil, List.append_nil]
      rfl
  | .empty n ws as, hn, _ =>
    rw [Node.Ok] at hn
    obtain ⟨h1, h2⟩ := tag_start hn.1 hn.2.1 hn.2.2.1 hn.2.2.2 (b := 47#8) (Or.inr rfl) (62#8 :: r)
    refine ⟨n ++ (ws ++ (as.flatMap Attribute.text ++ 47#8 :: 62#8 :: r)), by
      rw [Node.write]; simp only [List.append_assoc, List.cons_append, List.nil_append], ?_, some (.element n (.node [] (attributesSaid as))), ?_, ?_⟩
    · exact name_head hn.1 _
    · rw [parseNode, key_element (name_key hn.1)]
      dsimp only
      rw [h1, key_nonempty (name_key hn.1), if_neg (by decide), h2, ← attrKids_said]
      rfl
    · intro acc
      rw [Node.says, List.append_nil]
      rfl
  | .element n ws as ns k ws', hn, _ =>
    rw [Node.Ok] at hn
    obtain ⟨hn1, hn2, hn3, hn4, hn5, hn6, hn7⟩ := hn
    obtain ⟨h1, h2⟩ := tag_start hn1 hn2 hn3 hn4 (b := 62#8) (Or.inl rfl) (writeAll ns ++ 60#8 :: 47#8 :: (k ++ (ws' ++ 62#8 :: r)))
    have e : (Node.element n ws as ns k ws').write ++ r = 60#8 :: (n ++ (ws ++ (as.flatMap Attribute.text ++
        62#8 :: (writeAll ns ++ 60#8 :: 47#8 :: (k ++ (ws' ++ 62#8 :: r)))))) := by
      rw [Node.write]; simp only [List.append_assoc, List.cons_append, List.nil_append]
    refine ⟨_, e, name_head hn1 _,
      some (.element n (.node (sayAll ns).1 (attributesSaid as ++ (sayAll ns).2))), ?_, ?_⟩
    · rw [e] at hf
      rw [parseNode, key_element (name_key hn1)]
      dsimp only
      rw [h1, key_nonempty (name_key hn1), if_neg (by decide), h2]
      show (parseContents f (writeAll ns ++ 60#8 :: 47#8 :: (k ++ (ws' ++ 62#8 :: r))) ([], attrKids _)).bind _ = _
      rw [attrKids_said, parse_doc_contents ns hn5 (closing_name hn6 hn7 r) f (by
        simp only [List.length_cons, List.length_append] at hf ⊢; omega)]
      rfl
    · intro acc
      rw [Node.says, List.append_nil]
      rfl
theorem parse_doc_contents (ns : List Node) (hns : AllOk ns) {t r : List Byte} (ht : closing t = .ok r) (f : Nat)
    (hf : (writeAll ns ++ 60#8 :: 47#8 :: t).length + 1 ≤ f) (acc : List Byte × List (List Byte × PTree)) :
    parseContents f (writeAll ns ++ 60#8 :: 47#8 :: t) acc = .ok ((acc.1 ++ (sayAll ns).1, acc.2 ++ (sayAll ns).2), r) := by
  obtain ⟨f, rfl⟩ : ∃ g, f = g + 1 := ⟨f - 1, by omega⟩
  match ns, hns with
  | [], _ =>
    rw [writeAll, sayAll, List.nil_append, parseContents, if_pos rfl, if_pos (by rfl), List.tail_cons, ht]
    simp only [List.append_nil]
    rfl
  | n :: ns, hns =>
    rw [AllOk] at hns
    obtain ⟨hn, hnext, hns⟩ := hns
    have hl := node_length hn
    rw [writeAll, List.append_assoc] at hf ⊢
    rw [List.length_append] at hf
    rw [sayAll]
    by_cases hx : n.isText = false
    · obtain ⟨s, e, hs, i, hp, hi⟩ := parse_doc_node n hn hx (writeAll ns ++ 60#8 :: 47#8 :: t) f (by
        rw [List.length_append]; omega)
      rw [e, contents_child hs, hp]
      show parseContents f (writeAll ns ++ 60#8 :: 47#8 :: t) (addItem acc i) = _
      rw [hi, parse_doc_contents ns hns ht f (by omega)]
      simp only [List.append_assoc]
    · match n, hn, hx with
      | .text ps, hn, _ =>
        rw [Node.Ok] at hn
        rw [Node.write] at hf hl ⊢
        rw [Node.says]
        obtain ⟨s2, e2⟩ : ∃ s2 : List Byte, writeAll ns ++ 60#8 :: 47#8 :: t = 60#8 :: s2 := by
          cases ns with
          | nil => exact ⟨_, rfl⟩
          | cons m ns =>
            obtain ⟨s, e⟩ := node_head (hnext rfl m rfl)
            rw [writeAll, e]
            exact ⟨_, rfl⟩
        obtain ⟨b, s, e, hb⟩ := text_head hn.1 hn.2 (writeAll ns ++ 60#8 :: 47#8 :: t)
        rw [e, parseContents, if_neg hb, ← List.length_cons (a := b), ← e, e2,
          expand_pieces (by decide) s2 ps hn.2 _ (by
            have := pieces_length ps
            simp only [List.length_append, List.length_cons]; omega), ← e2]
        show parseContents f (writeAll ns ++ 60#8 :: 47#8 :: t) (acc.1 ++ cstr (ps.flatMap Piece.value), acc.2) = _
        rw [cstr_noZero (noZero_pieces hn.2), parse_doc_contents ns hns ht f (by omega)]
        simp only [List.append_assoc, List.nil_append]
      | .cdata _, _, hx | .comment _, _, hx | .instruction _, _, hx | .doctype _ _ _, _, hx | .empty _ _ _, _, hx
      | .element _ _ _ _ _ _, _, hx => exact absurd rfl hx
end

theorem parse_doc_nodes (last : List Byte) (hl : Blank last) : ∀ (ns : List (List Byte × Node)),
    (∀ p ∈ ns, Blank p.1 ∧ p.2.Ok ∧ p.2.isText = false) → ∀ f, ((ns.flatMap fun p => p.1 ++ p.2.write) ++ last).length + 1 ≤ f →
    ∀ acc, parseNodes f ((ns.flatMap fun p => p.1 ++ p.2.write) ++ last) acc =
      .ok (.node (acc.1 ++ (sayAll (ns.map Prod.snd)).1) (acc.2 ++ (sayAll (ns.map Prod.snd)).2))
  | [], _, f, hf, acc => by
    obtain ⟨f, rfl⟩ : ∃ g, f = g + 1 := ⟨f - 1, by omega⟩
    have h := (span_stop (p := isWs) (l := last) (m := []) (blank_ws hl) (by simp)).2
    rw [List.append_nil] at h
    rw [List.flatMap_nil, List.nil_append, parseNodes, h, List.map_nil, sayAll, List.append_nil, List.append_nil]
  | (ws, n) :: ns, h, f, hf, acc => by
    obtain ⟨f, rfl⟩ : ∃ g, f = g + 1 := ⟨f - 1, by omega⟩
    obtain ⟨h1, h2, h3⟩ := h (ws, n) (by simp)
    have hlen := node_length h2
    rw [List.flatMap_cons, List.append_assoc, List.append_assoc] at hf ⊢
    rw [List.length_append, List.length_append] at hf
    dsimp only at hf h1 h2 h3 hlen
    obtain ⟨s, e, -, i, hp, hi⟩ := parse_doc_node n h2 h3 ((ns.flatMap fun p => p.1 ++ p.2.write) ++ last) f (by
      rw [List.length_append]; omega)
    dsimp only
    rw [e, parseNodes, (span_stop (blank_ws h1) (by simp; decide)).2]
    dsimp only
    rw [if_pos rfl, hp]
    show parseNodes f _ (addItem acc i) = _
    rw [hi, parse_doc_nodes last hl ns (fun p hp => h p (by simp [hp])) f (by omega), List.map_cons, sayAll]
    simp only [List.append_assoc]

/-! No zero bytes. -/

theorem noZero_nil : NoZero [] := fun _ h => absurd h (List.not_mem_nil)

theorem noZero_flatMap {α : Type} {l : List α} {g : α → List Byte} (h : ∀ a ∈ l, NoZero (g a)) : NoZero (l.flatMap g) := by
  intro b hb
  obtain ⟨a, ha, hb⟩ := List.mem_flatMap.1 hb
  exact h a ha b hb

theorem noZero_blank {ws : List Byte} (h : Blank ws) : NoZero ws := fun b hb => (ws_facts (blank_ws h b hb)).2.2

theorem noZero_nameText {n : List Byte} (h : NameText n) : NoZero n := fun b hb => (name_facts (h.2 b hb)).2.2.2.1

theorem noZero_text {q : Byte} {p : Piece} (h : p.Ok q) : NoZero p.text := by
  have dz : ∀ (up : Bool) (d : Fin 16), digitByte up d.val ≠ 0#8 := by decide +kernel
  have dz' : ∀ (d : Fin 10), digitByte false d.val ≠ 0#8 := by decide +kernel
  cases p with
  | byte b => intro x hx; rw [List.mem_singleton.1 hx]; exact h.1
  | entity e => cases e <;> (show NoZero (lit _); unfold NoZero lit; decide)
  | decimal ds c =>
    refine noZero_append (noZero_append (by unfold NoZero ascii; decide) ?_) (by unfold NoZero ascii; decide)
    intro b hb
    obtain ⟨d, -, rfl⟩ := List.mem_map.1 hb
    exact dz' d
  | hex ds up c =>
    refine noZero_append (noZero_append (by unfold NoZero ascii; decide) ?_) (by unfold NoZero ascii; decide)
    intro b hb
    obtain ⟨d, -, rfl⟩ := List.mem_map.1 hb
    exact dz up d

theorem noZero_attribute {a : Attribute} (h : a.Ok) : NoZero a.text := by
  have hq : NoZero [a.quote] := by
    intro b hb
    rw [List.mem_singleton.1 hb]
    rcases h.quote with e | e <;> rw [e] <;> decide
  unfold Attribute.text
  exact noZero_append (noZero_append (noZero_append (noZero_append (noZero_append (noZero_append (noZero_append
    (noZero_nameText h.name) (noZero_blank h.beforeEq)) (by unfold NoZero; decide)) (noZero_blank h.afterEq)) hq)
    (noZero_flatMap fun p hp => noZero_text (h.value p hp))) hq) (noZero_blank h.after)

theorem noZero_balanced {l : List Byte} (h : Balanced l) : NoZero l := by
  induction h with
  | nil => exact noZero_nil
  | char b l h0 _ _ _ ih => exact noZero_cons h0 ih
  | group a l _ _ iha ihl =>
    exact noZero_append (noZero_cons (by decide) iha) (noZero_cons (by decide) ihl)

mutual
theorem noZero_node (n : Node) (hn : n.Ok) : NoZero n.write := by
  match n, hn with
  | .text ps, hn =>
    rw [Node.Ok] at hn
    rw [Node.write]
    exact noZero_flatMap fun p hp => noZero_text (hn.2 p hp)
  | .cdata t, hn =>
    rw [Node.Ok] at hn
    rw [Node.write]
    exact noZero_append (noZero_append (by unfold NoZero ascii; decide) hn.1) (by unfold NoZero ascii; decide)
  | .comment t, hn =>
    rw [Node.Ok] at hn
    rw [Node.write]
    exact noZero_append (noZero_append (by unfold NoZero ascii; decide) hn.1) (by unfold NoZero ascii; decide)
  | .instruction t, hn =>
    rw [Node.Ok] at hn
    rw [Node.write]
    exact noZero_append (noZero_append (by unfold NoZero ascii; decide) hn.1) (by unfold NoZero ascii; decide)
  | .doctype a b c, hn =>
    rw [Node.Ok] at hn
    rw [Node.write]
    refine noZero_append (noZero_append (noZero_append (noZero_append (by unfold NoZero ascii; decide) hn.1) ?_) hn.2.1)
      (by unfold NoZero; decide)
    cases b with
    | none => exact noZero_nil
    | some t => exact noZero_append (noZero_append (by unfold NoZero; decide) (noZero_balanced (hn.2.2.2 t rfl))) (by unfold NoZero; decide)
  | .empty n ws as, hn =>
    rw [Node.Ok] at hn
    rw [Node.write]
    exact noZero_append (noZero_append (noZero_append (noZero_append (by unfold NoZero; decide) (noZero_nameText hn.1))
      (noZero_blank hn.2.1)) (noZero_flatMap fun a ha => noZero_attribute (hn.2.2.2 a ha))) (by unfold NoZero; decide)
  | .element n ws as ns k ws', hn =>
    rw [Node.Ok] at hn
    rw [Node.write]
    exact noZero_append (noZero_append (noZero_append (noZero_append (noZero_append (noZero_append (noZero_append (noZero_append
      (noZero_append (by unfold NoZero; decide) (noZero_nameText hn.1)) (noZero_blank hn.2.1))
      (noZero_flatMap fun a ha => noZero_attribute (hn.2.2.2.1 a ha))) (by unfold NoZero; decide))
      (noZero_nodes ns hn.2.2.2.2.1)) (by unfold NoZero; decide)) (noZero_nameText hn.2.2.2.2.2.1)) (noZero_blank hn.2.2.2.2.2.2))
      (by unfold NoZero; decide)
theorem noZero_nodes (ns : List Node) (hns : AllOk ns) : NoZero (writeAll ns) := by
  match ns, hns with
  | [], _ => rw [writeAll]; exact noZero_nil
  | n :: ns, hns =>
    rw [AllOk] at hns
    rw [writeAll]
    exact noZero_append (noZero_node n hns.1) (noZero_nodes ns hns.2.2)
end

theorem skipBom_document (d : Document) (h : d.Ok) : skipBom d.write = (d.nodes.flatMap fun p => p.1 ++ p.2.write) ++ d.last := by
  have no : ∀ l : List Byte, (∀ b ∈ l.head?, b ≠ 0xEF#8) → skipBom l = l := by
    intro l hl
    unfold skipBom
    rw [if_neg]
    cases l with
    | nil => decide
    | cons b l =>
      rw [List.isPrefixOf_cons₂]
      have := hl b rfl
      simp [Ne.symm this]
  have hb : ∀ b, isWs b = true → b ≠ 0xEF#8 := by
    intro b hb e
    rw [e] at hb
    exact absurd hb (by decide)
  unfold Document.write
  cases hm : d.mark with
  | true =>
    rw [if_pos rfl, List.append_assoc]
    rfl
  | false =>
    rw [if_neg (by decide), List.nil_append]
    refine no _ ?_
    cases hn : d.nodes with
    | nil =>
      intro b hx
      exact hb b (blank_ws h.last b (List.mem_of_head? hx))
    | cons p ns =>
      obtain ⟨h1, -, h3⟩ := h.nodes p (by rw [hn]; simp)
      rw [List.flatMap_cons, List.append_assoc, List.append_assoc]
      obtain ⟨s, e⟩ := node_head h3
      intro b hx
      rw [e] at hx
      cases hw : p.1 with
      | nil =>
        rw [hw] at hx
        simp at hx
        rw [← hx]; decide
      | cons c w =>
        rw [hw] at hx
        simp at hx
        rw [← hx]
        exact hb c (blank_ws h1 c (by rw [hw]; simp))

theorem noZero_document (d : Document) (h : d.Ok) : NoZero d.write := by
  unfold Document.write
  refine noZero_append (noZero_append ?_ (noZero_flatMap fun p hp =>
    noZero_append (noZero_blank (h.nodes p hp).1) (noZero_node p.2 (h.nodes p hp).2.1))) (noZero_blank h.last)
  split_ifs
  · unfold NoZero; decide
  · exact noZero_nil

theorem read_document (d : Document) (h : d.Ok) : readXml d.write = .ok d.says := by
  unfold readXml
  dsimp only
  rw [cstr_noZero (noZero_document d h), skipBom_document d h, parse_doc_nodes d.last h.last d.nodes h.nodes _ (by
    unfold Document.write
    simp only [List.length_append]
    omega)]
  rfl

end LibLAS.Xml
