import Verif.Spec.SchemaXml
import Verif.Lemmas.Las2txt
/-
The XML writer and parser.
-/
namespace LibLAS.Xml
open LibLAS.Spec PTree

theorem bindOk' {α β : Type} {x : Outcome α} {a : α} {f : α → Outcome β} (h : x = .ok a) : x.bind f = f a := by
  rw [h]; rfl

theorem reference_other {b : Byte} (r : List Byte) (hb : b ≠ 38#8) : reference (b :: r) = none := by
  have h : ∀ s : List Byte, (38#8 :: s).isPrefixOf (b :: r) = false := by
    intro s
    rw [List.isPrefixOf_cons₂]
    simp [Ne.symm hb]
  unfold reference
  rw [show lit "&amp;" = 38#8 :: lit "amp;" from rfl, show lit "&apos;" = 38#8 :: lit "apos;" from rfl,
    show lit "&quot;" = 38#8 :: lit "quot;" from rfl, show lit "&gt;" = 38#8 :: lit "gt;" from rfl,
    show lit "&lt;" = 38#8 :: lit "lt;" from rfl, show lit "&#x" = 38#8 :: lit "#x" from rfl,
    show lit "&#" = 38#8 :: lit "#" from rfl]
  simp only [h, Bool.false_eq_true, if_false]

/-- One character of the writer's text. -/
theorem expand_byte (b : Byte) (f : Nat) (r v r' : List Byte)
    (h : ∀ g, f ≤ g → expand (· == 60#8) g r = .ok (v, r')) (g : Nat) (hg : f + (encodeByte b).length ≤ g) :
    expand (· == 60#8) g (encodeByte b ++ r) = .ok (b :: v, r') := by
  have pos : 1 ≤ (encodeByte b).length := by
    unfold encodeByte; split_ifs <;> first | decide | simp
  obtain ⟨g, rfl⟩ : ∃ k, g = k + 1 := ⟨g - 1, by omega⟩
  have hr := h g (by omega)
  unfold encodeByte
  split_ifs with h1 h2 h3 h4 h5
  · subst h1
    show (expand (· == 60#8) g r).bind _ = _
    rw [hr]; rfl
  · subst h2
    show (expand (· == 60#8) g r).bind _ = _
    rw [hr]; rfl
  · subst h3
    show (expand (· == 60#8) g r).bind _ = _
    rw [hr]; rfl
  · subst h4
    show (expand (· == 60#8) g r).bind _ = _
    rw [hr]; rfl
  · subst h5
    show (expand (· == 60#8) g r).bind _ = _
    rw [hr]; rfl
  · show expand _ (g + 1) (b :: r) = _
    rw [expand, reference_other r h3]
    have : (b == 60#8) = false := by simpa using h1
    rw [if_neg (by simp [h1])]
    show (expand (· == 60#8) g r).bind _ = _
    rw [hr]; rfl

/-- A text of the writer, up to the next tag. -/
theorem expand_bytes (d r : List Byte) (g : Nat) (hg : (d.flatMap encodeByte).length + 1 ≤ g) :
    expand (· == 60#8) g (d.flatMap encodeByte ++ 60#8 :: r) = .ok (d, 60#8 :: r) := by
  induction d generalizing g with
  | nil =>
    obtain ⟨g, rfl⟩ : ∃ k, g = k + 1 := ⟨g - 1, by simp at hg; omega⟩
    rfl
  | cons b d ih =>
    rw [List.flatMap_cons, List.append_assoc]
    refine expand_byte b ((d.flatMap encodeByte).length + 1) _ _ _ (fun g hg => ih g hg) g ?_
    rw [List.flatMap_cons, List.length_append] at hg
    omega

theorem encodeByte_space : encodeByte 32#8 = [32#8] := rfl

theorem expand_encode (d r : List Byte) (hd : d ≠ []) (g : Nat) (hg : (encode d).length + 1 ≤ g) :
    expand (· == 60#8) g (encode d ++ 60#8 :: r) = .ok (d, 60#8 :: r) := by
  unfold encode at hg ⊢
  rw [if_neg hd] at hg ⊢
  by_cases hs : d.all (· == 32#8) = true
  · rw [if_pos hs] at hg ⊢
    obtain ⟨n, rfl⟩ : ∃ n, d = List.replicate (n + 1) 32#8 := by
      refine ⟨d.length - 1, ?_⟩
      have : d.length ≠ 0 := by simpa using hd
      rw [show d.length - 1 + 1 = d.length by omega]
      exact List.eq_replicate_iff.2 ⟨rfl, fun b hb => by simpa using (List.all_eq_true.1 hs) b hb⟩
    rw [List.length_replicate] at hg ⊢
    rw [show n + 1 - 1 = n by omega] at hg ⊢
    have hfm : ∀ k : Nat, (List.replicate k 32#8).flatMap encodeByte = List.replicate k 32#8 := by
      intro k
      induction k with
      | zero => rfl
      | succ k ih => rw [List.replicate_succ, List.flatMap_cons, ih, encodeByte_space]; rfl
    have hl : (lit "&#32;").length = 5 := rfl
    rw [List.length_append, hl, List.length_replicate] at hg
    obtain ⟨g, rfl⟩ : ∃ k, g = k + 1 := ⟨g - 1, by omega⟩
    have hb := expand_bytes (List.replicate n 32#8) r g (by rw [hfm, List.length_replicate]; omega)
    rw [hfm] at hb
    rw [List.append_assoc]
    show (expand (· == 60#8) g (List.replicate n 32#8 ++ 60#8 :: r)).bind _ = _
    rw [hb]
    rfl
  · rw [if_neg hs] at hg ⊢
    exact expand_bytes d r g hg

theorem cstr_noZero {t : List Byte} (h : NoZero t) : cstr t = t := by
  unfold cstr
  induction t with
  | nil => rfl
  | cons b t ih =>
    rw [List.takeWhile_cons_of_pos (by simpa using h b (by simp)), ih fun x hx => h x (by simp [hx])]

theorem encode_head (d r : List Byte) (hd : d ≠ []) : ∃ b t, encode d ++ r = b :: t ∧ b ≠ 60#8 := by
  unfold encode
  rw [if_neg hd]
  split_ifs with hs
  · exact ⟨38#8, _, rfl, by decide⟩
  · obtain ⟨b, d, rfl⟩ := List.exists_cons_of_ne_nil hd
    rw [List.flatMap_cons, List.append_assoc]
    unfold encodeByte
    split_ifs with h1 h2 h3 h4 h5
    · exact ⟨38#8, _, rfl, by decide⟩
    · exact ⟨38#8, _, rfl, by decide⟩
    · exact ⟨38#8, _, rfl, by decide⟩
    · exact ⟨38#8, _, rfl, by decide⟩
    · exact ⟨38#8, _, rfl, by decide⟩
    · exact ⟨b, _, rfl, h1⟩

theorem key_take {k : List Byte} (hk : Key k) {b : Byte} (r : List Byte) (hb : isName b = false) :
    (k ++ b :: r).takeWhile isName = k ∧ (k ++ b :: r).dropWhile isName = b :: r := by
  constructor
  · rw [List.takeWhile_append_of_pos (fun x hx => (hk.2.1 x hx).1), List.takeWhile_cons_of_neg (by simp [hb]), List.append_nil]
  · rw [List.dropWhile_append_of_pos (fun x hx => (hk.2.1 x hx).1), List.dropWhile_cons_of_neg (by simp [hb])]

theorem key_element {k : List Byte} (hk : Key k) (r : List Byte) : otherNode (k ++ r) = none := by
  obtain ⟨b, k, rfl⟩ := List.exists_cons_of_ne_nil hk.1
  have h1 : b ≠ 33#8 := fun e => hk.2.2 (by rw [e]; rfl)
  have h2 : b ≠ 63#8 := by
    intro e
    have := (hk.2.1 b (by simp)).1
    rw [e] at this
    exact absurd this (by decide)
  rw [List.cons_append]
  unfold otherNode
  split
  · rename_i heq; exact absurd (List.cons.inj heq).1 h2
  · rename_i heq; exact absurd (List.cons.inj heq).1 h1
  · rfl

theorem attributes_end {b : Byte} (hb : isAttr b = false) (n : Nat) (r : List Byte) :
    attributes n (b :: r) = .ok ([], b :: r) := by
  cases n with
  | zero => rfl
  | succ n => rw [attributes, if_neg (by simp [hb])]

theorem closing_key {k : List Byte} (hk : Key k) (r : List Byte) : closing (k ++ 62#8 :: r) = .ok r := by
  unfold closing
  rw [(key_take hk r (by decide)).2]
  rfl

theorem key_nonempty {k : List Byte} (hk : Key k) : k.isEmpty = false := by
  simpa using hk.1

theorem contents_child {s : List Byte} (hs : s.head? ≠ some 47#8) (f : Nat) (acc : List Byte × List (List Byte × PTree)) :
    parseContents (f + 1) (60#8 :: s) acc =
      (parseNode f s).bind fun p => parseContents f p.2 (addItem acc p.1) := by
  rw [parseContents, if_pos rfl, if_neg hs]

mutual
theorem parse_element (t : PTree) (ht : Storable t) (k : List Byte) (hk : Key k) (r : List Byte) (f : Nat)
    (hf : (writeElement k t ++ r).length ≤ f) :
    ∃ s, writeElement k t ++ r = 60#8 :: s ∧ s.head? ≠ some 47#8 ∧ parseNode f s = .ok (some (.element k t), r) := by
  obtain ⟨f, rfl⟩ : ∃ g, f = g + 1 := by
    refine ⟨f - 1, ?_⟩
    have : 1 ≤ (writeElement k t).length := by
      cases t with
      | node d ks => rw [writeElement]; split_ifs <;> simp <;> omega
    rw [List.length_append] at hf
    omega
  have hh : ∀ x : List Byte, (k ++ x).head? ≠ some 47#8 := by
    intro x e
    obtain ⟨b, k, rfl⟩ := List.exists_cons_of_ne_nil hk.1
    have hb := (hk.2.1 b (by simp)).1
    simp only [List.cons_append, List.head?_cons, Option.some.injEq] at e
    rw [e] at hb
    exact absurd hb (by decide)
  match t, ht with
  | .node d ks, ht =>
    rw [Storable] at ht
    rw [writeElement] at hf ⊢
    by_cases he : (d.isEmpty && ks.isEmpty) = true
    · rw [if_pos he]
      obtain ⟨hd, hks⟩ : d = [] ∧ ks = [] := by simpa using he
      subst hd hks
      refine ⟨k ++ 47#8 :: 62#8 :: r, by rw [show lit "/>" = [47#8, 62#8] from rfl]; simp, hh _, ?_⟩
      rw [parseNode, key_element hk]
      dsimp only
      rw [(key_take hk _ (by decide)).1, (key_take hk _ (by decide)).2, key_nonempty hk]
      rw [if_neg (by decide), List.dropWhile_cons_of_neg (by decide), attributes_end (by decide)]
      rfl
    · rw [if_neg he] at hf ⊢
      refine ⟨k ++ 62#8 :: (encode d ++ (writeElements ks ++ 60#8 :: 47#8 :: (k ++ 62#8 :: r))),
        by rw [show lit "</" = [60#8, 47#8] from rfl]; simp, hh _, ?_⟩
      rw [show lit "</" = [60#8, 47#8] from rfl] at hf
      simp only [List.append_assoc, List.length_append, List.length_cons, List.length_nil] at hf
      rw [parseNode, key_element hk]
      dsimp only
      rw [(key_take hk _ (by decide)).1, (key_take hk _ (by decide)).2, key_nonempty hk]
      rw [if_neg (by decide), List.dropWhile_cons_of_neg (by decide), attributes_end (by decide)]
      show (parseContents f _ ([], [])).bind _ = _
      have hl : (writeElements ks ++ 60#8 :: 47#8 :: (k ++ 62#8 :: r)).length = (writeElements ks).length + k.length + r.length + 3 := by
        simp only [List.length_append, List.length_cons]; omega
      by_cases hd : d = []
      · subst hd
        rw [show encode [] = [] from rfl, List.nil_append,
          parse_elements ks ht.2 k hk r f (by rw [hl]; simp [encode] at hf; omega) [] []]
        rfl
      · obtain ⟨f, rfl⟩ : ∃ g, f = g + 1 := ⟨f - 1, by omega⟩
        obtain ⟨b, s, e, hb⟩ := encode_head d (writeElements ks ++ 60#8 :: 47#8 :: (k ++ 62#8 :: r)) hd
        obtain ⟨s2, e2⟩ : ∃ s2 : List Byte, writeElements ks ++ 60#8 :: 47#8 :: (k ++ 62#8 :: r) = 60#8 :: s2 := by
          cases ks with
          | nil => exact ⟨_, rfl⟩
          | cons p ks =>
            obtain ⟨k', t'⟩ := p
            rw [writeElements]
            cases t' with
            | node d' ks' =>
              rw [writeElement]
              split_ifs <;> exact ⟨_, rfl⟩
        have hp : 1 ≤ (encode d).length := by
          obtain ⟨b, s, e, hb⟩ := encode_head d [] hd
          rw [List.append_nil] at e
          rw [e]; simp
        rw [e, parseContents, if_neg hb, ← List.length_cons (a := b), ← e, e2, expand_encode d _ hd _ (by simp only [List.length_append, List.length_cons]; omega), ← e2]
        show (parseContents f _ ([] ++ cstr d, [])).bind _ = _
        rw [cstr_noZero ht.1, parse_elements ks ht.2 k hk r f (by rw [hl]; omega)]
        rfl
theorem parse_elements (ks : List (List Byte × PTree)) (hks : StorableKids ks) (k : List Byte) (hk : Key k) (r : List Byte)
    (f : Nat) (hf : (writeElements ks ++ 60#8 :: 47#8 :: (k ++ 62#8 :: r)).length + 1 ≤ f) (d : List Byte)
    (acc : List (List Byte × PTree)) :
    parseContents f (writeElements ks ++ 60#8 :: 47#8 :: (k ++ 62#8 :: r)) (d, acc) = .ok ((d, acc ++ ks), r) := by
  obtain ⟨f, rfl⟩ : ∃ g, f = g + 1 := ⟨f - 1, by omega⟩
  match ks, hks with
  | [], _ =>
    rw [writeElements, List.nil_append, parseContents, if_pos rfl, if_pos (by rfl), List.tail_cons, closing_key hk, List.append_nil]
    rfl
  | (k', t) :: ks, hks =>
    rw [StorableKids] at hks
    rw [writeElements, List.append_assoc] at hf ⊢
    obtain ⟨s, e, hs, hp⟩ := parse_element t hks.2.1 k' hks.1 (writeElements ks ++ 60#8 :: 47#8 :: (k ++ 62#8 :: r)) f
      (by omega)
    rw [e, contents_child hs, hp]
    have hl : (writeElements ks ++ 60#8 :: 47#8 :: (k ++ 62#8 :: r)).length + 1 ≤ (writeElement k' t ++ (writeElements ks ++ 60#8 :: 47#8 :: (k ++ 62#8 :: r))).length := by
      rw [List.length_append (as := writeElement k' t)]
      have : 1 ≤ (writeElement k' t).length := by
        cases t with
        | node d ks => rw [writeElement]; split_ifs <;> simp <;> omega
      omega
    show parseContents f (writeElements ks ++ 60#8 :: 47#8 :: (k ++ 62#8 :: r)) (d, acc ++ [(k', t)]) = _
    rw [parse_elements ks hks.2.2 k hk r f (by omega), List.append_assoc]
    rfl
end

theorem noZero_append {a b : List Byte} (ha : NoZero a) (hb : NoZero b) : NoZero (a ++ b) := by
  intro x hx
  rcases List.mem_append.1 hx with h | h
  · exact ha x h
  · exact hb x h

theorem noZero_cons {a : Byte} {b : List Byte} (ha : a ≠ 0#8) (hb : NoZero b) : NoZero (a :: b) := by
  intro x hx
  rcases List.mem_cons.1 hx with h | h
  · exact h ▸ ha
  · exact hb x h

theorem noZero_encode {d : List Byte} (hd : NoZero d) : NoZero (encode d) := by
  unfold encode
  split_ifs
  · exact fun _ h => absurd h (List.not_mem_nil)
  · refine noZero_append (by unfold NoZero; decide) fun x hx => ?_
    rw [List.eq_of_mem_replicate hx]
    decide
  · intro x hx
    obtain ⟨b, hb, hx⟩ := List.mem_flatMap.1 hx
    unfold encodeByte at hx
    have h0 := hd b hb
    split_ifs at hx
    · exact (show ∀ x ∈ lit "&lt;", x ≠ 0#8 by decide) x hx
    · exact (show ∀ x ∈ lit "&gt;", x ≠ 0#8 by decide) x hx
    · exact (show ∀ x ∈ lit "&amp;", x ≠ 0#8 by decide) x hx
    · exact (show ∀ x ∈ lit "&quot;", x ≠ 0#8 by decide) x hx
    · exact (show ∀ x ∈ lit "&apos;", x ≠ 0#8 by decide) x hx
    · rw [List.mem_singleton.1 hx]; exact h0

theorem noZero_key {k : List Byte} (hk : Key k) : NoZero k := fun b hb => (hk.2.1 b hb).2

mutual
theorem noZero_element (t : PTree) (ht : Storable t) (k : List Byte) (hk : Key k) : NoZero (writeElement k t) := by
  match t, ht with
  | .node d ks, ht =>
    rw [Storable] at ht
    rw [writeElement]
    have h1 : NoZero [60#8] := by unfold NoZero; decide
    have h2 : NoZero [62#8] := by unfold NoZero; decide
    have h3 : NoZero (lit "/>") := by unfold NoZero; decide
    have h4 : NoZero (lit "</") := by unfold NoZero; decide
    have hk' := noZero_key hk
    split_ifs
    · exact noZero_append (noZero_append h1 hk') h3
    · exact noZero_append (noZero_append (noZero_append (noZero_append (noZero_append (noZero_append (noZero_append
        h1 hk') h2) (noZero_encode ht.1)) (noZero_elements ks ht.2)) h4) hk') h2
theorem noZero_elements (ks : List (List Byte × PTree)) (hks : StorableKids ks) : NoZero (writeElements ks) := by
  match ks, hks with
  | [], _ => rw [writeElements]; exact fun _ h => absurd h (List.not_mem_nil)
  | (k, t) :: ks, hks =>
    rw [StorableKids] at hks
    rw [writeElements]
    exact noZero_append (noZero_element t hks.2.1 k hks.1) (noZero_elements ks hks.2.2)
end

theorem element_length (k : List Byte) (t : PTree) : 1 ≤ (writeElement k t).length := by
  cases t with
  | node d ks => rw [writeElement]; split_ifs <;> simp <;> omega

theorem parse_nodes (ks : List (List Byte × PTree)) (hks : StorableKids ks) (f : Nat) (hf : (writeElements ks).length + 1 ≤ f)
    (acc : List (List Byte × PTree)) : parseNodes f (writeElements ks) ([], acc) = .ok (.node [] (acc ++ ks)) := by
  induction ks generalizing f acc with
  | nil =>
    obtain ⟨f, rfl⟩ : ∃ g, f = g + 1 := ⟨f - 1, by omega⟩
    rw [writeElements, parseNodes, List.append_nil]
    rfl
  | cons p ks ih =>
    obtain ⟨k, t⟩ := p
    obtain ⟨f, rfl⟩ : ∃ g, f = g + 1 := ⟨f - 1, by omega⟩
    rw [StorableKids] at hks
    rw [writeElements] at hf ⊢
    obtain ⟨s, e, hs, hp⟩ := parse_element t hks.2.1 k hks.1 (writeElements ks) f (by omega)
    have h1 := element_length k t
    rw [e, parseNodes, List.dropWhile_cons_of_neg (by decide)]
    dsimp only
    rw [if_pos rfl, hp]
    show parseNodes f (writeElements ks) ([], acc ++ [(k, t)]) = _
    rw [ih hks.2.2 f (by rw [List.length_append] at hf; omega), List.append_assoc]
    rfl

/-- The declaration is skipped. -/
theorem parse_declaration (f : Nat) (rest : List Byte) :
    parseNode (f + 1) (lit "?xml version=\"1.0\" encoding=\"utf-8\"?>" ++ rest) = .ok (none, rest) := rfl

theorem nodes_newline (f : Nat) (rest : List Byte) (acc : List Byte × List (List Byte × PTree)) :
    parseNodes (f + 1) (10#8 :: rest) acc = parseNodes (f + 1) rest acc := by
  rw [parseNodes, parseNodes, List.dropWhile_cons_of_pos (by decide)]

theorem nodes_declaration (f : Nat) (rest : List Byte) (acc : List Byte × List (List Byte × PTree)) :
    parseNodes (f + 3) (60#8 :: lit "?xml version=\"1.0\" encoding=\"utf-8\"?>" ++ 10#8 :: rest) acc =
      parseNodes (f + 2) rest acc := by
  rw [parseNodes, List.cons_append, List.dropWhile_cons_of_neg (by decide)]
  dsimp only
  rw [if_pos rfl, parse_declaration, ← nodes_newline]
  rfl

theorem read_write (ks : List (List Byte × PTree)) (hks : StorableKids ks) :
    readXml (writeXml (.node [] ks)) = .ok (.node [] ks) := by
  have hn : NoZero (writeXml (.node [] ks)) :=
    noZero_append (noZero_append (by unfold NoZero; decide) (noZero_encode fun _ h => absurd h (List.not_mem_nil))) (noZero_elements ks hks)
  unfold readXml
  dsimp only
  rw [cstr_noZero hn]
  have e : writeXml (.node [] ks) = 60#8 :: lit "?xml version=\"1.0\" encoding=\"utf-8\"?>" ++ 10#8 :: writeElements ks := by
    show lit "<?xml version=\"1.0\" encoding=\"utf-8\"?>\n" ++ [] ++ writeElements ks = _
    rw [List.append_nil]
    rfl
  have hl : (writeXml (.node [] ks)).length = (writeElements ks).length + 39 := by
    rw [e, List.length_append, List.length_cons, List.length_cons]
    show 37 + 1 + _ = _
    omega
  have hb : skipBom (writeXml (.node [] ks)) = writeXml (.node [] ks) := by rw [e]; rfl
  rw [hb, hl, show 2 * ((writeElements ks).length + 39) + 2 = (2 * (writeElements ks).length + 77) + 3 by omega, e,
    nodes_declaration, parse_nodes ks hks _ (by omega)]
  rfl

end LibLAS.Xml
