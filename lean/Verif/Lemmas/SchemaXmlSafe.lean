import Verif.Lemmas.SchemaXml
/-
The XML parser on arbitrary bytes.
-/
namespace LibLAS.Xml
open LibLAS.Spec PTree

/-- A value with property `P`, or a `std::runtime_error`. -/
def Fine {α : Type} (o : Outcome α) (P : α → Prop) : Prop :=
  match o with
  | .ok a => P a
  | .throw e => e = .runtimeError
  | .ub => False

theorem Fine.bind {α β : Type} {o : Outcome α} {P : α → Prop} {Q : β → Prop} {g : α → Outcome β} (h : Fine o P)
    (hg : ∀ a, P a → Fine (g a) Q) : Fine (o.bind g) Q := by
  cases o with
  | ok a => exact hg a h
  | throw e => exact h
  | ub => exact h.elim

theorem Fine.imp {α : Type} {o : Outcome α} {P Q : α → Prop} (h : Fine o P) (hq : ∀ a, P a → Q a) : Fine o Q := by
  cases o with
  | ok a => exact hq a h
  | throw e => exact h
  | ub => exact h.elim

theorem Fine.err {α : Type} {P : α → Prop} : Fine (.throw .runtimeError : Outcome α) P := rfl

theorem dropWhile_le (p : Byte → Bool) (t : List Byte) : (t.dropWhile p).length ≤ t.length :=
  (List.dropWhile_suffix p).length_le

theorem numericRef_fine (base : Nat) (t : List Byte) : Fine (numericRef base t) fun p => p.2.length ≤ t.length := by
  unfold numericRef
  split
  · exact Fine.err
  · have h := dropWhile_le (fun b => (digit? b).isSome) t
    split
    · rename_i e
      rw [e] at h
      simp only [List.length_cons] at h
      show _ ≤ _
      dsimp only
      omega
    · exact Fine.err

theorem prefix_len {p t : List Byte} (h : p.isPrefixOf t = true) : p.length ≤ t.length :=
  (List.isPrefixOf_iff_prefix.1 h).length_le

theorem reference_fine {t : List Byte} {o : Outcome (List Byte × List Byte)} (h : reference t = some o) :
    Fine o fun p => p.2.length + 1 ≤ t.length := by
  unfold reference at h
  split_ifs at h with h1 h2 h3 h4 h5 h6 h7
  · cases h
    have := prefix_len h1
    rw [show (lit "&amp;").length = 5 from rfl] at this
    show (t.drop 5).length + 1 ≤ _
    rw [List.length_drop]; omega
  · cases h
    have := prefix_len h2
    rw [show (lit "&apos;").length = 6 from rfl] at this
    show (t.drop 6).length + 1 ≤ _
    rw [List.length_drop]; omega
  · cases h
    have := prefix_len h3
    rw [show (lit "&quot;").length = 6 from rfl] at this
    show (t.drop 6).length + 1 ≤ _
    rw [List.length_drop]; omega
  · cases h
    have := prefix_len h4
    rw [show (lit "&gt;").length = 4 from rfl] at this
    show (t.drop 4).length + 1 ≤ _
    rw [List.length_drop]; omega
  · cases h
    have := prefix_len h5
    rw [show (lit "&lt;").length = 4 from rfl] at this
    show (t.drop 4).length + 1 ≤ _
    rw [List.length_drop]; omega
  · cases h
    have := prefix_len h6
    rw [show (lit "&#x").length = 3 from rfl] at this
    refine (numericRef_fine 16 _).imp fun p hp => ?_
    rw [List.length_drop] at hp; omega
  · cases h
    have := prefix_len h7
    rw [show (lit "&#").length = 2 from rfl] at this
    refine (numericRef_fine 10 _).imp fun p hp => ?_
    rw [List.length_drop] at hp; omega

theorem expand_fine (stop : Byte → Bool) (f : Nat) (t : List Byte) :
    Fine (expand stop f t) fun p => p.2.length ≤ t.length := by
  induction f generalizing t with
  | zero => exact le_refl t.length
  | succ f ih =>
    cases t with
    | nil => exact le_refl 0
    | cons b r =>
      rw [expand]
      split_ifs
      · exact le_refl (b :: r).length
      · split
        · refine (ih r).bind fun p hp => ?_
          show _ ≤ (b :: r).length
          simp only [List.length_cons]; omega
        · rename_i e
          refine (reference_fine e).bind fun q hq => ?_
          refine (ih q.2).bind fun p hp => ?_
          show _ ≤ (b :: r).length
          dsimp only; omega

/-- A text that does not start with a tag: at least one character is consumed. -/
theorem expand_step {stop : Byte → Bool} {b : Byte} (hb : stop b = false) (f : Nat) (r : List Byte) :
    Fine (expand stop (f + 1) (b :: r)) fun p => p.2.length ≤ r.length := by
  rw [expand, if_neg (by simp [hb])]
  split
  · refine (expand_fine stop f r).bind fun p hp => ?_
    exact hp
  · rename_i e
    refine (reference_fine e).bind fun q hq => ?_
    refine (expand_fine stop f q.2).bind fun p hp => ?_
    show _ ≤ r.length
    simp only [List.length_cons] at hq
    dsimp only; omega

theorem upTo_fine (mark t : List Byte) : Fine (upTo mark t) fun p => p.2.length ≤ t.length := by
  induction t with
  | nil => exact Fine.err
  | cons b r ih =>
    rw [upTo]
    split_ifs
    · show ((b :: r).drop _).length ≤ _
      rw [List.length_drop]; omega
    · refine ih.bind fun p hp => ?_
      show _ ≤ (b :: r).length
      simp only [List.length_cons]; omega

theorem doctype_fine (d : Nat) (t : List Byte) : Fine (doctype d t) fun r => r.length ≤ t.length := by
  induction t generalizing d with
  | nil => cases d <;> exact Fine.err
  | cons b r ih =>
    cases d with
    | zero =>
      rw [doctype]
      split_ifs
      · show r.length ≤ (b :: r).length; simp
      · exact (ih _).imp fun p hp => by simp only [List.length_cons]; omega
      · exact (ih _).imp fun p hp => by simp only [List.length_cons]; omega
    | succ d =>
      rw [doctype]
      exact (ih _).imp fun p hp => by simp only [List.length_cons]; omega

theorem oneAttribute_fine (t : List Byte) : Fine (oneAttribute t) fun p => p.2.length ≤ t.length := by
  unfold oneAttribute
  split
  · rename_i r e
    have h1 := dropWhile_le isWs (t.dropWhile isAttr)
    have h2 := dropWhile_le isAttr t
    rw [e] at h1
    simp only [List.length_cons] at h1
    split
    · rename_i q r2 e2
      have h3 := dropWhile_le isWs r
      rw [e2] at h3
      simp only [List.length_cons] at h3
      split_ifs
      · refine (expand_fine _ _ _).bind fun p hp => ?_
        split
        · exact Fine.err
        · rename_i x r3 e3
          rw [e3] at hp
          simp only [List.length_cons] at hp
          have h4 := dropWhile_le isWs r3
          show (r3.dropWhile isWs).length ≤ _
          omega
      · exact Fine.err
    · exact Fine.err
  · exact Fine.err

theorem attributes_fine (f : Nat) (t : List Byte) : Fine (attributes f t) fun p => p.2.length ≤ t.length := by
  induction f generalizing t with
  | zero => exact le_refl t.length
  | succ f ih =>
    cases t with
    | nil => exact le_refl 0
    | cons b r =>
      rw [attributes]
      split_ifs
      · refine (oneAttribute_fine _).bind fun a ha => (ih a.2).bind fun p hp => ?_
        show p.2.length ≤ _
        omega
      · exact le_refl (b :: r).length

theorem afterQuestion_le (t : List Byte) : (afterQuestion t).length ≤ t.length := by
  unfold afterQuestion
  split
  · split_ifs
    · simp only [List.length_cons]; omega
    · exact le_refl _
  · exact le_refl _

theorem otherNode_fine {t : List Byte} {o : Outcome (Option Item × List Byte)} (h : otherNode t = some o) :
    Fine o fun p => p.2.length ≤ t.length := by
  unfold otherNode at h
  split at h
  · cases h
    rename_i r
    refine (upTo_fine _ _).bind fun p hp => ?_
    have := afterQuestion_le r
    show p.2.length ≤ (63#8 :: r).length
    simp only [List.length_cons]; omega
  · rename_i r
    split_ifs at h
    · cases h
      refine (upTo_fine _ _).bind fun p hp => ?_
      rw [List.length_drop] at hp
      show p.2.length ≤ _
      omega
    · cases h
      refine (upTo_fine _ _).bind fun p hp => ?_
      rw [List.length_drop] at hp
      show p.2.length ≤ _
      omega
    · cases h
      refine (doctype_fine _ _).bind fun p hp => ?_
      rw [List.length_drop] at hp
      show p.length ≤ _
      omega
    · cases h
      refine (upTo_fine _ _).bind fun p hp => ?_
      show p.2.length ≤ (33#8 :: r).length
      simp only [List.length_cons]; omega
  · cases h

theorem closing_fine (t : List Byte) : Fine (closing t) fun r => r.length ≤ t.length := by
  unfold closing
  split
  · rename_i r e
    have h1 := dropWhile_le isWs (t.dropWhile isName)
    have h2 := dropWhile_le isName t
    rw [e] at h1
    simp only [List.length_cons] at h1
    show r.length ≤ _
    omega
  · exact Fine.err

theorem take_drop_len (p : Byte → Bool) (t : List Byte) : (t.takeWhile p).length + (t.dropWhile p).length = t.length := by
  rw [← List.length_append, List.takeWhile_append_dropWhile]

theorem parse_fine (f : Nat) :
    (∀ t : List Byte, t.length + 1 ≤ f → Fine (parseNode f t) fun p => p.2.length ≤ t.length) ∧
    (∀ (t : List Byte) acc, t.length + 1 ≤ f → Fine (parseContents f t acc) fun p => p.2.length ≤ t.length) := by
  induction f with
  | zero => exact ⟨fun t h => by omega, fun t _ h => by omega⟩
  | succ f ih =>
    constructor
    · intro t ht
      rw [parseNode]
      split
      · rename_i o e
        exact otherNode_fine e
      · split_ifs with hn
        · exact Fine.err
        · have hn' : 1 ≤ (t.takeWhile isName).length := by
            rcases e : t.takeWhile isName with _ | ⟨b, s⟩
            · rw [e] at hn; exact absurd rfl hn
            · simp
          have hl := take_drop_len isName t
          refine (attributes_fine _ _).bind fun a ha => ?_
          have h1 := dropWhile_le isWs (t.dropWhile isName)
          split
          · rename_i r e
            rw [e] at ha
            simp only [List.length_cons] at ha
            refine (ih.2 r _ (by omega)).bind fun p hp => ?_
            show p.2.length ≤ _
            omega
          · rename_i r e
            rw [e] at ha
            simp only [List.length_cons] at ha
            show r.length ≤ _
            omega
          · exact Fine.err
    · intro t acc ht
      cases t with
      | nil => exact Fine.err
      | cons b r =>
        simp only [List.length_cons] at ht
        rw [parseContents]
        split_ifs with hb hc
        · refine (closing_fine _).bind fun s hs => ?_
          have : r.tail.length ≤ r.length := by rw [List.length_tail]; omega
          show s.length ≤ (b :: r).length
          simp only [List.length_cons]; omega
        · refine (ih.1 r (by omega)).bind fun p hp => ?_
          refine (ih.2 p.2 _ (by omega)).imp fun q hq => ?_
          simp only [List.length_cons]; omega
        · have hs : (b == 60#8) = false := by simpa using hb
          refine (expand_step (stop := (· == 60#8)) hs r.length r).bind fun p hp => ?_
          refine (ih.2 p.2 _ (by omega)).imp fun q hq => ?_
          simp only [List.length_cons]; omega

theorem parseNodes_fine (f : Nat) (t : List Byte) (acc : List Byte × List (List Byte × PTree)) (hf : t.length + 1 ≤ f) :
    Fine (parseNodes f t acc) fun _ => True := by
  induction f generalizing t acc with
  | zero => omega
  | succ f ih =>
    rw [parseNodes]
    split
    · trivial
    · rename_i b r e
      have h := dropWhile_le isWs t
      rw [e] at h
      simp only [List.length_cons] at h
      split_ifs
      · refine ((parse_fine f).1 r (by omega)).bind fun p hp => ih p.2 _ (by omega)
      · exact Fine.err

theorem readXml_fine (bytes : List Byte) : Fine (readXml bytes) fun _ => True := by
  unfold readXml
  dsimp only
  refine parseNodes_fine _ _ _ ?_
  unfold skipBom
  split_ifs
  · rw [List.length_drop]; omega
  · omega

theorem get_fine {α : Type} (tr : List Byte → Option α) (p : List (List Byte)) (t : PTree) :
    Fine (get tr p t) fun _ => True := by
  unfold get
  split
  · exact Fine.err
  · split
    · exact Fine.err
    · trivial

theorem readRange_fine (dbl : List Byte → Bool) (v : PTree) : Fine (readRange dbl v) fun _ => True := by
  unfold readRange
  split
  · trivial
  · split_ifs
    · split
      · trivial
      · split_ifs
        · trivial
        · exact Fine.err
    · exact Fine.err

theorem make_fine (n : String) (b : Nat) : Fine (Dim.make n b) fun d => d = { name := n, bitSize := b } := by
  unfold Dim.make
  split_ifs
  · exact Fine.err
  · rfl

theorem loadDim_fine (dbl : List Byte → Bool) (v : PTree) : Fine (loadDim dbl v) fun _ => True := by
  unfold loadDim
  refine Fine.bind (get_fine _ _ _) fun _ _ => ?_
  refine Fine.bind (get_fine _ _ _) fun _ _ => ?_
  refine Fine.bind (get_fine _ _ _) fun _ _ => ?_
  refine Fine.bind (get_fine _ _ _) fun _ _ => ?_
  refine Fine.bind (get_fine _ _ _) fun _ _ => ?_
  refine Fine.bind (get_fine _ _ _) fun _ _ => ?_
  refine Fine.bind (get_fine _ _ _) fun _ _ => ?_
  refine Fine.bind (get_fine _ _ _) fun _ _ => ?_
  refine Fine.bind (readRange_fine _ _) fun _ _ => ?_
  refine Fine.bind (make_fine _ _) fun _ _ => ?_
  trivial

theorem loadDims_fine (dbl : List Byte → Bool) (m : IndexMap) (ks : List (List Byte × PTree)) :
    Fine (loadDims dbl m ks) fun _ => True := by
  induction ks generalizing m with
  | nil => trivial
  | cons p ks ih =>
    obtain ⟨k, v⟩ := p
    rw [loadDims]
    exact (loadDim_fine dbl v).bind fun d _ => ih _

theorem loadDimensions_fine (dbl : List Byte → Bool) (t : PTree) : Fine (loadDimensions dbl t) fun _ => True := by
  unfold loadDimensions
  refine Fine.bind (P := fun _ => True) ?_ fun _ _ => ?_
  · unfold getChild
    split
    · exact Fine.err
    · trivial
  refine Fine.bind (loadDims_fine _ _ _) fun _ _ => ?_
  refine Fine.bind (get_fine _ _ _) fun _ _ => ?_
  refine Fine.bind (get_fine _ _ _) fun _ _ => ?_
  refine Fine.bind (P := fun _ => True) ?_ fun _ _ => trivial
  generalize formatOf _ = f
  cases f <;> (first | exact trivial | rfl)

theorem parseSchema_fine (dbl : List Byte → Bool) (bytes : List Byte) : Fine (parseSchema dbl bytes) fun _ => True := by
  unfold parseSchema
  refine Fine.bind (readXml_fine _) fun _ _ => ?_
  refine Fine.bind (loadDimensions_fine _ _) fun _ _ => ?_
  trivial

end LibLAS.Xml
