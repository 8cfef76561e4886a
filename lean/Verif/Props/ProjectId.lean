import Verif.Lemmas.ProjectId
import Verif.Props.WriteRead
/-
C101: identifiers as text.
-/
namespace LibLAS.ProjectId
open CApi LibLAS.Spec

/-- A text is read as an identifier exactly if it is one of its texts (32 digits in either case, in groups 8-4-4-4-12 or not, in braces
or not), in older versions of Boost followed by anything; every other text is refused with a `std::runtime_error`. -/
theorem text_read_exactly (strict : Bool) (t : List Byte) :
    (∀ id, parse strict t = .ok id ↔ Accepted strict t id) ∧
    ((∀ id, ¬ Accepted strict t id) → parse strict t = .throw .runtimeError) := by
  refine ⟨parse_iff strict t, fun h => ?_⟩
  rcases parse_total strict t with ⟨id, hp⟩ | hp
  · exact absurd ((parse_iff strict t id).1 hp) (h id)
  · exact hp

/-- No text stands for two identifiers. -/
theorem text_unambiguous {strict : Bool} {t id id' : List Byte} (h : Accepted strict t id) (h' : Accepted strict t id') : id = id' := by
  have a := (parse_iff strict t id).2 h
  have c := (parse_iff strict t id').2 h'
  rw [a] at c
  exact (Outcome.ok.inj c)

/-- The text printed for an identifier is one of its texts, in groups, of 36 characters, and reading it gives the identifier. -/
theorem text_round_trip (strict : Bool) {id : List Byte} (h : id.length = 16) :
    IsText (print id) id ∧ (print id).length = 36 ∧ parse strict (print id) = .ok id := by
  have ht : IsText (print id) id := ⟨hexes id, spells_hexes id, h, .inr (.inl (print_eq h))⟩
  refine ⟨ht, ?_, (parse_iff strict _ _).2 ⟨print id, [], by simp, ht, fun _ => rfl⟩⟩
  match id, h with
  | [_, _, _, _, _, _, _, _, _, _, _, _, _, _, _, _], _ => rfl

/-- Different identifiers have different texts. -/
theorem text_distinguishes {id id' : List Byte} (h : id.length = 16) (h' : id'.length = 16) : print id = print id' ↔ id = id' := by
  refine ⟨fun e => ?_, fun e => by rw [e]⟩
  have a := (text_round_trip true h).2.2
  rw [e, (text_round_trip true h').2.2] at a
  exact (Outcome.ok.inj a).symm

/-- The characters of a printed identifier: none is NUL, so C sees all of them. -/
theorem print_cstr {id : List Byte} (h : id.length = 16) : cstr (print id) = print id := by
  have hz : ∀ n < 16, hexDigit n ≠ 0#8 := by decide +kernel
  have hx : ∀ (x : Byte), hexDigit (x.toNat / 16) ≠ 0#8 := fun x => hz _ (by have := x.isLt; omega)
  have hy : ∀ (x : Byte), hexDigit (x.toNat % 16) ≠ 0#8 := fun x => hz _ (by omega)
  have key : ∀ (l : List Byte) (i : Nat), ∀ c ∈ printFrom i l, c ≠ 0#8 := by
    intro l
    induction l with
    | nil => intro i c hc; cases hc
    | cons x xs ih =>
      intro i c hc
      simp only [printFrom, List.mem_cons, List.mem_append] at hc
      rcases hc with rfl | rfl | hc | hc
      · exact hx x
      · exact hy x
      · split at hc
        · simp only [List.mem_singleton] at hc
          subst hc
          decide
        · cases hc
      · exact ih _ c hc
  have tw : ∀ l : List Byte, (∀ c ∈ l, c ≠ 0#8) → cstr l = l := by
    intro l
    unfold cstr
    induction l with
    | nil => intro _; rfl
    | cons c cs ih =>
      intro hl
      have hc := hl c (by simp)
      have := ih fun x hx => hl x (by simp [hx])
      simp [List.takeWhile_cons, hc, this]
  exact tw _ (key id 0)

/-- `LASHeader_SetProjectId` on a header: with a text of an identifier the header has that identifier, everything else in it stays, and
`LASHeader_GetProjectId` and `LASHeader_GetGUID` return it; with any other text it returns `LE_Failure`, the header stays as it was and
exactly one error is added. -/
theorem set_project_id_partial (strict : Bool) (what : Exc → List Byte) (st : Errors) (h : Header) (t : List Byte) :
    (∀ id, Accepted strict (cstr t) id →
      setProjectId strict what st (some (some h)) (some t) = .ok (.none, some (some { h with guid := id }), st) ∧
      getProjectId st (some (some { h with guid := id })) = .ok (some (print id), st) ∧
      getGUID st (some (some { h with guid := id })) = .ok (some id, st)) ∧
    ((∀ id, ¬ Accepted strict (cstr t) id) →
      ∃ e, setProjectId strict what st (some (some h)) (some t) = .ok (.failure, some (some h), e :: st) ∧ e.code = Code.failure.num) := by
  constructor
  · intro id ha
    rw [← parse_iff] at ha
    refine ⟨?_, rfl, rfl⟩
    simp [setProjectId, ha]
  · intro hn
    have := (text_read_exactly strict (cstr t)).2 hn
    exact ⟨⟨Code.failure.num, cstr (what .runtimeError), cstr (lit "LASHeader_SetGUID")⟩, by
      simp only [setProjectId, this, caught, pushError], rfl⟩

/-- The text of one header's identifier, given to another header, gives it the same identifier. -/
theorem project_id_copied (strict : Bool) (what : Exc → List Byte) (st : Errors) (h g : Header) (hg : h.guid.length = 16) :
    ∃ t, getProjectId st (some (some h)) = .ok (some t, st) ∧
      setProjectId strict what st (some (some g)) (some t) = .ok (.none, some (some { g with guid := h.guid }), st) := by
  refine ⟨print h.guid, rfl, ((set_project_id_partial strict what st g _).1 h.guid ?_).1⟩
  rw [print_cstr hg, ← parse_iff]
  exact (text_round_trip strict hg).2.2

/-- Identifier handles: from the text of an identifier `LASGuid_CreateFromString` makes it, and `LASGuid_AsString` returns its printed
text; `LASGuid_Equals` returns 1 for equal identifiers and 0 for others. -/
theorem guid_handles (strict : Bool) (what : Exc → List Byte) (st : Errors) :
    (∀ t id, Accepted strict (cstr t) id → createFromString strict what st (some t) = .ok (some id, st) ∧
      asString st (some id) = (some (print id), st)) ∧
    (∀ t, (∀ id, ¬ Accepted strict (cstr t) id) → ∃ e, createFromString strict what st (some t) = .ok (none, e :: st)) ∧
    (∀ a c : List Byte, equalsGUID st (some a) (some c) = (1, st) ↔ a = c) ∧
    (∀ a c : List Byte, equalsGUID st (some a) (some c) = (0, st) ↔ a ≠ c) := by
  refine ⟨fun t id ha => ⟨?_, rfl⟩, fun t hn => ?_, fun a c => ?_, fun a c => ?_⟩
  · rw [← parse_iff] at ha
    simp [createFromString, ha]
  · have := (text_read_exactly strict (cstr t)).2 hn
    exact ⟨⟨Code.failure.num, cstr (what .runtimeError), cstr (lit "LASGuid_CreateFromString")⟩, by
      simp only [createFromString, this, caught, pushError]⟩
  · by_cases h : a = c <;> simp [equalsGUID, h]
  · by_cases h : a = c <;> simp [equalsGUID, h]

/-- `LASHeader_SetGUID` gives the header the identifier, whatever made it, changes nothing else in it, adds no error, and
`LASHeader_GetGUID` and `LASHeader_GetProjectId` return it. -/
theorem guid_given (st : Errors) (h : Header) (id : List Byte) :
    ∃ h', setGUID st (some (some h)) (some id) = .ok (.none, some (some h'), st) ∧ { h' with guid := h.guid } = h ∧
      getGUID st (some (some h')) = .ok (some id, st) ∧ getProjectId st (some (some h')) = .ok (some (print id), st) :=
  ⟨{ h with guid := id }, rfl, rfl, rfl, rfl⟩

/-- Refuted: a missing identifier is reported equal to every identifier (the result is not zero). -/
theorem null_equals_everything (st : Errors) (c : Option (List Byte)) : (equalsGUID st none c).1 ≠ 0 ∧ (equalsGUID st c none).1 ≠ 0 := by
  cases c <;> exact ⟨show Code.failure.num ≠ 0 by decide, show Code.failure.num ≠ 0 by decide⟩

/-- Refuted: NULL for the text or the identifier of a header is undefined behaviour, not a failure. -/
theorem null_text_undefined (strict : Bool) (what : Exc → List Byte) (st : Errors) (h : Header) :
    setProjectId strict what st (some (some h)) none = .ub ∧ setGUID st (some (some h)) none = .ub := ⟨rfl, rfl⟩

/-- Refuted: a new identifier is not random: it is what the memory held before, twice the same if the memory is. -/
theorem new_guid_is_memory (m : List Byte) : createGUID m = m := rfl

/-- Refuted for the older versions of Boost: a text with anything behind the identifier is taken. -/
theorem trailing_accepted {t id rest : List Byte} (h : IsText t id) : parse false (t ++ rest) = .ok id :=
  (parse_iff false _ _).2 ⟨t, rest, rfl, h, by simp⟩

theorem mixedEndian_eq {id : List Byte} (h : id.length = 16) : mixedEndian id = swapped id := by
  match id, h with
  | [_, _, _, _, _, _, _, _, _, _, _, _, _, _, _, _], _ => rfl

/-- Through a file: a header with this identifier, written with any points, is read with the identifier whose first three groups have
their bytes in the opposite order; so its text is the same only if these are palindromes. -/
theorem project_id_through_file (env : Env) (today : BitVec 16 × BitVec 16) {h : Header} {w w' : Writer} {r : Reader}
    (hs : StorableHeader h) (hmk : Writer.make env (OStream.onFile []) h = .ok w)
    (hsmall : h.headerSize.toNat + recordBytes w.hdr.vlrs + 4 < 2 ^ 31)
    (hschema : NoSchema env w.hdr.vlrs) (h0 : 0 < h.dataRecordLength)
    (pts : List (List Byte)) (hp : ∀ p ∈ pts, h.dataRecordLength ≤ p.length) (hn : pts.length < 2 ^ 32)
    (hwr : w.writePoints pts = .ok w') (hr : Reader.make env today (IStream.onFile w'.close.buf) = .ok r) (st : Errors) :
    getProjectId st (some (some r.hdr)) = .ok (some (print (swapped h.guid)), st) ∧
    (print (swapped h.guid) = print h.guid ↔ swapped h.guid = h.guid) ∧ swapped (swapped h.guid) = h.guid := by
  have hg := header_round_trip_partial env today hs hmk hsmall hschema h0 pts hp hn hwr hr
  obtain ⟨-, -, -, -, -, -, -, -, -, -, -, -, -, -, -, -, -, -, -, -, hg, -⟩ := hg
  have hl := hs.guid
  rw [mixedEndian_eq hl] at hg
  refine ⟨by rw [getProjectId, hg], text_distinguishes ?_ hl, ?_⟩
  · revert hl
    generalize h.guid = g
    intro hl
    match g, hl with
    | [_, _, _, _, _, _, _, _, _, _, _, _, _, _, _, _], _ => rfl
  · revert hl
    generalize h.guid = g
    intro hl
    match g, hl with
    | [_, _, _, _, _, _, _, _, _, _, _, _, _, _, _, _], _ => rfl

/-! Cases -/

def sampleId : List Byte := [0x83, 0x88, 0xF1, 0xB8, 0xAA, 0x1B, 0x41, 0x08, 0xBC, 0xA3, 0x6B, 0xC6, 0x8E, 0x7B, 0x06, 0x2E]

/-- The example of include/liblas/capi/liblas.h:1011 in capitals; printed in small letters. -/
example : parse true (lit "8388F1B8-AA1B-4108-BCA3-6BC68E7B062E") = .ok sampleId ∧
    print sampleId = lit "8388f1b8-aa1b-4108-bca3-6bc68e7b062e" ∧
    parse true (lit "{8388F1B8AA1B4108BCA36BC68E7B062e}") = .ok sampleId ∧
    parse true (lit "8388F1B8-AA1B4108-BCA3-6BC68E7B062E") = .throw .runtimeError ∧
    swapped sampleId = [0xB8, 0xF1, 0x88, 0x83, 0x1B, 0xAA, 0x08, 0x41, 0xBC, 0xA3, 0x6B, 0xC6, 0x8E, 0x7B, 0x06, 0x2E] := by decide +kernel

example : Accepted true (lit "8388F1B8-AA1B-4108-BCA3-6BC68E7B062E") sampleId :=
  (parse_iff true _ _).1 (by decide +kernel)

end LibLAS.ProjectId
