import Verif.Spec.Handles
import Verif.Props.CApi
import Verif.Props.SpatialRef
import Verif.Lemmas.NewFile
/-
C103. Handles of records, colours, coordinate systems, schemas and headers in C programs.
-/
namespace LibLAS.Handles
open CApi Spec Spec.Handles

theorem settle_ok {α : Type} {what : Exc → List Byte} {s s' : Heap} {a : Nat} {m : String} {w : α → Obj} {x : α × Outcome Unit} {r : Ret}
    (h : settle what s a m w x = .ok (r, s')) :
    ∃ errs, s' = s.put a (w x.1) errs ∧
      ((x.2 = .ok () ∧ r = .code .none ∧ errs = s.errs) ∨ (∃ e, x.2 = .throw e ∧ r = .code .failure ∧ errs = caught what s.errs m e)) := by
  obtain ⟨v, o⟩ := x
  unfold settle attempt at h
  cases o with
  | ok u =>
    simp only [Outcome.ok.injEq, Prod.mk.injEq] at h
    exact ⟨s.errs, h.2.symm, .inl ⟨rfl, h.1.symm, rfl⟩⟩
  | throw e =>
    simp only [Outcome.ok.injEq, Prod.mk.injEq] at h
    exact ⟨_, h.2.symm, .inr ⟨e, rfl, h.1.symm, rfl⟩⟩
  | ub => simp at h

theorem settle_none {α : Type} {what : Exc → List Byte} {s : Heap} {a : Nat} {m : String} {w : α → Obj} {x : α} :
    settle what s a m w (x, .ok ()) = .ok (.code .none, s.put a (w x) s.errs) := rfl

theorem deref_ok {s : Heap} {a : Nat} {o : Obj} : s.deref a = .ok o ↔ s.objs[a]? = some (some o) := by
  unfold Heap.deref
  split
  · next o' h => rw [h]; simp [eq_comm]
  · next h => constructor
              · intro e; cases e
              · intro e; exact absurd e (h o)

theorem recordAt_ok {s : Heap} {a : Nat} {v : VLR} : s.recordAt a = .ok v ↔ s.objs[a]? = some (some (.record v)) := by
  rw [← deref_ok]; unfold Heap.recordAt; split
  · next v' h => rw [h]; simp
  · next h => exact ⟨fun e => (by cases e), fun e => absurd e (h v)⟩
theorem colorAt_ok {s : Heap} {a : Nat} {v : Color} : s.colorAt a = .ok v ↔ s.objs[a]? = some (some (.color v)) := by
  rw [← deref_ok]; unfold Heap.colorAt; split
  · next v' h => rw [h]; simp
  · next h => exact ⟨fun e => (by cases e), fun e => absurd e (h v)⟩
theorem referenceAt_ok {s : Heap} {a : Nat} {v : SRS} : s.referenceAt a = .ok v ↔ s.objs[a]? = some (some (.reference v)) := by
  rw [← deref_ok]; unfold Heap.referenceAt; split
  · next v' h => rw [h]; simp
  · next h => exact ⟨fun e => (by cases e), fun e => absurd e (h v)⟩
theorem schemaAt_ok {s : Heap} {a : Nat} {v : Schema} : s.schemaAt a = .ok v ↔ s.objs[a]? = some (some (.schema v)) := by
  rw [← deref_ok]; unfold Heap.schemaAt; split
  · next v' h => rw [h]; simp
  · next h => exact ⟨fun e => (by cases e), fun e => absurd e (h v)⟩
theorem headerAt_ok {s : Heap} {a : Nat} {v : Header} : s.headerAt a = .ok v ↔ s.objs[a]? = some (some (.header v)) := by
  rw [← deref_ok]; unfold Heap.headerAt; split
  · next v' h => rw [h]; simp
  · next h => exact ⟨fun e => (by cases e), fun e => absurd e (h v)⟩

theorem headerOf_ok {s : Heap} {h : Option Nat} {p : Nat × Header} :
    s.headerOf h = .ok p ↔ h = some p.1 ∧ s.objs[p.1]? = some (some (.header p.2)) := by
  cases h with
  | none => simp [Heap.headerOf]
  | some a =>
    unfold Heap.headerOf
    constructor
    · intro e
      obtain ⟨x, h1, h2⟩ := bind_eq_ok e
      rw [Outcome.pure_eq, Outcome.ok.injEq] at h2
      subst h2
      exact ⟨rfl, headerAt_ok.1 h1⟩
    · rintro ⟨e, h1⟩
      cases e
      dsimp only
      rw [headerAt_ok.2 h1]
      rfl

/-- What a call can do to the objects. -/
theorem call_objs {what : Exc → List Byte} {s s' : Heap} {c : Call} {r : Ret} (h : call what s c = .ok (r, s')) :
    s'.objs = s.objs ∨ (∃ o, s'.objs = s.objs ++ [some o] ∧ r = .handle (some s.objs.length)) ∨
      ∃ b o, target c = some b ∧ s'.objs = s.objs.set b o := by
  have hgive : ∀ {o : Obj}, give s o = .ok (r, s') → s'.objs = s.objs ++ [some o] ∧ r = .handle (some s.objs.length) := by
    intro o e
    simp only [give, Heap.make, Outcome.ok.injEq, Prod.mk.injEq] at e
    rw [← e.2, ← e.1]; exact ⟨rfl, rfl⟩
  have href : ∀ {p m : String}, refuse s p m = .ok (r, s') → s'.objs = s.objs := by
    intro p m e
    simp only [refuse, Outcome.ok.injEq, Prod.mk.injEq] at e
    rw [← e.2]
  have hset : ∀ {α : Type} {a : Nat} {m : String} {w : α → Obj} {x : α × Outcome Unit},
      settle what s a m w x = .ok (r, s') → ∃ o, s'.objs = s.objs.set a o := by
    intro α a m w x e
    obtain ⟨errs, h1, -⟩ := settle_ok e
    exact ⟨some (w x.1), by rw [h1]; rfl⟩
  cases c with
  | newRecord => exact .inr (.inl ⟨_, hgive h⟩)
  | newColor => exact .inr (.inl ⟨_, hgive h⟩)
  | newReference => exact .inr (.inl ⟨_, hgive h⟩)
  | newSchema f =>
    obtain ⟨x, -, h⟩ := bind_eq_ok h
    exact .inr (.inl ⟨_, hgive h⟩)
  | newHeader d y => exact .inr (.inl ⟨_, hgive h⟩)
  | destroy k p =>
    cases p with
    | none =>
      simp only [call, Outcome.ok.injEq, Prod.mk.injEq] at h
      left; rw [← h.2]
    | some a =>
      simp only [call] at h
      split at h
      · split at h
        · simp only [Outcome.ok.injEq, Prod.mk.injEq] at h
          right; right; exact ⟨a, none, rfl, by rw [← h.2]⟩
        · cases h
      · cases h
  | setRecord p x =>
    cases p with
    | none => exact .inl (href h)
    | some a =>
      obtain ⟨x, -, h⟩ := bind_eq_ok h
      obtain ⟨o, h⟩ := hset h
      exact .inr (.inr ⟨a, o, rfl, h⟩)
  | setColor p ch v =>
    cases p with
    | none => exact .inl (href h)
    | some a =>
      obtain ⟨x, -, h⟩ := bind_eq_ok h
      obtain ⟨o, h⟩ := hset h
      exact .inr (.inr ⟨a, o, rfl, h⟩)
  | setText p k t =>
    cases p with
    | none => exact .inl (href h)
    | some a =>
      cases t with
      | none => exact .inl (href h)
      | some t =>
        obtain ⟨x, -, h⟩ := bind_eq_ok h
        obtain ⟨o, h⟩ := hset h
        exact .inr (.inr ⟨a, o, rfl, h⟩)
  | addToReference p q =>
    cases p with
    | none => exact .inl (href h)
    | some a =>
      cases q with
      | none => exact .inl (href h)
      | some b =>
        obtain ⟨x, -, h⟩ := bind_eq_ok h
        obtain ⟨y, -, h⟩ := bind_eq_ok h
        obtain ⟨o, h⟩ := hset h
        exact .inr (.inr ⟨a, o, rfl, h⟩)
  | recordOfReference p i =>
    cases p with
    | none =>
      simp only [call, refuseHandle, Outcome.ok.injEq, Prod.mk.injEq] at h
      left; rw [← h.2]
    | some a =>
      replace h := bind_eq_ok h
      obtain ⟨x, -, h⟩ := h
      split at h
      · exact .inr (.inl ⟨_, hgive h⟩)
      · cases h
  | addToHeader p q =>
    replace h := bind_eq_ok h
    obtain ⟨⟨a, x⟩, h1, h⟩ := h
    obtain ⟨rfl, -⟩ := headerOf_ok.1 h1
    cases q with
    | none => exact .inl (href h)
    | some b =>
      obtain ⟨y, -, h⟩ := bind_eq_ok h
      obtain ⟨o, h⟩ := hset h
      exact .inr (.inr ⟨a, o, rfl, h⟩)
  | deleteFromHeader p i =>
    replace h := bind_eq_ok h
    obtain ⟨⟨a, x⟩, h1, h⟩ := h
    obtain ⟨rfl, -⟩ := headerOf_ok.1 h1
    obtain ⟨o, h⟩ := hset h
    exact .inr (.inr ⟨a, o, rfl, h⟩)
  | recordOfHeader p i =>
    replace h := bind_eq_ok h
    obtain ⟨⟨a, x⟩, h1, h⟩ := h
    dsimp only at h
    split at h
    · exact .inr (.inl ⟨_, hgive h⟩)
    · cases h
  | setReference p q =>
    replace h := bind_eq_ok h
    obtain ⟨⟨a, x⟩, h1, h⟩ := h
    obtain ⟨rfl, -⟩ := headerOf_ok.1 h1
    cases q with
    | none => exact .inl (href h)
    | some b =>
      obtain ⟨y, -, h⟩ := bind_eq_ok h
      obtain ⟨o, h⟩ := hset h
      exact .inr (.inr ⟨a, o, rfl, h⟩)
  | referenceOfHeader p =>
    replace h := bind_eq_ok h
    obtain ⟨⟨a, x⟩, h1, h⟩ := h
    exact .inr (.inl ⟨_, hgive h⟩)
  | setSchema p q =>
    replace h := bind_eq_ok h
    obtain ⟨⟨a, x⟩, h1, h⟩ := h
    obtain ⟨rfl, -⟩ := headerOf_ok.1 h1
    cases q with
    | none => exact .inl (href h)
    | some b =>
      obtain ⟨y, -, h⟩ := bind_eq_ok h
      obtain ⟨o, h⟩ := hset h
      exact .inr (.inr ⟨a, o, rfl, h⟩)
  | schemaOfHeader p =>
    replace h := bind_eq_ok h
    obtain ⟨⟨a, x⟩, h1, h⟩ := h
    exact .inr (.inl ⟨_, hgive h⟩)
  | setCompressed p v =>
    replace h := bind_eq_ok h
    obtain ⟨⟨a, x⟩, h1, h⟩ := h
    obtain ⟨rfl, -⟩ := headerOf_ok.1 h1
    obtain ⟨o, h⟩ := hset h
    exact .inr (.inr ⟨a, o, rfl, h⟩)

theorem call_frame {what : Exc → List Byte} {s s' : Heap} {c : Call} {r : Ret} (h : call what s c = .ok (r, s')) {a : Nat} {o : Obj}
    (ha : s.objs[a]? = some (some o)) (ht : target c ≠ some a) : s'.objs[a]? = some (some o) := by
  have hl : a < s.objs.length := (List.getElem?_eq_some_iff.1 ha).1
  rcases call_objs h with e | ⟨_, e, -⟩ | ⟨b, _, hb, e⟩
  · rw [e, ha]
  · rw [e, List.getElem?_append_left hl, ha]
  · rw [e, List.getElem?_set_ne (fun e => ht (by rw [hb, e])), ha]

theorem run_cons {what : Exc → List Byte} {s s' : Heap} {c : Call} {cs : List Call} {rs : List Ret}
    (h : run what s (c :: cs) = .ok (rs, s')) : ∃ r s1 rs', call what s c = .ok (r, s1) ∧ run what s1 cs = .ok (rs', s') ∧ rs = r :: rs' := by
  obtain ⟨⟨r, s1⟩, h1, h⟩ := bind_eq_ok h
  obtain ⟨⟨rs', s2⟩, h2, h⟩ := bind_eq_ok h
  dsimp only at h
  rw [Outcome.pure_eq, Outcome.ok.injEq, Prod.mk.injEq] at h
  obtain ⟨rfl, rfl⟩ := h
  exact ⟨r, s1, rs', h1, h2, rfl⟩

/-- C103, independence: whatever a program does through other handles, including destroying them, leaves the object of a handle
as it is. Records, references and schemas given to a header, or taken from it, are copies. -/
theorem others_do_not_matter {what : Exc → List Byte} : ∀ {cs : List Call} {s s' : Heap} {rs : List Ret}, run what s cs = .ok (rs, s') →
    ∀ {a : Nat} {o : Obj}, s.deref a = .ok o → (∀ c ∈ cs, target c ≠ some a) → s'.deref a = .ok o := by
  intro cs
  induction cs with
  | nil => intro s s' rs h a o ha _; cases h; exact ha
  | cons c cs ih =>
    intro s s' rs h a o ha ht
    obtain ⟨r, s1, rs', h1, h2, -⟩ := run_cons h
    exact ih h2 (deref_ok.2 (call_frame h1 (deref_ok.1 ha) (ht c List.mem_cons_self))) fun c hc => ht c (List.mem_cons_of_mem _ hc)
theorem put_get {s : Heap} {a : Nat} {o o' : Obj} {errs : Errors} (ha : s.objs[a]? = some (some o)) :
    (s.put a o' errs).objs[a]? = some (some o') := by
  have hl : a < s.objs.length := (List.getElem?_eq_some_iff.1 ha).1
  simp [Heap.put, hl]

/-- What a call does to the object of the handle it is for. -/
private def Step (c : Call) (o : Obj) (o' : Option Obj) : Prop :=
  match c with
  | .destroy _ _ => o' = none
  | .setRecord _ x => ∃ v, o = .record v ∧ o' = some (.record (x.run v).1) ∧ (x.run v).2 ≠ .ub
  | .setColor _ ch w => ∃ k, o = .color k ∧ o' = some (.color (setChannel k ch w))
  | .setText _ _ _ | .addToReference _ _ => o' = some o ∨ ∃ r r', o = .reference r ∧ o' = some (.reference r')
  | .setCompressed _ w => ∃ h, o = .header h ∧ o' = some (.header { h with compressed := w != 0 })
  | _ => o' = some o ∨ ∃ h h', o = .header h ∧ o' = some (.header h') ∧ h'.compressed = h.compressed

private theorem setSchema_compressed (h : Header) (s : Schema) : (h.setSchema s).1.compressed = h.compressed := by
  unfold Header.setSchema
  dsimp only
  repeat' split
  all_goals rfl

private theorem deleteVLR_compressed (h : Header) (i : BitVec 32) : (h.deleteVLR i).1.compressed = h.compressed := by
  unfold Header.deleteVLR
  split <;> rfl

private theorem call_on {what : Exc → List Byte} {s s' : Heap} {c : Call} {r : Ret} {a : Nat} {o : Obj} (h : call what s c = .ok (r, s'))
    (ha : s.objs[a]? = some (some o)) (ht : target c = some a) : ∃ o', s'.objs[a]? = some o' ∧ Step c o o' := by
  have href : ∀ {p m : String}, refuse s p m = .ok (r, s') → s'.objs[a]? = some (some o) := by
    intro p m e
    simp only [refuse, Outcome.ok.injEq, Prod.mk.injEq] at e
    rw [← e.2, ← ha]
  have hset : ∀ {α : Type} {m : String} {w : α → Obj} {x : α × Outcome Unit},
      settle what s a m w x = .ok (r, s') → s'.objs[a]? = some (some (w x.1)) ∧ x.2 ≠ .ub := by
    intro α m w x e
    obtain ⟨errs, rfl, h2⟩ := settle_ok e
    refine ⟨put_get ha, fun e => ?_⟩
    rcases h2 with ⟨h2, -⟩ | ⟨e', h2, -⟩ <;> rw [h2] at e <;> cases e
  cases c with
  | newRecord => cases ht
  | newColor => cases ht
  | newReference => cases ht
  | newSchema => cases ht
  | newHeader => cases ht
  | recordOfReference => cases ht
  | recordOfHeader => cases ht
  | referenceOfHeader => cases ht
  | schemaOfHeader => cases ht
  | destroy k p =>
    cases ht
    have hl : a < s.objs.length := (List.getElem?_eq_some_iff.1 ha).1
    simp only [call] at h
    split at h
    · split at h
      · simp only [Outcome.ok.injEq, Prod.mk.injEq] at h
        rw [← h.2]
        exact ⟨none, by simp [hl], rfl⟩
      · cases h
    · cases h
  | setRecord p x =>
    cases ht
    replace h := bind_eq_ok h
    obtain ⟨w, h1, h⟩ := h
    rw [recordAt_ok, ha] at h1
    cases h1
    exact ⟨_, (hset h).1, w, rfl, rfl, (hset h).2⟩
  | setColor p ch w =>
    cases ht
    replace h := bind_eq_ok h
    obtain ⟨w, h1, h⟩ := h
    rw [colorAt_ok, ha] at h1
    cases h1
    exact ⟨_, (hset h).1, w, rfl, rfl⟩
  | setText p k t =>
    cases ht
    cases t with
    | none => exact ⟨_, href h, .inl rfl⟩
    | some t =>
      replace h := bind_eq_ok h
      obtain ⟨w, h1, h⟩ := h
      rw [referenceAt_ok, ha] at h1
      cases h1
      exact ⟨_, (hset h).1, .inr ⟨w, _, rfl, rfl⟩⟩
  | addToReference p q =>
    cases ht
    cases q with
    | none => exact ⟨_, href h, .inl rfl⟩
    | some t =>
      replace h := bind_eq_ok h
      obtain ⟨w, h1, h⟩ := h
      rw [referenceAt_ok, ha] at h1
      cases h1
      replace h := bind_eq_ok h
      obtain ⟨y, -, h⟩ := h
      exact ⟨_, (hset h).1, .inr ⟨w, _, rfl, rfl⟩⟩
  | addToHeader p q =>
    cases ht
    replace h := bind_eq_ok h
    obtain ⟨⟨b, x⟩, h1, h⟩ := h
    obtain ⟨e, h2⟩ := headerOf_ok.1 h1
    cases e
    rw [ha] at h2
    cases h2
    cases q with
    | none => exact ⟨_, href h, .inl rfl⟩
    | some t =>
      replace h := bind_eq_ok h
      obtain ⟨y, -, h⟩ := h
      exact ⟨_, (hset h).1, .inr ⟨x, _, rfl, rfl, rfl⟩⟩
  | deleteFromHeader p i =>
    cases ht
    replace h := bind_eq_ok h
    obtain ⟨⟨b, x⟩, h1, h⟩ := h
    obtain ⟨e, h2⟩ := headerOf_ok.1 h1
    cases e
    rw [ha] at h2
    cases h2
    exact ⟨_, (hset h).1, .inr ⟨x, _, rfl, rfl, deleteVLR_compressed x i⟩⟩
  | setReference p q =>
    cases ht
    replace h := bind_eq_ok h
    obtain ⟨⟨b, x⟩, h1, h⟩ := h
    obtain ⟨e, h2⟩ := headerOf_ok.1 h1
    cases e
    rw [ha] at h2
    cases h2
    cases q with
    | none => exact ⟨_, href h, .inl rfl⟩
    | some t =>
      replace h := bind_eq_ok h
      obtain ⟨y, -, h⟩ := h
      exact ⟨_, (hset h).1, .inr ⟨x, _, rfl, rfl, rfl⟩⟩
  | setSchema p q =>
    cases ht
    replace h := bind_eq_ok h
    obtain ⟨⟨b, x⟩, h1, h⟩ := h
    obtain ⟨e, h2⟩ := headerOf_ok.1 h1
    cases e
    rw [ha] at h2
    cases h2
    cases q with
    | none => exact ⟨_, href h, .inl rfl⟩
    | some t =>
      replace h := bind_eq_ok h
      obtain ⟨y, -, h⟩ := h
      exact ⟨_, (hset h).1, .inr ⟨x, _, rfl, rfl, setSchema_compressed x y⟩⟩
  | setCompressed p v =>
    cases ht
    replace h := bind_eq_ok h
    obtain ⟨⟨b, x⟩, h1, h⟩ := h
    obtain ⟨e, h2⟩ := headerOf_ok.1 h1
    cases e
    rw [ha] at h2
    cases h2
    exact ⟨_, (hset h).1, x, rfl, rfl⟩

/-! Records -/

private theorem run_user (v : VLR) (x : RecordSet) :
    cstr (x.run v).1.userId = (newUserId x).getD (cstr v.userId) := by
  cases x with
  | userId t =>
    cases t with
    | none => rfl
    | some t =>
      simp only [RecordSet.run, VLR.setUserId, newUserId, fits, ← cstr_eq]
      by_cases h : (cstr t).length ≤ 16
      · rw [if_neg (by omega), if_pos h]
        simp only [cstr_padTo, cstr_cstr, Option.getD_some]
      · rw [if_pos (by omega), if_neg h]; rfl
  | description t =>
    cases t with
    | none => rfl
    | some t => simp only [RecordSet.run, VLR.setDescription]; split <;> rfl
  | data buf n => simp only [RecordSet.run]; split <;> rfl
  | _ => rfl

private theorem run_desc (v : VLR) (x : RecordSet) :
    cstr (x.run v).1.description = (newDescription x).getD (cstr v.description) := by
  cases x with
  | description t =>
    cases t with
    | none => rfl
    | some t =>
      simp only [RecordSet.run, VLR.setDescription, newDescription, fits, ← cstr_eq]
      by_cases h : (cstr t).length ≤ 32
      · rw [if_neg (by omega), if_pos h]
        simp only [cstr_padTo, cstr_cstr, Option.getD_some]
      · rw [if_pos (by omega), if_neg h]; rfl
  | userId t =>
    cases t with
    | none => rfl
    | some t => simp only [RecordSet.run, VLR.setUserId]; split <;> rfl
  | data buf n => simp only [RecordSet.run]; split <;> rfl
  | _ => rfl

private theorem run_rest (v : VLR) (x : RecordSet) (hu : (x.run v).2 ≠ .ub) :
    (x.run v).1.recordSize = (newLength x).getD v.recordSize ∧ (x.run v).1.recordId = (newId x).getD v.recordId ∧
    (x.run v).1.reserved = (newReserved x).getD v.reserved ∧ (x.run v).1.data = (newData x).getD v.data := by
  cases x with
  | description t =>
    cases t with
    | none => exact ⟨rfl, rfl, rfl, rfl⟩
    | some t => simp only [RecordSet.run, VLR.setDescription]; split <;> exact ⟨rfl, rfl, rfl, rfl⟩
  | userId t =>
    cases t with
    | none => exact ⟨rfl, rfl, rfl, rfl⟩
    | some t => simp only [RecordSet.run, VLR.setUserId]; split <;> exact ⟨rfl, rfl, rfl, rfl⟩
  | data buf n =>
    simp only [RecordSet.run] at hu ⊢
    split
    · exact ⟨rfl, rfl, rfl, rfl⟩
    · next h => rw [if_neg h] at hu; exact absurd rfl hu
  | _ => exact ⟨rfl, rfl, rfl, rfl⟩

private theorem record_history {what : Exc → List Byte} {a : Nat} : ∀ {cs : List Call} {s s' : Heap} {rs : List Ret} {v : VLR},
    run what s cs = .ok (rs, s') → s.objs[a]? = some (some (.record v)) → (∀ k, Call.destroy k (some a) ∉ cs) →
    ∃ w, s'.objs[a]? = some (some (.record w)) ∧
      cstr w.userId = lastOf newUserId (cstr v.userId) (recordCalls a cs) ∧
      cstr w.description = lastOf newDescription (cstr v.description) (recordCalls a cs) ∧
      w.recordSize = lastOf newLength v.recordSize (recordCalls a cs) ∧
      w.recordId = lastOf newId v.recordId (recordCalls a cs) ∧
      w.reserved = lastOf newReserved v.reserved (recordCalls a cs) ∧
      w.data = lastOf newData v.data (recordCalls a cs) := by
  intro cs
  induction cs with
  | nil => intro s s' rs v h ha _; cases h; exact ⟨v, ha, rfl, rfl, rfl, rfl, rfl, rfl⟩
  | cons c cs ih =>
    intro s s' rs v h ha hd
    obtain ⟨r, s1, rs', h1, h2, -⟩ := run_cons h
    have hd' : ∀ k, Call.destroy k (some a) ∉ cs := fun k hk => hd k (List.mem_cons_of_mem _ hk)
    have keep : s1.objs[a]? = some (some (.record v)) → (∀ x, c ≠ .setRecord (some a) x) → _ := fun e hx =>
      have hr : recordCalls a (c :: cs) = recordCalls a cs := by
        unfold recordCalls
        rw [List.filterMap_cons_none]
        cases c <;> try rfl
        next p x => exact if_neg fun e => hx x (by rw [e])
      hr ▸ ih h2 e hd'
    by_cases ht : target c = some a
    · obtain ⟨o', h3, h4⟩ := call_on h1 ha ht
      cases c with
      | setRecord p x =>
        cases ht
        obtain ⟨_, e, rfl, hu⟩ := h4
        cases e
        obtain ⟨w, hw, g1, g2, g3, g4, g5, g6⟩ := ih h2 h3 hd'
        have hr : recordCalls a (.setRecord (some a) x :: cs) = x :: recordCalls a cs := by simp [recordCalls]
        obtain ⟨e1, e2, e3, e4⟩ := run_rest v x hu
        rw [hr]
        refine ⟨w, hw, ?_, ?_, ?_, ?_, ?_, ?_⟩
        · rw [g1, run_user]; rfl
        · rw [g2, run_desc]; rfl
        · rw [g3, e1]; rfl
        · rw [g4, e2]; rfl
        · rw [g5, e3]; rfl
        · rw [g6, e4]; rfl
      | destroy k p => cases ht; exact absurd List.mem_cons_self (hd k)
      | setColor => obtain ⟨_, e, _⟩ := h4; cases e
      | setCompressed => obtain ⟨_, e, _⟩ := h4; cases e
      | setText =>
        rcases h4 with rfl | ⟨_, _, e, _⟩
        · exact keep h3 (by simp)
        · cases e
      | addToReference =>
        rcases h4 with rfl | ⟨_, _, e, _⟩
        · exact keep h3 (by simp)
        · cases e
      | addToHeader =>
        rcases h4 with rfl | ⟨_, _, e, _⟩
        · exact keep h3 (by simp)
        · cases e
      | deleteFromHeader =>
        rcases h4 with rfl | ⟨_, _, e, _⟩
        · exact keep h3 (by simp)
        · cases e
      | setReference =>
        rcases h4 with rfl | ⟨_, _, e, _⟩
        · exact keep h3 (by simp)
        · cases e
      | setSchema =>
        rcases h4 with rfl | ⟨_, _, e, _⟩
        · exact keep h3 (by simp)
        · cases e
      | newRecord => cases ht
      | newColor => cases ht
      | newReference => cases ht
      | newSchema => cases ht
      | newHeader => cases ht
      | recordOfReference => cases ht
      | recordOfHeader => cases ht
      | referenceOfHeader => cases ht
      | schemaOfHeader => cases ht
    · exact keep (call_frame h1 ha ht) fun x e => ht (by rw [e]; rfl)

private theorem user_shown (v : VLR) : cstr (v.getUserId true) = cstr v.userId := by
  unfold VLR.getUserId
  dsimp only
  split
  · rw [cstr_padTo, cstr_cstr]
  · rw [cstr_cstr]

private theorem desc_shown (v : VLR) : cstr (v.getDescription true) = cstr v.description := by
  unfold VLR.getDescription
  dsimp only
  split
  · rw [cstr_padTo, cstr_cstr]
  · rw [cstr_cstr]

private theorem new_object {what : Exc → List Byte} {s s' : Heap} {o : Obj} {a : Nat} {c : Call} {cs : List Call} {rs : List Ret}
    (hc : call what s c = give s o) (h : run what s (c :: cs) = .ok (.handle (some a) :: rs, s')) :
    ∃ s1, s1.objs[a]? = some (some o) ∧ run what s1 cs = .ok (rs, s') := by
  obtain ⟨r, s1, rs', h1, h2, e⟩ := run_cons h
  cases e
  rw [hc] at h1
  simp only [give, Heap.make, Outcome.ok.injEq, Prod.mk.injEq] at h1
  obtain ⟨e1, rfl⟩ := h1
  cases e1
  exact ⟨_, by simp, h2⟩

/-- C103, records: a record that a program makes shows, whatever the program does in between with this handle and others, the
last text, length, number, reserved value and data that were given it; too long texts are as if they had not been given.
`LASVLR_GetData` is defined exactly if the length it was told last is not more than the data it has, of which a new record has
40 zero bytes. -/
theorem record_shows_last {what : Exc → List Byte} {s s' : Heap} {a : Nat} {cs : List Call} {rs : List Ret}
    (h : run what s (.newRecord :: cs) = .ok (.handle (some a) :: rs, s')) (hd : ∀ k, Call.destroy k (some a) ∉ cs) :
    userId s' (some a) = .ok (some (lastOf newUserId [] (recordCalls a cs)), s'.errs) ∧
    description s' (some a) = .ok (some (lastOf newDescription [] (recordCalls a cs)), s'.errs) ∧
    recordLength s' (some a) = .ok (lastOf newLength 0 (recordCalls a cs), s'.errs) ∧
    recordId s' (some a) = .ok (lastOf newId 0 (recordCalls a cs), s'.errs) ∧
    reserved s' (some a) = .ok (lastOf newReserved 0xAABB (recordCalls a cs), s'.errs) ∧
    ∀ room, recordData s' room (some a) =
      let n := (lastOf newLength 0 (recordCalls a cs)).toNat
      let d := lastOf newData (List.replicate 40 0) (recordCalls a cs)
      if n ≤ d.length ∧ n ≤ room then .ok (.none, d.take n, s'.errs) else .ub := by
  obtain ⟨s1, h1, h2⟩ := new_object rfl h
  obtain ⟨w, hw, g1, g2, g3, g4, g5, g6⟩ := record_history h2 h1 hd
  have e : s'.recordAt a = .ok w := recordAt_ok.2 hw
  have d1 : cstr VLR.new.userId = [] := by decide +kernel
  have d2 : cstr VLR.new.description = [] := by decide +kernel
  rw [d1] at g1
  rw [d2] at g2
  refine ⟨?_, ?_, ?_, ?_, ?_, fun room => ?_⟩
  · simp only [userId, e, Outcome.bind_ok, Outcome.pure_eq, user_shown, g1]
  · simp only [description, e, Outcome.bind_ok, Outcome.pure_eq, desc_shown, g2]
  · simp only [recordLength, e, Outcome.bind_ok, Outcome.pure_eq, g3]; rfl
  · simp only [recordId, e, Outcome.bind_ok, Outcome.pure_eq, g4]; rfl
  · simp only [reserved, e, Outcome.bind_ok, Outcome.pure_eq, g5]; rfl
  · simp only [recordData, e, Outcome.bind_ok, vlrGetData, g3, g6]; rfl

/-! Colours and headers -/

private theorem color_history {what : Exc → List Byte} {a : Nat} (ch : Channel) : ∀ {cs : List Call} {s s' : Heap} {rs : List Ret} {v : Color},
    run what s cs = .ok (rs, s') → s.objs[a]? = some (some (.color v)) → (∀ k, Call.destroy k (some a) ∉ cs) →
    ∃ w, s'.objs[a]? = some (some (.color w)) ∧ getChannel w ch = lastOf some (getChannel v ch) (colorCalls a ch cs) := by
  intro cs
  induction cs with
  | nil => intro s s' rs v h ha _; cases h; exact ⟨v, ha, rfl⟩
  | cons c cs ih =>
    intro s s' rs v h ha hd
    obtain ⟨r, s1, rs', h1, h2, -⟩ := run_cons h
    have hd' : ∀ k, Call.destroy k (some a) ∉ cs := fun k hk => hd k (List.mem_cons_of_mem _ hk)
    have keep : s1.objs[a]? = some (some (.color v)) → (∀ k x, c ≠ .setColor (some a) k x) → _ := fun e hx =>
      have hr : colorCalls a ch (c :: cs) = colorCalls a ch cs := by
        unfold colorCalls
        rw [List.filterMap_cons_none]
        cases c <;> try rfl
        next p k x => exact if_neg fun e => hx k x (by rw [e.1])
      hr ▸ ih h2 e hd'
    by_cases ht : target c = some a
    · obtain ⟨o', h3, h4⟩ := call_on h1 ha ht
      cases c with
      | setColor p k x =>
        cases ht
        obtain ⟨_, e, rfl⟩ := h4
        cases e
        obtain ⟨w, hw, g⟩ := ih h2 h3 hd'
        refine ⟨w, hw, ?_⟩
        rw [g]
        by_cases hk : k = ch
        · subst hk
          have hr : colorCalls a k (.setColor (some a) k x :: cs) = x :: colorCalls a k cs := by simp [colorCalls]
          rw [hr]
          cases k <;> rfl
        · have hr : colorCalls a ch (.setColor (some a) k x :: cs) = colorCalls a ch cs := by simp [colorCalls, hk]
          rw [hr]
          cases k <;> cases ch <;> first | rfl | exact absurd rfl hk
      | destroy k p => cases ht; exact absurd List.mem_cons_self (hd k)
      | setRecord => obtain ⟨_, e, _⟩ := h4; cases e
      | setCompressed => obtain ⟨_, e, _⟩ := h4; cases e
      | setText =>
        rcases h4 with rfl | ⟨_, _, e, _⟩
        · exact keep h3 (by simp)
        · cases e
      | addToReference =>
        rcases h4 with rfl | ⟨_, _, e, _⟩
        · exact keep h3 (by simp)
        · cases e
      | addToHeader =>
        rcases h4 with rfl | ⟨_, _, e, _⟩
        · exact keep h3 (by simp)
        · cases e
      | deleteFromHeader =>
        rcases h4 with rfl | ⟨_, _, e, _⟩
        · exact keep h3 (by simp)
        · cases e
      | setReference =>
        rcases h4 with rfl | ⟨_, _, e, _⟩
        · exact keep h3 (by simp)
        · cases e
      | setSchema =>
        rcases h4 with rfl | ⟨_, _, e, _⟩
        · exact keep h3 (by simp)
        · cases e
      | newRecord => cases ht
      | newColor => cases ht
      | newReference => cases ht
      | newSchema => cases ht
      | newHeader => cases ht
      | recordOfReference => cases ht
      | recordOfHeader => cases ht
      | referenceOfHeader => cases ht
      | schemaOfHeader => cases ht
    · exact keep (call_frame h1 ha ht) fun k x e => ht (by rw [e]; rfl)

/-- C103, colours: each channel of a colour that a program makes is the last value it was given, 0 at first. -/
theorem color_shows_last {what : Exc → List Byte} {s s' : Heap} {a : Nat} {cs : List Call} {rs : List Ret}
    (h : run what s (.newColor :: cs) = .ok (.handle (some a) :: rs, s')) (hd : ∀ k, Call.destroy k (some a) ∉ cs) (ch : Channel) :
    channel s' ch (some a) = .ok (lastOf some 0 (colorCalls a ch cs), s'.errs) := by
  obtain ⟨s1, h1, h2⟩ := new_object rfl h
  obtain ⟨w, hw, g⟩ := color_history ch h2 h1 hd
  simp only [channel, colorAt_ok.2 hw, Outcome.bind_ok, Outcome.pure_eq, g]
  cases ch <;> rfl

private theorem header_history {what : Exc → List Byte} {a : Nat} : ∀ {cs : List Call} {s s' : Heap} {rs : List Ret} {v : Header},
    run what s cs = .ok (rs, s') → s.objs[a]? = some (some (.header v)) →
    ∃ w, s'.objs[a]? = some (some (.header w)) ∧ w.compressed = lastOf some v.compressed (compressedCalls a cs) := by
  intro cs
  induction cs with
  | nil => intro s s' rs v h ha; cases h; exact ⟨v, ha, rfl⟩
  | cons c cs ih =>
    intro s s' rs v h ha
    obtain ⟨r, s1, rs', h1, h2, -⟩ := run_cons h
    have keep : ∀ {v' : Header}, s1.objs[a]? = some (some (.header v')) → v'.compressed = v.compressed →
        (∀ x, c ≠ .setCompressed (some a) x) → ∃ w, s'.objs[a]? = some (some (.header w)) ∧
          w.compressed = lastOf some v.compressed (compressedCalls a (c :: cs)) := fun {v'} e hv hx =>
      have hr : compressedCalls a (c :: cs) = compressedCalls a cs := by
        unfold compressedCalls
        rw [List.filterMap_cons_none]
        cases c <;> try rfl
        next p x => exact if_neg fun e => hx x (by rw [e])
      by rw [hr, ← hv]; exact ih h2 e
    by_cases ht : target c = some a
    · obtain ⟨o', h3, h4⟩ := call_on h1 ha ht
      cases c with
      | setCompressed p x =>
        cases ht
        obtain ⟨_, e, rfl⟩ := h4
        cases e
        obtain ⟨w, hw, g⟩ := ih h2 h3
        have hr : compressedCalls a (.setCompressed (some a) x :: cs) = decide (x ≠ 0) :: compressedCalls a cs :=
          List.filterMap_cons_some (if_pos rfl)
        rw [hr]
        refine ⟨w, hw, ?_⟩
        rw [g]
        show lastOf some (x != 0) _ = lastOf some (decide (x ≠ 0)) _
        congr 1
        rw [Bool.eq_iff_iff, bne_iff_ne, decide_eq_true_iff]
      | destroy k p =>
        cases ht
        simp only [call, Heap.deref, ha] at h1
        simp [Obj.isKind] at h1
      | setRecord => obtain ⟨_, e, _⟩ := h4; cases e
      | setColor => obtain ⟨_, e, _⟩ := h4; cases e
      | setText =>
        rcases h4 with rfl | ⟨_, _, e, _⟩
        · exact keep h3 rfl (by simp)
        · cases e
      | addToReference =>
        rcases h4 with rfl | ⟨_, _, e, _⟩
        · exact keep h3 rfl (by simp)
        · cases e
      | addToHeader =>
        rcases h4 with rfl | ⟨_, _, e, rfl, hc⟩
        · exact keep h3 rfl (by simp)
        · cases e; exact keep h3 hc (by simp)
      | deleteFromHeader =>
        rcases h4 with rfl | ⟨_, _, e, rfl, hc⟩
        · exact keep h3 rfl (by simp)
        · cases e; exact keep h3 hc (by simp)
      | setReference =>
        rcases h4 with rfl | ⟨_, _, e, rfl, hc⟩
        · exact keep h3 rfl (by simp)
        · cases e; exact keep h3 hc (by simp)
      | setSchema =>
        rcases h4 with rfl | ⟨_, _, e, rfl, hc⟩
        · exact keep h3 rfl (by simp)
        · cases e; exact keep h3 hc (by simp)
      | newRecord => cases ht
      | newColor => cases ht
      | newReference => cases ht
      | newSchema => cases ht
      | newHeader => cases ht
      | recordOfReference => cases ht
      | recordOfHeader => cases ht
      | referenceOfHeader => cases ht
      | schemaOfHeader => cases ht
    · exact keep (call_frame h1 ha ht) rfl fun x e => ht (by rw [e]; rfl)

/-- C103, compression: a header says it is compressed exactly if the last `LASHeader_SetCompressed` for it was not 0. -/
theorem compressed_shows_last {what : Exc → List Byte} {s s' : Heap} {a : Nat} {d y : BitVec 16} {cs : List Call} {rs : List Ret}
    (h : run what s (.newHeader d y :: cs) = .ok (.handle (some a) :: rs, s')) :
    compressed s' (some a) = .ok (lastOf some false (compressedCalls a cs), s'.errs) := by
  obtain ⟨s1, h1, h2⟩ := new_object rfl h
  obtain ⟨w, hw, g⟩ := header_history h2 h1
  have e : s'.headerOf (some a) = .ok (a, w) := headerOf_ok.2 ⟨rfl, hw⟩
  simp only [compressed, e, Outcome.bind_ok, Outcome.pure_eq, g]
  rfl

/-! Copies -/

/-- C103, records of headers: a record added to a header is found there under its number as it was when it was added, whatever
happens to its own handle afterwards; the handle got from the header is another one, so changing it does not change the header
(`others_do_not_matter`). -/
theorem header_keeps_record {what : Exc → List Byte} {s s' : Heap} {a r : Nat} {x : Header} {v : VLR} {cs : List Call} {rs : List Ret}
    (hx : s.deref a = .ok (.header x)) (hv : s.deref r = .ok (.record v)) (hn : x.vlrs.length < 2 ^ 32)
    (h : run what s (.addToHeader (some a) (some r) :: cs) = .ok (rs, s')) (ht : ∀ c ∈ cs, target c ≠ some a) :
    ∃ k t, call what s' (.recordOfHeader (some a) (BitVec.ofNat 32 x.vlrs.length)) = .ok (.handle (some k), t) ∧
      t.deref k = .ok (.record v) ∧ (∀ b o, s'.deref b = .ok o → k ≠ b ∧ t.deref b = .ok o) ∧ rs.head? = some (.code .none) := by
  obtain ⟨q, s1, rs', h1, h2, rfl⟩ := run_cons h
  have e1 : s.headerOf (some a) = .ok (a, x) := headerOf_ok.2 ⟨rfl, deref_ok.1 hx⟩
  simp only [call, e1, Outcome.bind_ok, recordAt_ok.2 (deref_ok.1 hv), settle_none, Outcome.ok.injEq, Prod.mk.injEq] at h1
  obtain ⟨rfl, rfl⟩ := h1
  have h3 := others_do_not_matter h2 (a := a) (deref_ok.2 (put_get (deref_ok.1 hx))) ht
  have e2 : s'.headerOf (some a) = .ok (a, x.addVLR v) := headerOf_ok.2 ⟨rfl, deref_ok.1 h3⟩
  have e3 : (x.addVLR v).vlrs[(BitVec.ofNat 32 x.vlrs.length).toNat]? = some v := by
    rw [BitVec.toNat_ofNat, Nat.mod_eq_of_lt hn]
    simp [Header.addVLR]
  refine ⟨s'.objs.length, ⟨s'.objs ++ [some (.record v)], s'.errs⟩, ?_, ?_, ?_, rfl⟩
  · simp only [call, e2, Outcome.bind_ok, e3]; rfl
  · exact deref_ok.2 (by simp)
  · intro b o hb
    have hl := (List.getElem?_eq_some_iff.1 (deref_ok.1 hb)).1
    exact ⟨by omega, deref_ok.2 (by rw [List.getElem?_append_left hl]; exact deref_ok.1 hb)⟩

/-! What calls say -/

private theorem function_name (c : Call) : cstr (lit (functionOf c)) = lit (functionOf c) := by
  apply cstr_of_notin
  cases c with
  | destroy k _ => cases k <;> exact lit_no_nul (by simp only [functionOf]; decide +kernel)
  | setRecord _ x => cases x <;> exact lit_no_nul (by simp only [functionOf]; decide +kernel)
  | setColor _ ch _ => cases ch <;> exact lit_no_nul (by simp only [functionOf]; decide +kernel)
  | setText _ k _ => cases k <;> exact lit_no_nul (by simp only [functionOf]; decide +kernel)
  | _ => exact lit_no_nul (by simp only [functionOf]; decide +kernel)

private theorem set_same {l : List (Option Obj)} {a : Nat} {o : Obj} (h : l[a]? = some (some o)) : l.set a (some o) = l := by
  obtain ⟨hl, e⟩ := List.getElem?_eq_some_iff.1 h
  rw [← e, List.set_getElem_self]


private theorem record_kept {v : VLR} {x : RecordSet} {e : Exc} (h : (x.run v).2 = .throw e) : (x.run v).1 = v := by
  cases x with
  | userId t =>
    cases t with
    | none => rfl
    | some t =>
      simp only [RecordSet.run, VLR.setUserId] at h ⊢
      split
      · rfl
      · next hl => rw [if_neg hl] at h; cases h
  | description t =>
    cases t with
    | none => rfl
    | some t =>
      simp only [RecordSet.run, VLR.setDescription] at h ⊢
      split
      · rfl
      · next hl => rw [if_neg hl] at h; cases h
  | data buf n =>
    simp only [RecordSet.run] at h
    split at h <;> cases h
  | _ => cases h

/-- C103, reports: a call that returns either does what was asked and reports nothing, or says that it did not and reports exactly
one failure under its own name; then nothing is changed, unless it was a text or a schema. -/
theorem calls_report_partial {what : Exc → List Byte} {s s' : Heap} {c : Call} {r : Ret} (h : call what s c = .ok (r, s')) :
    (¬ Refused c r ∧ s'.errs = s.errs) ∨
    (Refused c r ∧ (∃ e, s'.errs = e :: s.errs ∧ FailureOf (functionOf c) e) ∧ (¬ Leaky c → s'.objs = s.objs)) := by
  have hname := function_name c
  have hgive : ∀ {o : Obj}, give s o = .ok (r, s') → ¬ Refused c r ∧ s'.errs = s.errs := by
    intro o e
    simp only [give, Heap.make, Outcome.ok.injEq, Prod.mk.injEq] at e
    rw [← e.2, ← e.1]
    exact ⟨(by rintro (h | h | ⟨h, _⟩) <;> cases h), rfl⟩
  have href : ∀ {p m : String}, m = functionOf c → refuse s p m = .ok (r, s') →
      Refused c r ∧ (∃ e, s'.errs = e :: s.errs ∧ FailureOf (functionOf c) e) ∧ (¬ Leaky c → s'.objs = s.objs) := by
    intro p m hm e
    simp only [refuse, Outcome.ok.injEq, Prod.mk.injEq] at e
    rw [← e.2, ← e.1]
    subst hm
    exact ⟨.inl rfl, ⟨_, rfl, rfl, hname⟩, fun _ => rfl⟩
  have hset : ∀ {α : Type} {a : Nat} {m : String} {w : α → Obj} {x : α × Outcome Unit}, m = functionOf c →
      settle what s a m w x = .ok (r, s') → (∀ e, x.2 = .throw e → ¬ Leaky c → s.objs[a]? = some (some (w x.1))) →
      (¬ Refused c r ∧ s'.errs = s.errs) ∨
      (Refused c r ∧ (∃ e, s'.errs = e :: s.errs ∧ FailureOf (functionOf c) e) ∧ (¬ Leaky c → s'.objs = s.objs)) := by
    intro α a m w x hm e hk
    obtain ⟨errs, rfl, ⟨-, rfl, rfl⟩ | ⟨e', h1, rfl, rfl⟩⟩ := settle_ok e
    · exact .inl ⟨(by rintro (h | h | ⟨h, _⟩) <;> cases h), rfl⟩
    · subst hm
      exact .inr ⟨.inl rfl, ⟨_, rfl, rfl, hname⟩, fun hl => set_same (hk e' h1 hl)⟩
  have hok : ∀ {α : Type} {a : Nat} {w : α → Obj} {v : α} (e : Exc), ((v, Outcome.ok ()) : α × Outcome Unit).2 = .throw e → ¬ Leaky c →
      s.objs[a]? = some (some (w v)) := by
    intro α a w v e h; cases h
  cases c with
  | newRecord => exact .inl (hgive h)
  | newColor => exact .inl (hgive h)
  | newReference => exact .inl (hgive h)
  | newSchema f =>
    replace h := bind_eq_ok h
    obtain ⟨x, -, h⟩ := h
    exact .inl (hgive h)
  | newHeader d y => exact .inl (hgive h)
  | destroy k p =>
    cases p with
    | none =>
      simp only [call, Outcome.ok.injEq, Prod.mk.injEq] at h
      right
      rw [← h.2, ← h.1]
      refine ⟨.inr (.inr ⟨rfl, k, rfl⟩), ⟨_, rfl, rfl, ?_⟩, fun _ => rfl⟩
      cases k <;> exact hname
    | some a =>
      left
      simp only [call] at h
      split at h
      · split at h
        · simp only [Outcome.ok.injEq, Prod.mk.injEq] at h
          rw [← h.2, ← h.1]
          exact ⟨(by rintro (h | h | ⟨_, k', h⟩) <;> cases h), rfl⟩
        · cases h
      · cases h
  | setRecord p x =>
    have hm : x.name = functionOf (.setRecord p x) := by cases x <;> rfl
    cases p with
    | none => exact .inr (href hm h)
    | some a =>
      replace h := bind_eq_ok h
      obtain ⟨v, h1, h⟩ := h
      exact hset hm h fun e he _ => by rw [record_kept he]; exact recordAt_ok.1 h1
  | setColor p ch v =>
    have hm : ch.setter = functionOf (.setColor p ch v) := by cases ch <;> rfl
    cases p with
    | none => exact .inr (href hm h)
    | some a =>
      replace h := bind_eq_ok h
      obtain ⟨x, -, h⟩ := h
      exact hset hm h hok
  | setText p k t =>
    have hm : k.name = functionOf (.setText p k t) := by cases k <;> rfl
    cases p with
    | none => exact .inr (href hm h)
    | some a =>
      cases t with
      | none => exact .inr (href hm h)
      | some t =>
        replace h := bind_eq_ok h
        obtain ⟨x, h1, h⟩ := h
        refine hset hm h fun e he hl => ?_
        cases k with
        | wkt => exact absurd trivial hl
        | proj4 => exact absurd trivial hl
        | userInput => exact referenceAt_ok.1 h1
  | addToReference p q =>
    cases p with
    | none => exact .inr (href rfl h)
    | some a =>
      cases q with
      | none => exact .inr (href rfl h)
      | some b =>
        replace h := bind_eq_ok h
        obtain ⟨x, -, h⟩ := h
        replace h := bind_eq_ok h
        obtain ⟨y, -, h⟩ := h
        exact hset rfl h hok
  | recordOfReference p i =>
    cases p with
    | none =>
      simp only [call, refuseHandle, Outcome.ok.injEq, Prod.mk.injEq] at h
      right
      rw [← h.2, ← h.1]
      exact ⟨.inr (.inl rfl), ⟨_, rfl, rfl, hname⟩, fun _ => rfl⟩
    | some a =>
      replace h := bind_eq_ok h
      obtain ⟨x, -, h⟩ := h
      split at h
      · exact .inl (hgive h)
      · cases h
  | addToHeader p q =>
    replace h := bind_eq_ok h
    obtain ⟨⟨a, x⟩, h1, h⟩ := h
    cases q with
    | none => exact .inr (href rfl h)
    | some b =>
      replace h := bind_eq_ok h
      obtain ⟨y, -, h⟩ := h
      exact hset rfl h hok
  | deleteFromHeader p i =>
    replace h := bind_eq_ok h
    obtain ⟨⟨a, x⟩, h1, h⟩ := h
    refine hset rfl h fun e he _ => ?_
    have : (x.deleteVLR i).1 = x := by
      unfold Header.deleteVLR at he ⊢
      split
      · rfl
      · next hi => rw [if_neg hi] at he; cases he
    rw [this]
    exact (headerOf_ok.1 h1).2
  | recordOfHeader p i =>
    replace h := bind_eq_ok h
    obtain ⟨⟨a, x⟩, h1, h⟩ := h
    dsimp only at h
    split at h
    · exact .inl (hgive h)
    · cases h
  | setReference p q =>
    replace h := bind_eq_ok h
    obtain ⟨⟨a, x⟩, h1, h⟩ := h
    cases q with
    | none => exact .inr (href rfl h)
    | some b =>
      replace h := bind_eq_ok h
      obtain ⟨y, -, h⟩ := h
      exact hset rfl h hok
  | referenceOfHeader p =>
    replace h := bind_eq_ok h
    obtain ⟨⟨a, x⟩, h1, h⟩ := h
    exact .inl (hgive h)
  | setSchema p q =>
    replace h := bind_eq_ok h
    obtain ⟨⟨a, x⟩, h1, h⟩ := h
    cases q with
    | none => exact .inr (href rfl h)
    | some b =>
      replace h := bind_eq_ok h
      obtain ⟨y, -, h⟩ := h
      exact hset rfl h fun e he hl => absurd trivial hl
  | schemaOfHeader p =>
    replace h := bind_eq_ok h
    obtain ⟨⟨a, x⟩, h1, h⟩ := h
    exact .inl (hgive h)
  | setCompressed p v =>
    replace h := bind_eq_ok h
    obtain ⟨⟨a, x⟩, h1, h⟩ := h
    exact hset rfl h hok


/-- C103, texts of references: a text that is not empty and short enough is taken: it is shown, and is the only record. -/
theorem reference_text {what : Exc → List Byte} {s : Heap} {a : Nat} {x : SRS} {t : List Byte} (hx : s.deref a = .ok (.reference x))
    (h0 : 0#8 ∉ t) (hne : t ≠ []) (hl : t.length < 65535) : ∃ s', call what s (.setText (some a) .wkt (some t)) = .ok (.code .none, s') ∧
      text s' "LASSRS_GetWKT" (some a) = .ok (some t, s'.errs) ∧ recordCount s' (some a) = .ok (1, s'.errs) ∧
      ∃ k u, call what s' (.recordOfReference (some a) 0) = .ok (.handle (some k), u) ∧ userId u (some k) = .ok (some (lit "liblas"), u.errs) ∧
        recordId u (some k) = .ok (2112, u.errs) ∧ recordData u (t.length + 1) (some k) = .ok (.none, t ++ [0], u.errs) := by
  have hc : cstr t = t := cstr_of_notin h0
  have hr : x.setWKT t = (⟨[SRS.wktRecord t], t⟩, .ok ()) := by
    simp only [SRS.setWKT, SRS.resetVLRs]
    rw [if_neg hne, hc, if_neg (by omega)]
  have e1 := referenceAt_ok.2 (deref_ok.1 hx)
  have e2 := referenceAt_ok.2 (put_get (o' := .reference ⟨[SRS.wktRecord t], t⟩) (errs := s.errs) (deref_ok.1 hx))
  let u := ((s.put a (.reference ⟨[SRS.wktRecord t], t⟩) s.errs).make (.record (SRS.wktRecord t))).2
  have e3 : u.recordAt (s.put a (.reference ⟨[SRS.wktRecord t], t⟩) s.errs).objs.length = .ok (SRS.wktRecord t) :=
    recordAt_ok.2 (by simp [u, Heap.make])
  refine ⟨s.put a (.reference ⟨[SRS.wktRecord t], t⟩) s.errs, ?_, ?_, ?_, (s.put a (.reference ⟨[SRS.wktRecord t], t⟩) s.errs).objs.length, u, ?_, ?_, ?_, ?_⟩
  · simp only [call, e1, Outcome.bind_ok, TextSet.run, hc, hr, settle_none]
  · simp only [text, e2, Outcome.bind_ok, Outcome.pure_eq, SRS.getWKT, hc]
  · simp only [recordCount, e2, Outcome.bind_ok, Outcome.pure_eq]; rfl
  · simp only [call, e2, Outcome.bind_ok]; rfl
  · have : cstr (SRS.wktRecord t).userId = lit "liblas" := by
      show cstr (padTo 16 (lit "liblas")) = _
      decide +kernel
    simp only [userId, e3, Outcome.bind_ok, Outcome.pure_eq, user_shown, this]
  · simp only [recordId, e3, Outcome.bind_ok, Outcome.pure_eq]; rfl
  · have h1 : (SRS.wktRecord t).recordSize.toNat = t.length + 1 := by
      simp only [SRS.wktRecord, hc, BitVec.toNat_ofNat]; omega
    have h2 : (SRS.wktRecord t).data = t ++ [0] := by simp only [SRS.wktRecord, hc]
    simp only [recordData, e3, Outcome.bind_ok, vlrGetData, h1, h2, List.length_append, List.length_singleton]
    rw [if_pos ⟨le_refl _, le_refl _⟩, List.take_of_length_le (by simp)]

/-- Refuted, C103: a text that is too long for a record (65535 characters or more) is refused with `LE_Failure`, but the reference
has it afterwards, and has lost its records. -/
theorem refused_text_stays {what : Exc → List Byte} {s : Heap} {a : Nat} {x : SRS} {t : List Byte} (hx : s.deref a = .ok (.reference x))
    (h0 : 0#8 ∉ t) (hl : 65535 ≤ t.length) : ∃ s', call what s (.setText (some a) .wkt (some t)) = .ok (.code .failure, s') ∧
      text s' "LASSRS_GetWKT" (some a) = .ok (some t, s'.errs) ∧ recordCount s' (some a) = .ok (0, s'.errs) := by
  have hc : cstr t = t := cstr_of_notin h0
  have hne : t ≠ [] := by intro e; subst e; simp at hl
  have hr : x.setWKT t = (⟨[], t⟩, .throw .runtimeError) := by
    simp only [SRS.setWKT, SRS.resetVLRs]
    rw [if_neg hne, hc, if_pos (by omega)]
  have e1 := referenceAt_ok.2 (deref_ok.1 hx)
  refine ⟨s.put a (.reference ⟨[], t⟩) (caught what s.errs "LASSRS_SetWKT" .runtimeError), ?_, ?_, ?_⟩
  · simp only [call, e1, Outcome.bind_ok, TextSet.run, hc, hr, settle, attempt, TextSet.name]
  · simp only [text, referenceAt_ok.2 (put_get (deref_ok.1 hx)), Outcome.bind_ok, Outcome.pure_eq, SRS.getWKT, hc]
  · simp only [recordCount, referenceAt_ok.2 (put_get (deref_ok.1 hx)), Outcome.bind_ok, Outcome.pure_eq]; rfl

/-- Refuted, C103: without GDAL, `LASSRS_SetProj4` says `LE_None`, sets nothing and discards the records of a reference made from
records. -/
theorem proj4_says_none {what : Exc → List Byte} {s : Heap} {a : Nat} {x : SRS} (hx : s.deref a = .ok (.reference x)) (hw : x.wkt = [])
    (t : List Byte) : ∃ s', call what s (.setText (some a) .proj4 (some t)) = .ok (.code .none, s') ∧ s'.errs = s.errs ∧
      recordCount s' (some a) = .ok (0, s'.errs) ∧ text s' "LASSRS_GetWKT" (some a) = .ok (some [], s'.errs) := by
  have e1 := referenceAt_ok.2 (deref_ok.1 hx)
  refine ⟨s.put a (.reference ⟨[], []⟩) s.errs, ?_, rfl, ?_, ?_⟩
  · simp only [call, e1, Outcome.bind_ok, TextSet.run, proj4_discards x _ hw]; rfl
  · simp only [recordCount, referenceAt_ok.2 (put_get (deref_ok.1 hx)), Outcome.bind_ok, Outcome.pure_eq]; rfl
  · simp only [text, referenceAt_ok.2 (put_get (deref_ok.1 hx)), Outcome.bind_ok, Outcome.pure_eq]; rfl

/-- Refuted, C103: a record number that is too large, a text that is NULL and a header handle that is NULL are undefined
behaviour, where other mistakes are refused. -/
theorem mistakes_undefined {what : Exc → List Byte} {s : Heap} {a : Nat} :
    (∀ x i, s.deref a = .ok (.reference x) → x.vlrs.length ≤ i.toNat → call what s (.recordOfReference (some a) i) = .ub) ∧
    (∀ x i, s.deref a = .ok (.header x) → x.vlrs.length ≤ i.toNat → call what s (.recordOfHeader (some a) i) = .ub) ∧
    (∀ v, s.deref a = .ok (.record v) → call what s (.setRecord (some a) (.userId none)) = .ub ∧
      call what s (.setRecord (some a) (.description none)) = .ub) ∧
    (∀ i v r, call what s (.addToHeader none r) = .ub ∧ call what s (.recordOfHeader none i) = .ub ∧
      call what s (.deleteFromHeader none i) = .ub ∧ call what s (.setReference none r) = .ub ∧
      call what s (.referenceOfHeader none) = .ub ∧ call what s (.setSchema none r) = .ub ∧
      call what s (.schemaOfHeader none) = .ub ∧ call what s (.setCompressed none v) = .ub) := by
  refine ⟨fun x i hx hi => ?_, fun x i hx hi => ?_, fun v hv => ⟨?_, ?_⟩, fun i v r => ⟨rfl, rfl, rfl, rfl, rfl, rfl, rfl, rfl⟩⟩
  · simp only [call, referenceAt_ok.2 (deref_ok.1 hx), Outcome.bind_ok, List.getElem?_eq_none hi]
  · have e : s.headerOf (some a) = .ok (a, x) := headerOf_ok.2 ⟨rfl, deref_ok.1 hx⟩
    simp only [call, e, Outcome.bind_ok, List.getElem?_eq_none hi]
  · simp only [call, recordAt_ok.2 (deref_ok.1 hv), Outcome.bind_ok]; rfl
  · simp only [call, recordAt_ok.2 (deref_ok.1 hv), Outcome.bind_ok]; rfl

/-- C103, references: `LASSRS_AddVLR` says `LE_None` for every record, but takes only those that describe a coordinate system, and
then gives them back, newest last, under their number. -/
theorem reference_keeps_record {what : Exc → List Byte} {s : Heap} {a r : Nat} {x : SRS} {v : VLR} (hx : s.deref a = .ok (.reference x))
    (hv : s.deref r = .ok (.record v)) (hn : x.vlrs.length + 1 < 2 ^ 32) :
    ∃ s', call what s (.addToReference (some a) (some r)) = .ok (.code .none, s') ∧ s'.errs = s.errs ∧
      (recordName v ∉ geoNames → s'.objs = s.objs) ∧
      (recordName v ∈ geoNames →
        recordCount s' (some a) = .ok (BitVec.ofNat 32 (x.vlrs.length + 1), s.errs) ∧
        ∃ k t, call what s' (.recordOfReference (some a) (BitVec.ofNat 32 x.vlrs.length)) = .ok (.handle (some k), t) ∧
          t.deref k = .ok (.record v)) := by
  have e1 := referenceAt_ok.2 (deref_ok.1 hx)
  have e2 := recordAt_ok.2 (deref_ok.1 hv)
  refine ⟨s.put a (.reference (x.addVLR v)) s.errs, ?_, rfl, ?_, ?_⟩
  · simp only [call, e1, e2, Outcome.bind_ok, settle_none]
  · intro hg
    have : v.isGeo = false := by
      rw [Bool.eq_false_iff]; intro h; exact hg ((isGeo_iff v).1 h)
    simp only [SRS.addVLR, this, Bool.false_eq_true, if_false, Heap.put]
    exact set_same (deref_ok.1 hx)
  · intro hg
    have : v.isGeo = true := (isGeo_iff v).2 hg
    have e3 := referenceAt_ok.2 (put_get (o' := .reference (x.addVLR v)) (errs := s.errs) (deref_ok.1 hx))
    have e4 : x.addVLR v = { x with vlrs := x.vlrs ++ [v] } := by simp [SRS.addVLR, this]
    have e5 : (x.addVLR v).vlrs[(BitVec.ofNat 32 x.vlrs.length).toNat]? = some v := by
      rw [BitVec.toNat_ofNat, Nat.mod_eq_of_lt (by omega), e4]
      simp
    refine ⟨?_, (s.put a (.reference (x.addVLR v)) s.errs).objs.length,
      ((s.put a (.reference (x.addVLR v)) s.errs).make (.record v)).2, ?_, ?_⟩
    · simp only [recordCount, e3, Outcome.bind_ok, Outcome.pure_eq]
      rw [e4]
      simp only [List.length_append, List.length_singleton]
      rfl
    · simp only [call, e3, Outcome.bind_ok, e5]; rfl
    · exact deref_ok.2 (by simp [Heap.make])

/-- C103, references of headers: the reference a header gives has the records of the one it was given, whatever happened to the
handles in between. -/
theorem header_keeps_reference {what : Exc → List Byte} {s s' : Heap} {a r : Nat} {h : Header} {x : SRS} {cs : List Call} {rs : List Ret}
    (hh : s.deref a = .ok (.header h)) (hx : s.deref r = .ok (.reference x)) (hr : Reference x)
    (hc : run what s (.setReference (some a) (some r) :: cs) = .ok (rs, s')) (ht : ∀ c ∈ cs, target c ≠ some a) :
    ∃ k t y, call what s' (.referenceOfHeader (some a)) = .ok (.handle (some k), t) ∧ t.deref k = .ok (.reference y) ∧
      y.vlrs = x.vlrs ∧ rs.head? = some (.code .none) := by
  obtain ⟨q, s1, rs', h1, h2, rfl⟩ := run_cons hc
  have e1 : s.headerOf (some a) = .ok (a, h) := headerOf_ok.2 ⟨rfl, deref_ok.1 hh⟩
  simp only [call, e1, Outcome.bind_ok, referenceAt_ok.2 (deref_ok.1 hx), settle_none, Outcome.ok.injEq, Prod.mk.injEq] at h1
  obtain ⟨rfl, rfl⟩ := h1
  have h3 := others_do_not_matter h2 (a := a) (deref_ok.2 (put_get (deref_ok.1 hh))) ht
  have e2 : s'.headerOf (some a) = .ok (a, h.setReference x) := headerOf_ok.2 ⟨rfl, deref_ok.1 h3⟩
  refine ⟨s'.objs.length, ⟨s'.objs ++ [some (.reference ⟨x.copy.vlrs, []⟩)], s'.errs⟩, ⟨x.copy.vlrs, []⟩, ?_, ?_, ?_, rfl⟩
  · simp only [call, e2, Outcome.bind_ok]; rfl
  · exact deref_ok.2 (by simp)
  · rw [hr.copy_eq]

private theorem setSchema_any (g h : Header) (S : Schema) :
    h.setSchema S = ({ h with schema := (g.setSchema S).1.schema }, (g.setSchema S).2) := by
  unfold Header.setSchema
  split
  · rfl
  · dsimp only
    split
    · rfl
    · split <;> rfl

/-- The sizes of the schema of a format, before and after it was given to a header. -/
private def sizesRight (f : PointFormat) : Bool :=
  match Schema.make f with
  | .ok S => S.byteSize == formatSize f && S.baseByteSize == formatSize f &&
      decide (((Header.new 0 0).setSchema S).2 = .ok ()) && ((Header.new 0 0).setSchema S).1.schema.byteSize == formatSize f
  | _ => false

private theorem sizes_right (f : PointFormat) (hf : f.std = true) : sizesRight f = true := by
  cases f <;> first | cases hf; done | decide +kernel

/-- C103, schemas: a schema made for a format has the record size of that format (`formatSize`), and so has the schema of a header
it was given to, whatever happened to the handles in between. -/
theorem schema_sizes {what : Exc → List Byte} {s : Heap} {f : PointFormat} (hf : f.std = true) :
    ∃ k t, call what s (.newSchema f) = .ok (.handle (some k), t) ∧ schemaSize t (some k) = .ok (BitVec.ofNat 32 (formatSize f), s.errs) ∧
      schemaBaseSize t (some k) = .ok (BitVec.ofNat 32 (formatSize f), s.errs) ∧
      ∀ {a : Nat} {h : Header}, t.deref a = .ok (.header h) →
        ∀ {cs : List Call} {rs : List Ret} {u : Heap}, run what t (.setSchema (some a) (some k) :: cs) = .ok (rs, u) →
        (∀ c ∈ cs, target c ≠ some a) → ∃ m w, call what u (.schemaOfHeader (some a)) = .ok (.handle (some m), w) ∧
          schemaSize w (some m) = .ok (BitVec.ofNat 32 (formatSize f), u.errs) ∧ rs.head? = some (.code .none) := by
  have hs := sizes_right f hf
  unfold sizesRight at hs
  split at hs
  · next S hS =>
    simp only [Bool.and_eq_true, beq_iff_eq, decide_eq_true_iff] at hs
    obtain ⟨⟨⟨h1, h2⟩, h3⟩, h4⟩ := hs
    have e0 : (⟨s.objs ++ [some (.schema S)], s.errs⟩ : Heap).schemaAt s.objs.length = .ok S := schemaAt_ok.2 (by simp)
    refine ⟨s.objs.length, ⟨s.objs ++ [some (.schema S)], s.errs⟩, ?_, ?_, ?_, ?_⟩
    · simp only [call, hS, Outcome.bind_ok]; rfl
    · simp only [schemaSize, e0, Outcome.bind_ok, Outcome.pure_eq, h1]
    · simp only [schemaBaseSize, e0, Outcome.bind_ok, Outcome.pure_eq, h2]
    · intro a h hh cs rs u hc ht
      obtain ⟨q, s1, rs', g1, g2, rfl⟩ := run_cons hc
      have e1 := (headerOf_ok (p := (a, h))).2 ⟨rfl, deref_ok.1 hh⟩
      simp only [call, e1, Outcome.bind_ok, e0, setSchema_any (Header.new 0 0) h S, h3, settle_none, Outcome.ok.injEq, Prod.mk.injEq] at g1
      obtain ⟨rfl, rfl⟩ := g1
      have g3 := others_do_not_matter g2 (a := a) (deref_ok.2 (put_get (deref_ok.1 hh))) ht
      have e2 := (headerOf_ok (p := (a, { h with schema := ((Header.new 0 0).setSchema S).1.schema }))).2 ⟨rfl, deref_ok.1 g3⟩
      refine ⟨u.objs.length, ⟨u.objs ++ [some (.schema ((Header.new 0 0).setSchema S).1.schema)], u.errs⟩, ?_, ?_, rfl⟩
      · simp only [call, e2, Outcome.bind_ok]; rfl
      · have e3 : (⟨u.objs ++ [some (.schema ((Header.new 0 0).setSchema S).1.schema)], u.errs⟩ : Heap).schemaAt u.objs.length =
            .ok ((Header.new 0 0).setSchema S).1.schema := schemaAt_ok.2 (by simp)
        simp only [schemaSize, e3, Outcome.bind_ok, Outcome.pure_eq, h4]
  · cases hs

/-- Refuted, C103: `LASSchema_Create` and a format there is no schema for: the exception leaves the C function. -/
theorem schema_exception_escapes {what : Exc → List Byte} {s : Heap} {f : PointFormat} (hf : f.std = false) :
    call what s (.newSchema f) = .throw .runtimeError := by
  have : Schema.make f = .throw .runtimeError := by cases f <;> first | cases hf; done | rfl
  simp only [call, this]; rfl

/-- C103, colours of points: `LASPoint_SetColor` and `LASPoint_GetColor` always say they succeeded. For a format with colours the
colour got is the one set; for others it is dropped, the point unchanged and the colour got black. -/
theorem point_color (b : Build) (what : Exc → List Byte) (st : Errors) (p : Point) (hwf : p.WF) (c : Color) :
    ∃ q, pointSet b what st (some p) (.color c) = .ok (.none, some q, st) ∧
      (hasColor p.hdr.fmt = true → pointColor b st (some q) = .ok (some c, st)) ∧
      (hasColor p.hdr.fmt = false → q = p ∧ pointColor b st (some q) = .ok (some Color.black, st)) := by
  have hcol : ∀ {q : Point} {a : Attrs}, Point.observe b q = .ok a → q.getColor b = .ok a.color := by
    intro q a h
    unfold Point.observe at h
    repeat (obtain ⟨_, _, h⟩ := bind_eq_ok h)
    rw [Outcome.pure_eq] at h
    cases h
    assumption
  cases hc : hasColor p.hdr.fmt with
  | true =>
    obtain ⟨q, a, h1, -, h3, -⟩ := Point.set_then_get b p (.color c) hwf hc
    refine ⟨q, ?_, fun _ => ?_, fun h => by cases h⟩
    · have h1' : p.setColor b c = .ok q := h1
      simp only [pointSet, PointSet.run, h1', settled, PointSet.quiet, attemptQuiet, if_true]
    · simp only [pointColor, hcol h3]; rfl
  | false =>
    obtain ⟨h1, h2⟩ := (Point.unsupported_attribute b p hwf).2 hc
    refine ⟨p, ?_, (fun h => by cases h), fun _ => ⟨rfl, ?_⟩⟩
    · have h1' : p.setColor b c = .throw .invalidFormat := h1 c
      simp only [pointSet, PointSet.run, h1', settled, PointSet.quiet, attemptQuiet, if_true]
      rfl
    · have h3 := Point.observe_eq (b := b) hwf
      simp only [pointColor, hcol h3, h2 _ h3]; rfl

/-! The theorems apply. -/

/-- The beginning of a program's run. -/
def nothingYet : Heap := ⟨[], []⟩

/-- Two records, one changed after it was added to a header, a text that is too long, a colour. -/
def sampleProgram : List Call :=
  [.newRecord, .newHeader 1 2020, .setRecord (some 0) (.id 7), .setRecord (some 0) (.data [1, 2, 3] 2), .setRecord (some 0) (.length 2),
   .addToHeader (some 1) (some 0), .setRecord (some 0) (.userId (some (List.replicate 17 65))), .setRecord (some 0) (.id 8), .newColor,
   .setColor (some 2) .green 9, .setColor none .red 1, .recordOfHeader (some 1) 0, .setCompressed (some 1) 5,
   .destroy .record (some 0)]

example : ∃ rs s', run (fun _ => []) nothingYet sampleProgram = .ok (rs, s') ∧ s'.errs.length = 2 ∧
    rs = [.handle (some 0), .handle (some 1), .code .none, .code .none, .code .none, .code .none, .code .failure, .code .none,
      .handle (some 2), .code .none, .code .failure, .handle (some 3), .code .none, .nothing] ∧
    recordId s' (some 3) = .ok (7, s'.errs) ∧ channel s' .green (some 2) = .ok (9, s'.errs) ∧
    compressed s' (some 1) = .ok (true, s'.errs) := by
  refine ⟨_, _, rfl, ?_⟩
  decide +kernel

end LibLAS.Handles
