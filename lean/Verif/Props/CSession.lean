import Verif.Props.CApi
import Verif.Props.WriteRead
/-
C54 to C60: reading, writing and handles through the C interface.
-/
namespace LibLAS
open Spec CApi

/-! C54, reading -/

theorem reads_of_delivers (what : Exc → List Byte) (st : Errors) : ∀ (ps : List (List Byte)) (r : Reader), delivers r ps →
    ReadsAll what st r ps := by
  intro ps
  induction ps with
  | nil =>
    intro r h
    refine ⟨r.readNext.1, ?_⟩
    have h : r.readNext.2 = .ok false := h
    rcases hx : r.readNext with ⟨r', o⟩
    rw [hx] at h
    subst h
    simp [getNextPoint, hx]
  | cons p ps ih =>
    intro r h
    obtain ⟨h1, h2, h3⟩ := h
    refine ⟨r.readNext.1, ?_, ih _ h3⟩
    rcases hx : r.readNext with ⟨r', o⟩
    rw [hx] at h1 h2
    subst h1
    subst h2
    simp [getNextPoint, hx]

/-- C54, reading: on a reader that was opened on a file of `n` whole points and has made any sequence of calls, without
transforms set: `LASReader_GetPointAt(i)` shows point `i` and reports nothing for `i < n`; for any other `i` it returns NULL, reports one
failure under its name and leaves the reader as it was. After `LASReader_Seek(i)` (`LE_None`, nothing reported), the loop over
`LASReader_GetNextPoint` gets exactly the points from `i` on and no error is reported. -/
theorem c_reading {env : Env} {what : Exc → List Byte} {today : BitVec 16 × BitVec 16} {st : Errors} {b : List Byte} {r₀ : Reader}
    (hr : readerCreate env what today st true (some b) = .ok (some r₀, st)) (hs : SaneLength r₀)
    (hin : r₀.hdr.dataOffset.toNat + r₀.hdr.pointCount.toNat * r₀.hdr.dataRecordLength ≤ b.length)
    (ops : List ReadOp) (hops : ∀ op ∈ ops, op.Benign) (i : BitVec 32) :
    let r := readRun r₀ ops
    let off := r₀.hdr.dataOffset.toNat
    let len := r₀.hdr.dataRecordLength
    let n := r₀.hdr.pointCount.toNat
    (i.toNat < n → ∃ r', getPointAt what st (some r) i = .ok (some (transformed r (record b off len i.toNat)), some r', st)) ∧
    (n ≤ i.toNat → ∃ e, getPointAt what st (some r) i = .ok (none, some r, e :: st) ∧ FailureOf "LASReader_GetPointAt" e) ∧
    (i.toNat < n → r.filter = none → ∃ r', readerSeek what st (some r) i = .ok (.none, some r', st) ∧
      ReadsAll what st r' ((recordsFrom b off len i.toNat (n - i.toNat)).map (transformed r))) := by
  have hmk : Reader.make env today (IStream.onFile b) = .ok r₀ := by
    simp only [readerCreate, if_true] at hr
    cases h : Reader.make env today (IStream.onFile b) with
    | ok r => rw [h] at hr; simp at hr; rw [hr]
    | throw e => rw [h] at hr; simp at hr
    | ub => rw [h] at hr; simp at hr
  obtain ⟨h1, h2, h3, -⟩ := random_access hmk hs ops hops i.toNat
  dsimp only at h1 h2 h3 ⊢
  generalize readRun r₀ ops = r at *
  refine ⟨fun hi => ?_, fun hi => ?_, fun hi hf => ?_⟩
  · have hle : r₀.hdr.dataOffset.toNat + (i.toNat + 1) * r₀.hdr.dataRecordLength ≤ b.length :=
      le_trans (Nat.add_le_add_left (Nat.mul_le_mul_right _ hi) _) hin
    obtain ⟨a1, a2⟩ := h1 hi hle
    rcases hx : r.readAt i.toNat with ⟨r', o⟩
    rw [hx] at a1 a2
    subst a1
    refine ⟨r', ?_⟩
    simp only [getPointAt, hx]
    rw [← a2]
  · refine ⟨⟨3, cstr (what .outOfRange), cstr (lit "LASReader_GetPointAt")⟩, ?_, rfl,
      cstr_of_notin (lit_no_nul (by decide +kernel))⟩
    simp only [getPointAt, h2 hi]
    rfl
  · obtain ⟨a1, a2⟩ := h3 hi hin hf
    rcases hx : r.seek i.toNat with ⟨r', o⟩
    rw [hx] at a1 a2
    subst a1
    exact ⟨r', by simp only [readerSeek, hx], reads_of_delivers _ _ _ _ a2⟩

/-- A reader on a file of five points: the hypotheses are met. -/
example : ∃ r, Reader.make plainEnv (1, 2000) (IStream.onFile (sampleFile fivePoints)) = .ok r ∧
    r.hdr.dataOffset.toNat + r.hdr.pointCount.toNat * r.hdr.dataRecordLength ≤ (sampleFile fivePoints).length ∧
    0 < r.hdr.schema.byteSize ∧ r.hdr.schema.byteSize < 2 ^ 16 ∧ r.hdr.pointCount = 5 :=
  Outcome.exists_of_check (by decide +kernel)

/-- C54 as stated is false of `LASReader_Seek`: beyond the end it says `LE_None` (and reports), at the end it says `LE_Failure` and
reports nothing; with a NULL handle it says `LE_None`. -/
theorem seek_says_none : ∀ what st,
    (∀ i, ∃ e, readerSeek what st none i = .ok (.none, none, e :: st)) ∧
    ∃ r, Reader.make plainEnv (1, 2000) (IStream.onFile (sampleFile fivePoints)) = .ok r ∧
      (∃ e, readerSeek what st (some r) 6 = .ok (.none, some r, e :: st)) ∧
      readerSeek what st (some r) 5 = .ok (.failure, some r, st) := by
  intro what st
  refine ⟨fun i => ⟨_, rfl⟩, ?_⟩
  obtain ⟨r, h1, h2⟩ : ∃ r, Reader.make plainEnv (1, 2000) (IStream.onFile (sampleFile fivePoints)) = .ok r ∧ r.size = 5 :=
    Outcome.exists_of_check (by decide +kernel)
  obtain ⟨-, a, -⟩ := seek_reports what st r 5
  obtain ⟨-, -, c⟩ := seek_reports what st r 6
  obtain ⟨e, c, -⟩ := c (by rw [h2]; decide)
  exact ⟨r, h1, ⟨e, c⟩, a (by rw [h2]; decide)⟩

/-! C55: NULL handles -/

/-- C55: the functions on points, variable records and readers answer a NULL handle with their failure value, change nothing and
report exactly one failure under their own name (`LASReader_Seek` answers `LE_None`); so do the header functions when the handle
holds no header. -/
theorem null_handles_partial (b : Build) (what : Exc → List Byte) (st : Errors) :
    (∀ s, ∃ e, pointSet b what st none s = .ok (.failure, none, e :: st) ∧ FailureOf s.name e) ∧
    (∀ d, ∃ e, pointSetData st none d = .ok (.failure, none, e :: st) ∧ FailureOf "LASPoint_SetData" e) ∧
    (∀ p, ∃ e, pointSetData st (some p) none = .ok (.failure, some p, e :: st) ∧ FailureOf "LASPoint_SetData" e) ∧
    (∀ n, ∃ e, pointGetData st none n = .ok (.failure, [], e :: st) ∧ FailureOf "LASPoint_GetData" e) ∧
    (∀ p, ∃ e, pointGetData st (some p) none = .ok (.failure, [], e :: st) ∧ FailureOf "LASPoint_GetData" e) ∧
    (∃ e, pointValidate st none = .ok (3, e :: st) ∧ FailureOf "LASPoint_Validate" e) ∧
    (∃ e, pointIsValid st none = .ok (3, e :: st) ∧ FailureOf "LASPoint_IsValid" e) ∧
    (∀ q, ∃ e, pointEqual st none q = (false, e :: st) ∧ FailureOf "LASPoint_Equal" e) ∧
    (∀ p, ∃ e, pointEqual st (some p) none = (false, e :: st) ∧ FailureOf "LASPoint_Equal" e) ∧
    (∀ d n, ∃ e, vlrSetData st none d n = .ok (.failure, none, e :: st) ∧ FailureOf "LASVLR_SetData" e) ∧
    (∀ n, ∃ e, vlrSetLength st none n = .ok (.failure, none, e :: st) ∧ FailureOf "LASVLR_SetRecordLength" e) ∧
    (∀ n, ∃ e, vlrGetData st none n = .ok (.failure, [], e :: st) ∧ FailureOf "LASVLR_GetData" e) ∧
    (∃ e, getNextPoint what st none = .ok (none, none, e :: st) ∧ FailureOf "LASReader_GetNextPoint" e) ∧
    (∀ n, ∃ e, getPointAt what st none n = .ok (none, none, e :: st) ∧ FailureOf "LASReader_GetPointAt" e) ∧
    (∀ n, ∃ e, readerSeek what st none n = .ok (.none, none, e :: st) ∧ FailureOf "LASReader_Seek" e) ∧
    (∀ w, ∃ e, writerWritePoint what st w none = .ok (.failure, w, e :: st) ∧ FailureOf "LASWriter_WritePoint" e) ∧
    (∀ s, ∃ e, headerSet what st (some none) s = .ok (.failure, some none, e :: st) ∧ FailureOf s.name e) := by
  refine ⟨fun s => ⟨_, rfl, rfl, pointSet_name s⟩, fun d => ⟨_, rfl, rfl, ?_⟩, fun p => ⟨_, rfl, rfl, ?_⟩, fun n => ⟨_, rfl, rfl, ?_⟩,
    fun p => ⟨_, rfl, rfl, ?_⟩, ⟨_, rfl, rfl, ?_⟩, ⟨_, rfl, rfl, ?_⟩, fun q => ⟨_, rfl, rfl, ?_⟩, fun p => ⟨_, rfl, rfl, ?_⟩,
    fun d n => ⟨_, rfl, rfl, ?_⟩, fun n => ⟨_, rfl, rfl, ?_⟩, fun n => ⟨_, rfl, rfl, ?_⟩, ⟨_, rfl, rfl, ?_⟩, fun n => ⟨_, rfl, rfl, ?_⟩,
    fun n => ⟨_, rfl, rfl, ?_⟩, fun w => ⟨_, rfl, rfl, ?_⟩, fun s => ⟨_, rfl, rfl, headerSet_name s⟩⟩ <;>
  exact cstr_of_notin (lit_no_nul (by decide +kernel))

/-- C55 as stated is false: every header setter, the getters of return counts and variable records, and the creation of a writer
are undefined on a NULL header handle; `LASHeader_SetDataFormatId` is undefined on a handle without a header; writing through a NULL
writer is undefined. -/
theorem null_handles_followed (env : Env) (what : Exc → List Byte) (st : Errors) :
    (∀ s, headerSet what st none s = .ub) ∧ (∀ i, headerByReturn st none i = .ub) ∧ (∀ i, headerGetVLR st none i = .ub) ∧
    (∀ named file allowed mode, writerCreate env what st named file allowed none mode = .ub) ∧
    (∀ f, headerSetFormat what st (some none) f = .ub) ∧ ∀ p, writerWritePoint what st none (some p) = .ub :=
  ⟨fun _ => rfl, fun _ => rfl, fun _ => rfl, fun _ _ _ _ => rfl, fun _ => rfl, fun _ => rfl⟩

/-! C56: a session in C -/

theorem writesAll_of {what : Exc → List Byte} {st : Errors} : ∀ (pts : List (List Byte)) (w w' : Writer),
    w.writePoints pts = .ok w' → WritesAll what st w pts w' := by
  intro pts
  induction pts with
  | nil => intro w w' h; simp only [Writer.writePoints, Outcome.ok.injEq] at h; exact h.symm
  | cons p pts ih =>
    intro w w' h
    cases hw : w.writePoint p with
    | throw e => rw [Writer.writePoints, hw] at h; cases h
    | ub => rw [Writer.writePoints, hw] at h; cases h
    | ok v =>
      rw [Writer.writePoints, hw] at h
      exact ⟨v, by simp only [writerWritePoint, hw], ih v w' h⟩

/-- C56: a C program creates a writer (mode 1, write) on a file that can be opened, whatever it holds or if it does not exist
yet, with a storable header; writes any points; destroys the writer; creates a reader on the file. No call reports an error, and
the loop over `LASReader_GetNextPoint` gets the points written, in order, cut to the record length. -/
theorem c_session (env : Env) (what : Exc → List Byte) (today : BitVec 16 × BitVec 16) (st : Errors) {h : Header} {w : Writer}
    (hs : StorableHeader h) (file : Option (List Byte))
    (hmk : writerCreate env what st true file true (some (some h)) 1 = .ok (some w, st))
    (hsmall : h.headerSize.toNat + recordBytes w.hdr.vlrs + 4 < 2 ^ 31)
    (hschema : NoSchema env w.hdr.vlrs) (h0 : 0 < h.dataRecordLength)
    (pts : List (List Byte)) (hp : ∀ p ∈ pts, h.dataRecordLength ≤ p.length) (hn : pts.length < 2 ^ 32) :
    ∃ w' r, WritesAll what st w pts w' ∧
      readerCreate env what today st true (some w'.close.buf) = .ok (some r, st) ∧
      r.hdr.pointCount.toNat = pts.length ∧
      ReadsAll what st r (pts.map fun p => p.take h.dataRecordLength) := by
  have hmk' : Writer.make env (OStream.onFile []) h = .ok w := by
    have e : writerCreate env what st true file true (some (some h)) 1 =
        match Writer.make env (OStream.onFile []) h with
        | .ok w => .ok (some w, st)
        | .throw e => .ok (none, caught what st "LASWriter_Create" e)
        | .ub => .ub := rfl
    rw [e] at hmk
    cases hw : Writer.make env (OStream.onFile []) h with
    | ok v => rw [hw] at hmk; simp at hmk; rw [hmk]
    | throw e => rw [hw] at hmk; simp at hmk
    | ub => rw [hw] at hmk; simp at hmk
  obtain ⟨w', r, a1, a2, a3, a4⟩ := written_is_read env today hs hmk' hsmall hschema h0 pts hp hn
  exact ⟨w', r, writesAll_of _ _ _ a1, by simp [readerCreate, a2], a3, reads_of_delivers _ _ _ _ a4⟩

/-- The writer of the example in C20 is also created by the C function, over an old file. -/
example (what : Exc → List Byte) (st : Errors) : ∃ w,
    writerCreate plainEnv what st true (some [1, 2, 3]) true (some (some sampleHeader)) 1 = .ok (some w, st) := by
  obtain ⟨w, h, -⟩ : ∃ w, Writer.make plainEnv (OStream.onFile []) sampleHeader = .ok w ∧ w.hdr.vlrs.length = 1 :=
    Outcome.exists_of_check (by decide +kernel)
  refine ⟨w, ?_⟩
  show (match Writer.make plainEnv (OStream.onFile []) sampleHeader with
        | .ok w => Outcome.ok (some w, st)
        | .throw e => .ok (none, caught what st "LASWriter_Create" e)
        | .ub => .ub) = _
  rw [h]

/-- C56, append (mode 2): on a file produced by libLAS, with the header read from it, `LASWriter_Create` succeeds, the points are
written without a report, and a reader created afterwards gets the old points and then the new ones. -/
theorem c_append_session {env : Env} {what : Exc → List Byte} {today : BitVec 16 × BitVec 16} {st : Errors} {b : List Byte}
    {ps : List (List Byte)} (hp : Produced env today b ps) {r : Reader}
    (hr : readerCreate env what today st true (some b) = .ok (some r, st))
    (pts : List (List Byte)) (hlen : ∀ p ∈ pts, p.length = r.hdr.dataRecordLength) (hn : ps.length + pts.length < 2 ^ 32) :
    ∃ w w' r', writerCreate env what st true (some b) true (some (some r.hdr)) 2 = .ok (some w, st) ∧
      WritesAll what st w pts w' ∧
      readerCreate env what today st true (some w'.close.buf) = .ok (some r', st) ∧
      r'.hdr.pointCount.toNat = ps.length + pts.length ∧ ReadsAll what st r' (ps ++ pts) := by
  have hmk : Reader.make env today (IStream.onFile b) = .ok r := by
    simp only [readerCreate, if_true] at hr
    cases h : Reader.make env today (IStream.onFile b) with
    | ok r => rw [h] at hr; simp at hr; rw [hr]
    | throw e => rw [h] at hr; simp at hr
    | ub => rw [h] at hr; simp at hr
  obtain ⟨w, w', a1, a2, a3⟩ := append_possible hp hmk pts hlen hn
  obtain ⟨r', b1, b2, b3⟩ := append_keeps_points a3
  refine ⟨w, w', r', ?_, writesAll_of _ _ _ a2, by simp [readerCreate, b1], by simpa using b2, reads_of_delivers _ _ _ _ b3⟩
  show (match Writer.make env (OStream.onFile b) r.hdr with
        | .ok w => Outcome.ok (some w, st)
        | .throw e => .ok (none, caught what st "LASWriter_Create" e)
        | .ub => .ub) = _
  rw [a1]

/-- C56 as stated is false: a file that cannot be opened for writing (and in mode 2 a file that does not exist) is not reported; the
call is undefined. -/
theorem unopenable_output (env : Env) (what : Exc → List Byte) (st : Errors) (h : Header) :
    (∀ file, writerCreate env what st true file false (some (some h)) 1 = .ub) ∧
    writerCreate env what st true none true (some (some h)) 2 = .ub :=
  ⟨fun _ => rfl, rfl⟩

/-- What is reported by `LASWriter_Create`: a NULL name, a wrong mode. -/
theorem writer_refusals (env : Env) (what : Exc → List Byte) (st : Errors) (h : Header) (file : Option (List Byte)) (allowed : Bool)
    (mode : Int) :
    (∃ e, writerCreate env what st false file allowed (some (some h)) mode = .ok (none, e :: st) ∧ FailureOf "LASWriter_Create" e) ∧
    (mode < 1 ∨ 2 < mode → ∃ e, writerCreate env what st true file allowed (some (some h)) mode = .ok (none, e :: st) ∧
      FailureOf "LASWriter_Create" e) := by
  have hn : cstr (lit "LASWriter_Create") = lit "LASWriter_Create" := cstr_of_notin (lit_no_nul (by decide +kernel))
  refine ⟨⟨_, rfl, rfl, hn⟩, fun hm => ⟨⟨3, cstr (what .runtimeError), cstr (lit "LASWriter_Create")⟩, ?_, rfl, hn⟩⟩
  have : mode > 2 ∨ mode < 1 := by omega
  simp only [writerCreate, if_pos this]
  rfl

/-! C57: handles and streams -/

/-- What holds of the map of streams after any history. -/
private structure Tracked (k : Nat) (s : Registry) : Prop where
  keys : ∀ a, (∃ i, (a, i) ∈ s.map) ↔ a ∈ s.alive
  keysNodup : (s.map.map Prod.fst).Nodup
  aliveNodup : s.alive.Nodup
  count : s.opened.length = s.alive.length + k
  streams : ∀ e ∈ s.map, e.2 ∈ s.opened
  streamsNodup : (s.map.map Prod.snd).Nodup
  openedNodup : s.opened.Nodup
  fresh : ∀ i ∈ s.opened, i < s.next

private theorem lookup_some_of_mem {m : List (Nat × Nat)} {a : Nat} (h : ∃ i, (a, i) ∈ m) : ∃ i, m.lookup a = some i := by
  cases hl : m.lookup a with
  | some i => exact ⟨i, rfl⟩
  | none =>
    obtain ⟨i, hi⟩ := h
    rw [List.lookup_eq_none_iff] at hl
    simpa using hl _ hi

private theorem mem_of_lookup {m : List (Nat × Nat)} {a i : Nat} (h : m.lookup a = some i) : (a, i) ∈ m := by
  induction m with
  | nil => simp at h
  | cons e m ih =>
    obtain ⟨b, j⟩ := e
    rw [List.lookup_cons] at h
    by_cases hb : a == b
    · simp [hb] at h
      rw [beq_iff_eq] at hb
      simp [hb, h]
    · simp [hb] at h
      exact List.mem_cons_of_mem _ (ih h)

private theorem tracked {what : Exc → List Byte} {k : Nat} {s : Registry} (h : HandleHistory what k s) : Tracked k s := by
  induction h with
  | start => exact ⟨by simp [Registry.start], by simp [Registry.start], by simp [Registry.start], by simp [Registry.start],
      by simp [Registry.start], by simp [Registry.start], by simp [Registry.start], by simp [Registry.start]⟩
  | failed _ ih => exact ⟨ih.keys, ih.keysNodup, ih.aliveNodup, ih.count, ih.streams, ih.streamsNodup, ih.openedNodup, ih.fresh⟩
  | @threw k s e _ ih =>
    refine ⟨ih.keys, ih.keysNodup, ih.aliveNodup, ?_, ?_, ih.streamsNodup, ?_, ?_⟩
    · simp [Registry.create, ih.count]; omega
    · intro e he; exact List.mem_cons_of_mem _ (ih.streams e he)
    · exact List.nodup_cons.mpr ⟨fun hm => absurd (ih.fresh _ hm) (lt_irrefl _), ih.openedNodup⟩
    · intro i hi
      rcases List.mem_cons.mp hi with rfl | hi
      · exact Nat.lt_succ_self _
      · exact Nat.lt_succ_of_lt (ih.fresh _ hi)
  | @created k s a _ ha ih =>
    have hno : s.map.lookup a = none := by
      cases hl : s.map.lookup a with
      | none => rfl
      | some i => exact absurd ((ih.keys a).mp ⟨i, mem_of_lookup hl⟩) ha
    have hm : (s.create what (.object a)).1.map = (a, s.next) :: s.map := by simp [Registry.create, hno]
    refine ⟨?_, ?_, ?_, ?_, ?_, ?_, ?_, ?_⟩
    · intro x
      rw [hm]
      simp only [Registry.create, List.mem_cons, Prod.mk.injEq, ← ih.keys x]
      constructor
      · rintro ⟨i, ⟨rfl, -⟩ | hi⟩
        · exact Or.inl rfl
        · exact Or.inr ⟨i, hi⟩
      · rintro (rfl | ⟨i, hi⟩)
        · exact ⟨_, Or.inl ⟨rfl, rfl⟩⟩
        · exact ⟨i, Or.inr hi⟩
    · rw [hm, List.map_cons, List.nodup_cons]
      refine ⟨?_, ih.keysNodup⟩
      intro hx
      obtain ⟨⟨x, i⟩, he, rfl⟩ := List.mem_map.mp hx
      exact ha ((ih.keys _).mp ⟨i, he⟩)
    · exact List.nodup_cons.mpr ⟨ha, ih.aliveNodup⟩
    · simp [Registry.create, ih.count]; omega
    · rw [hm]
      intro e he
      rcases List.mem_cons.mp he with rfl | he
      · exact List.mem_cons_self
      · exact List.mem_cons_of_mem _ (ih.streams e he)
    · rw [hm, List.map_cons, List.nodup_cons]
      refine ⟨?_, ih.streamsNodup⟩
      intro hx
      obtain ⟨e, he, h2⟩ := List.mem_map.mp hx
      exact absurd (ih.fresh _ (ih.streams e he)) (by rw [h2]; exact lt_irrefl _)
    · exact List.nodup_cons.mpr ⟨fun hm => absurd (ih.fresh _ hm) (lt_irrefl _), ih.openedNodup⟩
    · intro i hi
      rcases List.mem_cons.mp hi with rfl | hi
      · exact Nat.lt_succ_self _
      · exact Nat.lt_succ_of_lt (ih.fresh _ hi)
  | @destroyed k s t h _ hd ih =>
    cases h with
    | none =>
      simp only [Registry.destroy, Outcome.ok.injEq] at hd
      subst hd
      exact ⟨ih.keys, ih.keysNodup, ih.aliveNodup, ih.count, ih.streams, ih.streamsNodup, ih.openedNodup, ih.fresh⟩
    | some a =>
      cases hl : s.map.lookup a with
      | none =>
        simp only [Registry.destroy, hl, Outcome.ok.injEq] at hd
        subst hd
        exact ⟨ih.keys, ih.keysNodup, ih.aliveNodup, ih.count, ih.streams, ih.streamsNodup, ih.openedNodup, ih.fresh⟩
      | some i =>
        have hmem := mem_of_lookup hl
        have hal : a ∈ s.alive := (ih.keys a).mp ⟨i, hmem⟩
        have hop : i ∈ s.opened := ih.streams _ hmem
        simp only [Registry.destroy, hl, if_pos (And.intro hal hop), Outcome.ok.injEq] at hd
        subst hd
        refine ⟨?_, ?_, ih.aliveNodup.erase _, ?_, ?_, ?_, ih.openedNodup.erase _, ?_⟩
        · intro x
          simp only [List.mem_filter, bne_iff_ne, ne_eq, ih.aliveNodup.mem_erase_iff, ← ih.keys x]
          constructor
          · rintro ⟨j, hj, hne⟩; exact ⟨hne, j, hj⟩
          · rintro ⟨hne, j, hj⟩; exact ⟨j, hj, hne⟩
        · exact (List.filter_sublist.map _).nodup ih.keysNodup
        · simp only [List.length_erase_of_mem hop, List.length_erase_of_mem hal]
          have := ih.count
          have := List.length_pos_of_mem hal
          omega
        · intro e he
          rw [List.mem_filter, bne_iff_ne] at he
          rw [ih.openedNodup.mem_erase_iff]
          refine ⟨?_, ih.streams e he.1⟩
          rintro h2
          have : e = (a, i) := List.inj_on_of_nodup_map ih.streamsNodup he.1 hmem h2
          exact he.2 (by rw [this])
        · exact (List.filter_sublist.map _).nodup ih.streamsNodup
        · intro j hj; exact ih.fresh j (List.mem_of_mem_erase hj)

/-- C57: after any history of creations and destructions, whatever their outcome:
destroying a live handle succeeds without a report, ends exactly that object and closes exactly one stream;
destroying a handle that is not alive (a second time, or a foreign pointer) changes nothing and reports one failure; the same for NULL;
and the streams open are as many as the live handles plus the creations whose constructor threw. -/
theorem handles {what : Exc → List Byte} {k : Nat} {s : Registry} (h : HandleHistory what k s) :
    (∀ a ∈ s.alive, ∃ t i, s.destroy (some a) = .ok t ∧ t.errors = s.errors ∧ (∀ x, x ∈ t.alive ↔ x ∈ s.alive ∧ x ≠ a) ∧
      i ∈ s.opened ∧ (a, i) ∈ s.map ∧ (∀ j, j ∈ t.opened ↔ j ∈ s.opened ∧ j ≠ i) ∧
      ∀ x j, (x, j) ∈ t.map ↔ (x, j) ∈ s.map ∧ x ≠ a) ∧
    (∀ a, a ∉ s.alive → ∃ e, s.destroy (some a) = .ok { s with errors := e :: s.errors } ∧ FailureOf "LASReader_Destroy" e) ∧
    (∃ e, s.destroy none = .ok { s with errors := e :: s.errors } ∧ FailureOf "LASReader_Destroy" e) ∧
    s.opened.length = s.alive.length + k := by
  have ht := tracked h
  have hn : cstr (lit "LASReader_Destroy") = lit "LASReader_Destroy" := cstr_of_notin (lit_no_nul (by decide +kernel))
  refine ⟨fun a ha => ?_, fun a ha => ?_, ⟨_, rfl, rfl, hn⟩, ht.count⟩
  · obtain ⟨i, hl⟩ := lookup_some_of_mem ((ht.keys a).mpr ha)
    have hmem := mem_of_lookup hl
    have hop := ht.streams _ hmem
    have e : s.destroy (some a) = .ok { s with
        alive := s.alive.erase a
        opened := s.opened.erase i
        map := s.map.filter fun e => e.1 != a } := by
      simp only [Registry.destroy, hl, if_pos (And.intro ha hop)]
    refine ⟨_, i, e, rfl, ?_, hop, hmem, ?_, ?_⟩
    · intro x; rw [ht.aliveNodup.mem_erase_iff]; tauto
    · intro x; rw [ht.openedNodup.mem_erase_iff]; tauto
    · intro x j
      rw [List.mem_filter, bne_iff_ne]
  · have hl : s.map.lookup a = none := by
      cases hl : s.map.lookup a with
      | none => rfl
      | some i => exact absurd ((ht.keys a).mp ⟨i, mem_of_lookup hl⟩) ha
    have e : s.destroy (some a) = .ok { s with errors := ⟨3, cstr (lit "Unable to find reader stream"),
        cstr (lit "LASReader_Destroy")⟩ :: s.errors } := by
      simp only [Registry.destroy, hl]
      rfl
    exact ⟨_, e, rfl, hn⟩

/-- Two readers created, the first destroyed twice. -/
example (what : Exc → List Byte) : ∃ s, HandleHistory what 0 s ∧ s.alive = [20] ∧ s.opened = [1] ∧ s.errors.length = 1 := by
  have h1 := (HandleHistory.start (what := what)).created (a := 10) (by simp [Registry.start])
  have h2 := h1.created (a := 20) (by simp [Registry.start, Registry.create])
  have h3 := h2.destroyed (some 10) (t := _) rfl
  have h4 := h3.destroyed (some 10) (t := _) rfl
  exact ⟨_, h4, rfl, rfl, rfl⟩

/-- C57 as stated is false: when a constructor throws, the stream stays open though no handle is alive. -/
theorem constructor_leaks (what : Exc → List Byte) (e : Exc) : ∃ s, HandleHistory what 1 s ∧ s.alive = [] ∧ s.opened ≠ [] :=
  ⟨_, HandleHistory.start.threw e, rfl, by simp [Registry.create]⟩

/-! C58: data in and out -/

/-- C58, points: on a point whose record has the header's length, the bytes set with `LASPoint_SetData` are those returned by
`LASPoint_GetData`, for buffers of at least that length; nothing is reported, and other bytes of the buffer are not touched. -/
theorem point_data_round_trip (st : Errors) (p : Point) (buf : List Byte) (room : Nat) (hp : p.data.length = p.hdr.recLen)
    (hb : p.hdr.recLen ≤ buf.length) (hroom : p.hdr.recLen ≤ room) :
    ∃ q, pointSetData st (some p) (some buf) = .ok (.none, some q, st) ∧ q.hdr = p.hdr ∧ q.data = buf.take p.hdr.recLen ∧
      pointGetData st (some q) (some room) = .ok (.none, buf.take p.hdr.recLen, st) := by
  refine ⟨{ p with data := buf.take p.hdr.recLen }, ?_, rfl, rfl, ?_⟩
  · simp only [pointSetData, ne_eq, hp, not_true, if_false]
    rw [if_pos ⟨le_refl _, hb⟩, List.drop_eq_nil_of_le (by rw [hp])]
    simp
  · simp only [pointGetData]
    rw [if_pos ⟨by simp [hb], hroom⟩]
    simp

example : (⟨List.replicate 20 0#8, ⟨.f0, 20, false, false, ⟨.fin 1, .fin 1, .fin 1⟩, ⟨.fin 0, .fin 0, .fin 0⟩⟩⟩ : Point).data.length = 20 := rfl

/-- C58 as stated is false: on a point whose record has another length (for example a shorter one), setting data is undefined. -/
theorem point_data_other_length (st : Errors) (p : Point) (buf : List Byte) (hp : p.data.length ≠ p.hdr.recLen)
    (h0 : 0 < p.hdr.recLen) : pointSetData st (some p) (some buf) = .ub := by
  simp only [pointSetData, ne_eq, hp, not_false_iff, if_true]
  rw [if_neg (by simp; omega)]

/-- C58, variable records: setting the data and the length gives the data back, in either order. -/
theorem vlr_data_round_trip (st : Errors) (v : VLR) (data : List Byte) (n : BitVec 16) (room : Nat) (hd : n.toNat ≤ data.length)
    (hroom : n.toNat ≤ room) :
    ∃ u, (∃ u₁, vlrSetData st (some v) data n = .ok (.none, some u₁, st) ∧ vlrSetLength st (some u₁) n = .ok (.none, some u, st)) ∧
      (∃ u₂, vlrSetLength st (some v) n = .ok (.none, some u₂, st) ∧ vlrSetData st (some u₂) data n = .ok (.none, some u, st)) ∧
      vlrGetData st (some u) room = .ok (.none, data.take n.toNat, st) := by
  refine ⟨{ v with data := data.take n.toNat, recordSize := n }, ⟨{ v with data := data.take n.toNat }, by simp [vlrSetData, hd], rfl⟩,
    ⟨{ v with recordSize := n }, rfl, by simp [vlrSetData, hd]⟩, ?_⟩
  simp only [vlrGetData]
  rw [if_pos ⟨by simp [hd], hroom⟩]
  simp

/-- C58 as stated is false: data set without the length is not returned (a new record has length 0), and data set shorter than the
length makes `LASVLR_GetData` undefined. -/
theorem vlr_data_needs_length (st : Errors) :
    (∀ data n room, n.toNat ≤ data.length → ∃ u, vlrSetData st (some VLR.new) data n = .ok (.none, some u, st) ∧
      vlrGetData st (some u) room = .ok (.none, [], st)) ∧
    ∃ u v, vlrSetLength st (some VLR.new) 3 = .ok (.none, some u, st) ∧ vlrSetData st (some u) [1, 2] 2 = .ok (.none, some v, st) ∧
      ∀ room, vlrGetData st (some v) room = .ub := by
  refine ⟨fun data n room h => ⟨{ VLR.new with data := data.take n.toNat }, by simp [vlrSetData, h], ?_⟩,
    ⟨{ VLR.new with recordSize := 3 }, { VLR.new with recordSize := 3, data := [1, 2] }, rfl, rfl, fun room => ?_⟩⟩
  · have : VLR.new.recordSize = 0 := by decide +kernel
    simp [vlrGetData, this]
  · simp only [vlrGetData]
    rw [if_neg (by simp)]

/-! C59: what a point handle is -/

/-- C59, what `LASPoint_Equal` decides: two handles are equal exactly when they are the same pointer; a NULL handle is equal to
nothing and reported. -/
theorem equal_is_identity (st : Errors) (p q : PointObj) :
    pointEqual st (some p) (some q) = (decide (p.addr = q.addr), st) := by
  simp only [pointEqual]
  by_cases h : p.addr = q.addr <;> simp [h]

/-- C59 as stated is false: a copy is never equal to its original, though every attribute is. -/
theorem copy_not_equal (st : Errors) (p : PointObj) (addr : Nat) (h : addr ≠ p.addr) :
    (pointCopy p addr).val = p.val ∧ pointEqual st (some p) (some (pointCopy p addr)) = (false, st) := by
  refine ⟨rfl, ?_⟩
  rw [equal_is_identity]
  simp [pointCopy, Ne.symm h]

/-- C59, handles from a reader: the second handle returned is the first one, so after the second read the first handle no longer
shows the first point. `r₁.point` is what the handle of the first call shows after it, `r₂.point` what the same handle shows after the
second call. -/
theorem handle_is_readers (what : Exc → List Byte) (st : Errors) {r : Reader} {p q : List Byte} {ps : List (List Byte)}
    (h : delivers r (p :: q :: ps)) (hne : p ≠ q) :
    ∃ r₁ r₂, getNextPoint what st (some r) = .ok (some r₁.point, some r₁, st) ∧ r₁.point = p ∧
      getNextPoint what st (some r₁) = .ok (some r₂.point, some r₂, st) ∧ r₂.point = q ∧ r₂.point ≠ p := by
  obtain ⟨a1, a2, a3⟩ := h
  obtain ⟨b1, b2, -⟩ := a3
  rcases hx : r.readNext with ⟨r₁, o⟩
  rw [hx] at a1 a2 b1 b2
  dsimp only at a1 a2 b1 b2
  rcases hy : r₁.readNext with ⟨r₂, o₂⟩
  rw [hy] at b1 b2
  dsimp only at b1 b2
  subst a1 b1
  exact ⟨r₁, r₂, by simp [getNextPoint, hx], a2, by simp [getNextPoint, hy], b2, by rw [b2]; exact Ne.symm hne⟩

/-! C60: counts by return, and validity, through C -/

/-- C60: for the indexes 0 to 4, on a header whose list of counts has at least five entries, the count set is the count returned,
and no other count changes. -/
theorem by_return_round_trip_partial (what : Exc → List Byte) (st : Errors) (h : Header) (i : BitVec 32) (v : BitVec 32)
    (hl : 5 ≤ h.byReturn.length) (hi : i.toNat < 5) :
    ∃ g, headerSet what st (some (some h)) (.byReturn i v) = .ok (.none, some (some g), st) ∧
      headerByReturn st (some (some g)) i.toInt = .ok (v, st) ∧
      ∀ j : Int, j ≠ i.toInt → headerByReturn st (some (some g)) j = headerByReturn st (some (some h)) j := by
  have hs : sizeOfInt i = i.toNat := by
    unfold sizeOfInt
    have : i.msb = false := by rw [BitVec.msb_eq_false_iff_two_mul_lt]; omega
    rw [BitVec.toNat_signExtend, this]
    simp
    omega
  have ht : i.toInt = i.toNat := by
    rw [BitVec.toInt_eq_toNat_of_lt]; omega
  refine ⟨{ h with byReturn := h.byReturn.set i.toNat v }, ?_, ?_, ?_⟩
  · simp only [headerSet, HeaderSet.run, Header.setByReturn, hs]
    rw [if_pos (by omega)]
    rfl
  · simp only [headerByReturn, ht]
    rw [if_pos (by omega)]
    simp only [Int.toNat_natCast, List.getElem?_set_self (show i.toNat < h.byReturn.length by omega)]
  · intro j hj
    simp only [headerByReturn]
    split
    · rw [List.getElem?_set_ne (by omega)]
    · rfl

/-- A new header has room for the counts; C60 as stated is false of the indexes 5 and 6: setting succeeds and reading gives 0. -/
theorem by_return_lost : 5 ≤ (Header.new 1 2000).byReturn.length ∧ ∀ what st, ∀ i ∈ [5#32, 6#32], ∀ v, ∃ g,
    headerSet what st (some (some (Header.new 1 2000))) (.byReturn i v) = .ok (.none, some (some g), st) ∧ v ∈ g.byReturn ∧
    headerByReturn st (some (some g)) i.toInt = .ok (0, st) := by
  have hl : (Header.new 1 2000).byReturn.length = 7 := by decide +kernel
  refine ⟨by rw [hl]; decide, fun what st i hi v => ?_⟩
  have hs : sizeOfInt i < 7 ∧ sizeOfInt i = i.toNat ∧ ¬ (i.toInt < 5 ∧ i.toInt ≥ 0) := by
    simp only [List.mem_cons, List.not_mem_nil, or_false] at hi
    rcases hi with rfl | rfl <;> decide
  refine ⟨{ Header.new 1 2000 with byReturn := (Header.new 1 2000).byReturn.set (sizeOfInt i) v }, ?_, ?_, ?_⟩
  · simp only [headerSet, HeaderSet.run, Header.setByReturn]
    rw [if_pos (by rw [hl]; exact hs.1)]
    rfl
  · exact List.mem_set (by rw [hl]; exact hs.1) v
  · simp only [headerByReturn]
    rw [if_neg hs.2.2]

/-- C60, refusals: an index beyond the list, or a negative one, is refused with a report and nothing changes. -/
theorem by_return_refused (what : Exc → List Byte) (st : Errors) (h : Header) (i : BitVec 32) (v : BitVec 32)
    (hl : h.byReturn.length < 2 ^ 31) (hi : i.toInt < 0 ∨ h.byReturn.length ≤ i.toNat) :
    ∃ e, headerSet what st (some (some h)) (.byReturn i v) = .ok (.failure, some (some h), e :: st) ∧
      FailureOf "LASHeader_SetPointRecordsByReturnCount" e := by
  have hs : h.byReturn.length ≤ sizeOfInt i := by
    unfold sizeOfInt
    rw [BitVec.toNat_signExtend]
    rcases hi with hi | hi
    · have : i.msb = true := by rw [BitVec.msb_eq_toInt]; simpa using hi
      rw [this]
      have := i.isLt
      simp only [BitVec.toNat_setWidth, if_true]
      omega
    · have := i.isLt
      simp only [BitVec.toNat_setWidth]
      rw [Nat.mod_eq_of_lt (by omega)]
      omega
  refine ⟨⟨3, cstr (what .outOfRange), cstr (lit "LASHeader_SetPointRecordsByReturnCount")⟩, ?_, rfl,
    cstr_of_notin (lit_no_nul (by decide +kernel))⟩
  simp only [headerSet, HeaderSet.run, Header.setByReturn]
  rw [if_neg (by omega)]
  rfl

/-- C60, validity: on a point whose record is long enough for its format, `LASPoint_Validate` gives 0 exactly when the scan angle rank
is within [-90, 90] and 32 otherwise (the packed members cannot be out of range); `LASPoint_IsValid` gives 1 and 0. Nothing is
reported. -/
theorem c_validity (st : Errors) (p : Point) (hwf : p.WF) :
    ∃ ar : BitVec 8, Point.getScanAngleRank p = .ok ar ∧
      pointValidate st (some p) = .ok (if -90 ≤ ar.toInt ∧ ar.toInt ≤ 90 then 0 else 32, st) ∧
      pointIsValid st (some p) = .ok (if -90 ≤ ar.toInt ∧ ar.toInt ≤ 90 then 1 else 0, st) := by
  obtain ⟨ar, h1, h2, -⟩ := Point.valid_iff p hwf
  obtain ⟨hs, hl⟩ := hwf
  have h20 : 20 ≤ p.data.length := by cases hf : p.hdr.fmt <;> simp_all [formatSize, PointFormat.std] <;> omega
  have hflag : ∀ f : Byte, ((f &&& 0x07#8).setWidth 16).toNat ≤ 7 ∧
      (((f >>> 3) &&& 0x07#8).setWidth 16).toNat ≤ 7 ∧
      (((f >>> 6) &&& 0x01#8).setWidth 16).toNat ≤ 1 ∧
      (((f >>> 7) &&& 0x01#8).setWidth 16).toNat ≤ 1 := by
    have : ∀ f : Fin 256, let f : Byte := BitVec.ofFin f
      ((f &&& 0x07#8).setWidth 16).toNat ≤ 7 ∧
      (((f >>> 3) &&& 0x07#8).setWidth 16).toNat ≤ 7 ∧
      (((f >>> 6) &&& 0x01#8).setWidth 16).toNat ≤ 1 ∧
      (((f >>> 7) &&& 0x01#8).setWidth 16).toNat ≤ 1 := by decide +kernel
    intro f; exact this f.toFin
  obtain ⟨f1, f2, f3, f4⟩ := hflag (Point.rdByte p.data 14)
  have g1 := Nat.not_lt.mpr f1
  have g2 := Nat.not_lt.mpr f2
  have g3 := Nat.not_lt.mpr f3
  have g4 := Nat.not_lt.mpr f4
  refine ⟨ar, h1, ?_, ?_⟩
  · unfold pointValidate invalidMembers Point.getReturnNumber Point.getNumberOfReturns Point.getScanDirection Point.getFlightLineEdge
    dsimp only
    rw [Point.getByte_eq (by omega), h1]
    simp only [Outcome.bind_ok, Outcome.pure_eq, gt_iff_lt, g1, g2, g3, g4, if_false]
    by_cases h : -90 ≤ ar.toInt ∧ ar.toInt ≤ 90
    · rw [if_neg (by omega), if_pos h]
      rfl
    · rw [if_pos (by omega), if_neg h]
      rfl
  · unfold pointIsValid
    simp only [h2, Outcome.bind_ok, Outcome.pure_eq]
    by_cases h : -90 ≤ ar.toInt ∧ ar.toInt ≤ 90 <;> simp [h]

example : pointValidate [] (some (Point.step ⟨.little, false⟩ (Point.new Point.exHeader) (.scanAngle 91))) = .ok (32, []) ∧
    pointIsValid [] (some (Point.step ⟨.little, false⟩ (Point.new Point.exHeader) (.scanAngle (-90)))) = .ok (1, []) := by decide

end LibLAS
