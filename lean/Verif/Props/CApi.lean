import Verif.Spec.CApi
import Verif.Props.Point
import Verif.Props.Reading
import Verif.Props.Schema
/-
C53 to C60: the C interface.
-/
namespace LibLAS
open Spec CApi

/-! C53: the error stack -/

theorem cstr_of_notin {t : List Byte} (h : 0#8 ∉ t) : cstr t = t := by
  induction t with
  | nil => rfl
  | cons b t ih =>
    rw [cstr_cons, if_neg (fun e => h (by simp [e])), ih (fun e => h (List.mem_cons_of_mem _ e))]

theorem resetLoop_eq (st : Errors) : ∀ i, resetLoop i st = st.drop ((st.length + 1 - i) / 2) := by
  suffices h : ∀ n i, ∀ st : Errors, st.length = n → resetLoop i st = st.drop ((st.length + 1 - i) / 2) from fun i => h _ i st rfl
  intro n
  induction n with
  | zero =>
    intro i st h
    obtain rfl := List.length_eq_zero_iff.mp h
    rw [resetLoop]; simp
  | succ n ih =>
    intro i st h
    obtain ⟨a, st, rfl⟩ : ∃ a t, st = a :: t := by
      cases st with
      | nil => simp at h
      | cons a t => exact ⟨a, t, rfl⟩
    have hl : st.length = n := by simpa using h
    rw [resetLoop]
    by_cases hi : i < (a :: st).length
    · rw [if_pos hi, List.tail_cons, ih (i + 1) st hl]
      have hi' : i < st.length + 1 := by simpa using hi
      have : ((a :: st).length + 1 - i) / 2 = (st.length + 1 - (i + 1)) / 2 + 1 := by simp only [List.length_cons]; omega
      rw [this, List.drop_succ_cons]
    · rw [if_neg hi]
      have hi' : ¬ i < st.length + 1 := by simpa using hi
      have : ((a :: st).length + 1 - i) / 2 = 0 := by simp only [List.length_cons]; omega
      rw [this, List.drop_zero]

/-- C53, what `LASError_Reset` does: of `n` errors the newest `n/2` (rounded up) are removed, the older ones stay. -/
theorem reset_removes_half (st : Errors) :
    resetErrors st = st.drop ((st.length + 1) / 2) ∧ errorCount (resetErrors st) = st.length / 2 := by
  have h : resetErrors st = st.drop ((st.length + 1) / 2) := by
    unfold resetErrors
    split
    · next e => simp [e]
    · rw [resetLoop_eq]; simp
  refine ⟨h, ?_⟩
  rw [h]
  simp only [errorCount, List.length_drop]
  omega

/-- C53: after any history of reports, pops and resets, the library holds the errors reported and neither popped nor reset, as
long as no reset finds more than one error; the number, the code and the texts shown are those of the newest. -/
theorem error_stack_partial (cs : List ErrorCall) (hc : ∀ e, ErrorCall.push e ∈ cs → CText e)
    (hr : ∀ pre, pre ++ [ErrorCall.reset] <+: cs → (errorsMeant pre []).length ≤ 1) :
    errorsMade cs [] = errorsMeant cs [] ∧
    errorCount (errorsMade cs []) = (errorsMeant cs []).length ∧
    lastErrorNum (errorsMade cs []) = ((errorsMeant cs []).head?.map Err.code).getD 0 ∧
    lastErrorMsg (errorsMade cs []) = (errorsMeant cs []).head?.map Err.message ∧
    lastErrorMethod (errorsMade cs []) = (errorsMeant cs []).head?.map Err.method := by
  have happ : ∀ (a b : List ErrorCall) (s : List Err), errorsMeant (a ++ b) s = errorsMeant b (errorsMeant a s) := by
    intro a
    induction a with
    | nil => intro b s; rfl
    | cons c a ih => intro b s; cases c <;> simp [errorsMeant, ih]
  have key : ∀ (post pre : List ErrorCall), pre ++ post = cs → (∀ e ∈ errorsMeant pre [], CText e) →
      errorsMade post (errorsMeant pre []) = errorsMeant post (errorsMeant pre []) ∧
        ∀ e ∈ errorsMeant post (errorsMeant pre []), CText e := by
    intro post
    induction post with
    | nil => intro pre _ h; exact ⟨rfl, h⟩
    | cons c post ih =>
      intro pre hp h
      have hp' : (pre ++ [c]) ++ post = cs := by simpa using hp
      have hstep : errorsMeant (pre ++ [c]) [] = errorsMeant [c] (errorsMeant pre []) := happ _ _ _
      cases c with
      | push e =>
        have he : CText e := hc e (by rw [← hp]; simp)
        have := ih _ hp' (by
          rw [hstep]
          intro x hx
          rcases List.mem_cons.mp hx with rfl | hx
          · exact he
          · exact h x hx)
        rw [hstep] at this
        refine ⟨?_, this.2⟩
        show errorsMade post (pushError _ _ _ _) = _
        rw [pushError, cstr_of_notin he.1, cstr_of_notin he.2]
        exact this.1
      | pop =>
        have := ih _ hp' (by
          rw [hstep]
          intro x hx
          exact h x (List.mem_of_mem_tail hx))
        rw [hstep] at this
        refine ⟨?_, this.2⟩
        show errorsMade post (popError _) = _
        have : popError (errorsMeant pre []) = (errorsMeant pre []).tail := by
          unfold popError
          split
          · next e => simp [e]
          · rfl
        rw [this]
        exact ‹_ ∧ _›.1
      | reset =>
        have hle := hr pre (by rw [← hp]; exact ⟨post, by simp⟩)
        have := ih _ hp' (by rw [hstep]; intro x hx; simp [errorsMeant] at hx)
        rw [hstep] at this
        refine ⟨?_, this.2⟩
        show errorsMade post (resetErrors _) = _
        have h0 : resetErrors (errorsMeant pre []) = [] := by
          rw [(reset_removes_half _).1, List.drop_eq_nil_iff]
          omega
        rw [h0]
        exact this.1
  have k := key cs [] rfl (by simp [errorsMeant])
  change errorsMade cs [] = errorsMeant cs [] ∧ ∀ e ∈ errorsMeant cs [], CText e at k
  rw [k.1]
  refine ⟨rfl, rfl, ?_⟩
  cases h : errorsMeant cs [] with
  | nil => simp [lastErrorNum, lastErrorMsg, lastErrorMethod]
  | cons e t =>
    have he := k.2 e (by rw [h]; simp)
    simp [lastErrorNum, lastErrorMsg, lastErrorMethod, cstr_of_notin he.1, cstr_of_notin he.2]

/-- Two errors are reported, the caller pops one, and resets: nothing is left. -/
example : errorsMade [.push ⟨3, lit "a", lit "f"⟩, .push ⟨2, lit "b", lit "g"⟩, .pop, .reset, .push ⟨3, lit "c", lit "h"⟩] [] =
    [⟨3, lit "c", lit "h"⟩] := by decide +kernel

/-- C53 as stated is false: after two reports and a reset, the older error is still there and still shown as the last one. -/
theorem reset_keeps_errors : ∃ e f : Err, CText e ∧ CText f ∧
    errorsMeant [.push e, .push f, .reset] [] = [] ∧ errorsMade [.push e, .push f, .reset] [] = [e] ∧
    lastErrorNum (errorsMade [.push e, .push f, .reset] []) = 3 :=
  ⟨⟨3, lit "a", lit "f"⟩, ⟨3, lit "b", lit "g"⟩, by unfold CText; decide +kernel, by unfold CText; decide +kernel, rfl,
    by decide +kernel, by decide +kernel⟩

/-! C54: failures are reported -/

theorem lit_no_nul {s : String} (h : ∀ c ∈ s.toList, c.toNat % 256 ≠ 0) : 0#8 ∉ lit s := by
  unfold lit
  intro hm
  obtain ⟨c, hc, e⟩ := List.mem_map.mp hm
  have := congrArg BitVec.toNat e
  simp only [BitVec.toNat_ofNat] at this
  exact h c hc (by simpa using this)

/-- The names of the C functions are plain texts. -/
theorem pointSet_name (s : PointSet) : cstr (lit s.name) = lit s.name := by
  apply cstr_of_notin
  cases s <;> exact lit_no_nul (by simp only [PointSet.name]; decide +kernel)

theorem headerSet_name (s : HeaderSet) : cstr (lit s.name) = lit s.name := by
  apply cstr_of_notin
  cases s <;> exact lit_no_nul (by simp only [HeaderSet.name]; decide +kernel)

/-- C54, points: whatever the handle, a `LASPoint_Set...` call that returns either says `LE_None` and reports nothing, or says
`LE_Failure`, leaves the point as it was and reports exactly one failure under its own name. In the first case the C++ setter
succeeded, or (time and colour only) threw and was ignored. -/
theorem point_calls_report {b : Build} {what : Exc → List Byte} {st st' : Errors} {h h' : Option Point} {s : PointSet} {c : Code}
    (hc : pointSet b what st h s = .ok (c, h', st')) :
    (c = .none ∧ st' = st ∧ ∃ p q, h = some p ∧ h' = some q ∧
      (s.run b p = .ok q ∨ (s.quiet = true ∧ q = p ∧ ∃ e, s.run b p = .throw e ∧ e.isRuntime = true))) ∨
    (c = .failure ∧ h' = h ∧ ∃ e, st' = e :: st ∧ FailureOf s.name e) := by
  have hn := pointSet_name s
  cases h with
  | none =>
    simp only [pointSet, Outcome.ok.injEq, Prod.mk.injEq] at hc
    obtain ⟨rfl, rfl, rfl⟩ := hc
    exact Or.inr ⟨rfl, rfl, _, rfl, rfl, hn⟩
  | some p =>
    unfold pointSet at hc
    cases hr : s.run b p with
    | ub => cases hq : s.quiet <;> simp [hr, hq, settled, attempt, attemptQuiet] at hc
    | ok q =>
      cases hq : s.quiet <;> simp [hr, hq, settled, attempt, attemptQuiet] at hc <;> obtain ⟨rfl, rfl, rfl⟩ := hc <;>
        exact Or.inl ⟨rfl, rfl, p, q, rfl, rfl, Or.inl hr⟩
    | throw e =>
      cases hq : s.quiet
      · simp [hr, hq, settled, attempt] at hc
        obtain ⟨rfl, rfl, rfl⟩ := hc
        exact Or.inr ⟨rfl, rfl, _, rfl, rfl, hn⟩
      · cases he : e.isRuntime
        · simp [hr, hq, settled, attemptQuiet, he] at hc
          obtain ⟨rfl, rfl, rfl⟩ := hc
          exact Or.inr ⟨rfl, rfl, _, rfl, rfl, hn⟩
        · simp [hr, hq, settled, attemptQuiet, he] at hc
          obtain ⟨rfl, rfl, rfl⟩ := hc
          exact Or.inl ⟨rfl, rfl, p, p, rfl, rfl, Or.inr ⟨rfl, rfl, e, hr, he⟩⟩

/-- C54, histories: on a point whose record is long enough for its format, any sequence of `LASPoint_Set...` calls returns
`LE_None` throughout and reports nothing; the attributes read at the end are those of the plain record updated call by call, the
calls for attributes the format does not store having no effect. -/
theorem c_setter_history (b : Build) (what : Exc → List Byte) (st : Errors) (p : Point) (hwf : p.WF) (ops : List SetOp) :
    ∃ q a, QuietCalls b what st p (ops.map setterFor) q ∧ Point.observe b p = .ok a ∧
      Point.observe b q = .ok (ops.foldl (applyIf p.hdr.fmt) a) := by
  have hrun : ∀ (p : Point) (op : SetOp), (setterFor op).run b p = Point.exec b p op := by
    intro p op; cases op <;> rfl
  have hquiet : ∀ (p : Point), p.WF → ∀ op : SetOp, ∃ p', pointSet b what st (some p) (setterFor op) = .ok (.none, some p', st) ∧
      p' = Point.step b p op ∧ p'.WF ∧ p'.hdr = p.hdr := by
    intro p hw op
    by_cases hop : supported p.hdr.fmt op = true
    · obtain ⟨p', a', h1, h2, h3, h4, h5, _⟩ := Point.set_then_get b p op hw hop
      refine ⟨p', ?_, by simp [Point.step, h1], h4, h5⟩
      unfold pointSet
      simp only [hrun, h1]
      cases (setterFor op).quiet <;> simp [settled, attempt, attemptQuiet]
    · have hu := Point.unsupported_attribute b p hw
      refine ⟨p, ?_, ?_, hw, rfl⟩
      · cases op <;> simp [supported] at hop
        · have := (hu.1 hop).1
          unfold pointSet
          simp only [hrun, this]
          simp [setterFor, PointSet.quiet, settled, attemptQuiet, Exc.isRuntime]
        · have := (hu.2 hop).1
          unfold pointSet
          simp only [hrun, this]
          simp [setterFor, PointSet.quiet, settled, attemptQuiet, Exc.isRuntime]
      · cases op <;> simp [supported] at hop
        · simp [Point.step, (hu.1 hop).1]
        · simp [Point.step, (hu.2 hop).1]
  have key : ∀ (ops : List SetOp) (p : Point), p.WF → QuietCalls b what st p (ops.map setterFor) (ops.foldl (Point.step b) p) := by
    intro ops
    induction ops with
    | nil => intro p _; exact rfl
    | cons op ops ih =>
      intro p hw
      obtain ⟨p', h1, rfl, h3, -⟩ := hquiet p hw op
      exact ⟨_, h1, ih _ h3⟩
  obtain ⟨a, h1, h2⟩ := Point.setter_history b p hwf ops
  exact ⟨_, a, key ops p hwf, h1, h2⟩

/-- C54 as stated is false: setting the time of a point without time says `LE_None`, reports nothing and does nothing. -/
theorem time_dropped_silently : ∃ (b : Build) (p : Point) (t : BitVec 64), p.WF ∧ ∀ what st,
    pointSet b what st (some p) (.time t) = .ok (.none, some p, st) ∧ Point.getTime b p ≠ .ok t :=
  ⟨⟨.little, false⟩, ⟨List.replicate 20 0#8, ⟨.f0, 20, false, false, ⟨.fin 1, .fin 1, .fin 1⟩, ⟨.fin 0, .fin 0, .fin 0⟩⟩⟩, 7,
    by simp [Point.WF, PointFormat.std, formatSize], fun _ _ => ⟨rfl, by decide +kernel⟩⟩

/-- C54, headers: as for points, except that a NULL handle is undefined behaviour. -/
theorem header_calls_report {what : Exc → List Byte} {st st' : Errors} {h h' : HeaderH} {s : HeaderSet} {c : Code}
    (hc : headerSet what st h s = .ok (c, h', st')) :
    (c = .none ∧ st' = st ∧ ∃ p q, h = some (some p) ∧ h' = some (some q) ∧ s.run p = (q, .ok ())) ∨
    (c = .failure ∧ h' = h ∧ ∃ e, st' = e :: st ∧ FailureOf s.name e) := by
  have hn := headerSet_name s
  have hkeep : ∀ p q e, s.run p = (q, .throw e) → q = p := by
    intro p q e hq
    cases s <;> simp only [HeaderSet.run, Header.setVersionMajor, Header.setVersionMinor, Header.setSystemId, Header.setSoftwareId,
      Header.setByReturn, Header.deleteVLR] at hq <;> (try split at hq) <;> simp_all
  match h with
  | none => simp [headerSet] at hc
  | some none =>
    simp only [headerSet, Outcome.ok.injEq, Prod.mk.injEq] at hc
    obtain ⟨rfl, rfl, rfl⟩ := hc
    exact Or.inr ⟨rfl, rfl, _, rfl, rfl, hn⟩
  | some (some p) =>
    unfold headerSet at hc
    rcases hr : s.run p with ⟨q, o⟩
    cases o with
    | ub => simp [hr, attempt] at hc
    | ok u =>
      simp [hr, attempt] at hc
      obtain ⟨rfl, rfl, rfl⟩ := hc
      exact Or.inl ⟨rfl, rfl, p, q, rfl, rfl, hr⟩
    | throw e =>
      simp [hr, attempt] at hc
      obtain ⟨rfl, rfl, rfl⟩ := hc
      exact Or.inr ⟨rfl, by rw [hkeep _ _ _ hr], _, rfl, rfl, hn⟩

/-- `LASHeader_SetDataFormatId` can say `LE_Failure` after having changed the header. -/
theorem format_failure_changes : ∃ (h h' : Header), ∀ what st, ∃ e,
    headerSetFormat what st (some (some h)) .f4 = .ok (.failure, some (some h'), e :: st) ∧ h'.dataRecordLength ≠ h.dataRecordLength := by
  refine ⟨Header.new 1 2000, ((Header.new 1 2000).setDataFormatId .f4).1, fun what st => ?_⟩
  have h1 : ((Header.new 1 2000).setDataFormatId .f4).2.isOk = false := by decide +kernel
  have h2 : ((Header.new 1 2000).setDataFormatId .f4).2 ≠ .ub := by decide +kernel
  have h3 : ((Header.new 1 2000).setDataFormatId .f4).1.dataRecordLength ≠ (Header.new 1 2000).dataRecordLength := by decide +kernel
  revert h1 h2 h3
  rcases hx : (Header.new 1 2000).setDataFormatId .f4 with ⟨q, o⟩
  intro h1 h2 h3
  unfold headerSetFormat
  cases o with
  | ok _ => simp [Outcome.isOk] at h1
  | ub => simp at h2
  | throw e =>
    simp only [hx, attempt]
    exact ⟨_, rfl, h3⟩

/-! C54, reading -/

/-- What `LASReader_Seek` reports on a reader of `n` points: success below `n`; at `n` a failure without a report; beyond `n`
`LE_None` with a report. -/
theorem seek_reports (what : Exc → List Byte) (st : Errors) (r : Reader) (i : BitVec 32) :
    (i.toNat < r.size → ∃ r', readerSeek what st (some r) i = .ok (.none, some r', st)) ∧
    (i.toNat = r.size → readerSeek what st (some r) i = .ok (.failure, some r, st)) ∧
    (r.size < i.toNat → ∃ e, readerSeek what st (some r) i = .ok (.none, some r, e :: st) ∧ FailureOf "LASReader_Seek" e) := by
  refine ⟨fun h => ?_, fun h => ?_, fun h => ?_⟩
  · simp only [readerSeek, Reader.seek, Reader.implSeek, if_neg (show ¬ r.size = i.toNat by omega),
      if_neg (show ¬ r.size < i.toNat by omega), Reader.catchRange]
    exact ⟨_, rfl⟩
  · simp only [readerSeek, Reader.seek, Reader.implSeek, if_pos h.symm, Reader.catchRange]
  · refine ⟨⟨3, cstr (what .runtimeError), cstr (lit "LASReader_Seek")⟩, ?_, rfl,
      cstr_of_notin (lit_no_nul (by decide +kernel))⟩
    simp only [readerSeek, Reader.seek, Reader.implSeek, if_neg (show ¬ r.size = i.toNat by omega), if_pos h, Reader.catchRange]
    rfl
