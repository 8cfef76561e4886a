import Verif.Spec.Reading
/-
Histories of calls that include `Reset`, and what a caller sees of a sequence of calls.
-/
namespace LibLAS.Spec

/-- A call of the reading interface, or a reset. -/
inductive Call where
  | op (o : ReadOp)
  | reset

/-- Transforms keep the length of the record. -/
def Call.Benign : Call → Prop
  | .op o => o.Benign
  | .reset => True

/-- The reader after a sequence of calls; a reset may fail. -/
def callRun (env : Env) (b : Build) : Reader → List Call → Outcome Reader
  | r, [] => .ok r
  | r, .op o :: cs => callRun env b (readStep r o) cs
  | r, .reset :: cs =>
    match r.reset env b with
    | .ok r => callRun env b r cs
    | .throw e => .throw e
    | .ub => .ub

/-- The number of resets in a history. -/
def resets (cs : List Call) : Nat := (cs.filter fun c => match c with | .reset => true | .op _ => false).length

/-- The calls that set filters or transforms. -/
def settings (cs : List Call) : List ReadOp :=
  cs.filterMap fun c => match c with
    | .op (.filters fs) => some (.filters fs)
    | .op (.transforms ts) => some (.transforms ts)
    | _ => none

/-- What a caller sees of one call: its result and, after a successful read, the point. -/
def report (r : Reader) : ReadOp → Outcome Bool × Option (List Byte)
  | .next => (r.readNext.2, if r.readNext.2 = .ok true then some r.readNext.1.point else none)
  | .at n => ((r.readAt n).2, if (r.readAt n).2 = .ok true then some (r.readAt n).1.point else none)
  | .seek n => ((r.seek n).2, none)
  | .filters _ => (.ok true, none)
  | .transforms _ => (.ok true, none)

/-- What a caller sees of a sequence of calls. -/
def reports : Reader → List ReadOp → List (Outcome Bool × Option (List Byte))
  | _, [] => []
  | r, o :: os => report r o :: reports (readStep r o) os

/-- The scale and the offset of a header are numbers (no infinity, no NaN). -/
structure FiniteScaling (h : Header) : Prop where
  scale : ∃ x y z, Fl.ofBits h.scale.x = .fin x ∧ Fl.ofBits h.scale.y = .fin y ∧ Fl.ofBits h.scale.z = .fin z
  offset : ∃ x y z, Fl.ofBits h.offset.x = .fin x ∧ Fl.ofBits h.offset.y = .fin y ∧ Fl.ofBits h.offset.z = .fin z

end LibLAS.Spec
