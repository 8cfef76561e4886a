import Verif.Model.CachedReader
import Verif.Spec.Reset
/-
What a caller sees of a sequence of calls, resets included, on an uncached and on a cached reader.
-/
namespace LibLAS.Spec

/-- The result of a reset as a report. -/
def resetReport {α : Type} : Outcome α → Outcome Bool × Option (List Byte)
  | .ok _ => (.ok true, none)
  | .throw e => (.throw e, none)
  | .ub => (.ub, none)

/-- The object after a reset; one that failed leaves it as it was (simplification: the header may be partly read). -/
def orKeep {α : Type} (x : Outcome α) (a : α) : α :=
  match x with
  | .ok b => b
  | _ => a

/-- The reports of a sequence of calls on an uncached reader. -/
def callReports (env : Env) (b : Build) : Reader → List Call → List (Outcome Bool × Option (List Byte))
  | _, [] => []
  | r, .op o :: cs => report r o :: callReports env b (readStep r o) cs
  | r, .reset :: cs => resetReport (r.reset env b) :: callReports env b (orKeep (r.reset env b) r) cs

/-- A cached reader after a call. -/
def cachedStep (c : Cached) : ReadOp → Cached
  | .next => c.readNext.1
  | .at n => (c.readAt n).1
  | .seek n => (c.seek n).1
  | .filters fs => c.setFilters fs
  | .transforms ts => c.setTransforms ts

/-- What a caller of a cached reader sees of one call. -/
def cachedReport (c : Cached) : ReadOp → Outcome Bool × Option (List Byte)
  | .next => (c.readNext.2, if c.readNext.2 = .ok true then some c.readNext.1.base.point else none)
  | .at n => ((c.readAt n).2, if (c.readAt n).2 = .ok true then some (c.readAt n).1.base.point else none)
  | .seek n => ((c.seek n).2, none)
  | .filters _ => (.ok true, none)
  | .transforms _ => (.ok true, none)

/-- The reports of a sequence of calls on a cached reader. -/
def cachedReports (env : Env) (b : Build) : Cached → List Call → List (Outcome Bool × Option (List Byte))
  | _, [] => []
  | c, .op o :: cs => cachedReport c o :: cachedReports env b (cachedStep c o) cs
  | c, .reset :: cs => resetReport (c.reset env b) :: cachedReports env b (orKeep (c.reset env b) c) cs

/-- What the caller knows: the point at which sequential reading stands (if the two kinds of reader agree on it), and
whether a point has been read at all. -/
structure Known where
  pos : Option Nat
  started : Bool

/-- How a call changes it, for a file of `n` points. Reading a point directly, a seek past the end and a change of the
filters or transforms make the position unknown (at the very start a change of transforms keeps it). -/
def Known.after (n : Nat) (s : Known) : Call → Known
  | .op .next =>
    match s.pos with
    | some k => if k < n then ⟨some (k + 1), true⟩ else s
    | none => s
  | .op (.at i) => if i < n then ⟨none, true⟩ else s
  | .op (.seek i) => if i < n then ⟨some i, s.started⟩ else ⟨none, s.started⟩
  | .op (.filters _) => if s.pos = some 0 then s else ⟨none, s.started⟩
  | .op (.transforms _) => if s.pos = some 0 then s else ⟨none, s.started⟩
  | .reset => if s.started ∨ s.pos = some 0 then ⟨some 0, s.started⟩ else ⟨none, s.started⟩

/-- The sequential reads of the sequence happen only where the position is known, and no filters are set. -/
def Plain (n : Nat) : Known → List Call → Prop
  | _, [] => True
  | s, c :: cs =>
    (match c with
      | .op .next => s.pos.isSome = true
      | .op (.filters fs) => fs = []
      | .op (.transforms ts) => ∀ t ∈ ts, ∀ p : List Byte, (t p).length = p.length
      | _ => True) ∧
    Plain n (s.after n c) cs

end LibLAS.Spec
