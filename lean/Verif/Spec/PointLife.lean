import Verif.Model.PointLife
/-
C100, what a C programmer expects: a point has its header as a value. Nothing that is done to the header handle afterwards, or to the
reader the point came from, matters to the point.
-/
namespace LibLAS.PointLife

/-- Points with their headers inside them. -/
structure Values where
  headers : List (Option PHeader)
  points : List (Option Point)
  readers : List (Option Source)

def startValues (dflt : PHeader) : Values := ⟨[some dflt], [], []⟩

/-- The point behind a handle. -/
def Values.look (v : Values) (i : Nat) : Outcome Point := use v.points i

/-- One call. Using a handle that was destroyed is undefined here as well. -/
def expect (b : Build) (v : Values) : Op → Outcome (Values × CApi.Code)
  | .header h => .ok ({ v with headers := v.headers ++ [some h] }, .none)
  | .alter j h =>
    if j = 0 then .ub
    else do
      let _ ← use v.headers j
      pure ({ v with headers := v.headers.set j (some h) }, .none)
  | .dropHeader j =>
    if j = 0 then .ub
    else do
      let _ ← use v.headers j
      pure ({ v with headers := v.headers.set j none }, .none)
  | .point => do
    let h ← use v.headers 0
    pure ({ v with points := v.points ++ [some (Point.new h)] }, .none)
  | .copy i => do
    let p ← use v.points i
    pure ({ v with points := v.points ++ [some p] }, .none)
  | .give i j => do
    let p ← use v.points i
    let h ← use v.headers j
    let q ← Point.setHeader b p h
    pure ({ v with points := v.points.set i (some ⟨q.data, h⟩) }, .none)
  | .set i s => do
    let p ← use v.points i
    let r ← settle b p s
    pure ({ v with points := v.points.set i (some ⟨r.1, p.hdr⟩) }, r.2)
  | .data i d => do
    let p ← use v.points i
    let r ← assignData p d
    pure ({ v with points := v.points.set i (some ⟨r.1, p.hdr⟩) }, r.2)
  | .dropPoint i => do
    let _ ← use v.points i
    pure ({ v with points := v.points.set i none }, .none)
  | .openReader h =>
    .ok (⟨v.headers ++ [some h], v.points ++ [some (Point.new h)],
      v.readers ++ [some ⟨v.points.length, v.headers.length⟩]⟩, .none)
  | .read k d => do
    let r ← use v.readers k
    let p ← use v.points r.point
    pure ({ v with points := v.points.set r.point (some ⟨d, p.hdr⟩) }, .none)
  | .close k => do
    let r ← use v.readers k
    let _ ← use v.points r.point
    let _ ← use v.headers r.header
    pure (⟨v.headers.set r.header none, v.points.set r.point none, v.readers.set k none⟩, .none)

def expectRun (b : Build) : List Op → Values → Outcome (Values × List CApi.Code)
  | [], v => .ok (v, [])
  | op :: ops, v => do
    let x ← expect b v op
    let y ← expectRun b ops x.1
    pure (y.1, x.2 :: y.2)

/-- What a program can tell by its own calls: how many headers there are, which header each point was given last (`none`: the
point was destroyed), what its readers own, and which headers were destroyed. -/
structure Record where
  headers : Nat
  given : List (Option Nat)
  readers : List (Option Source)
  freed : List Nat

def Record.start : Record := ⟨1, [], [], []⟩

def Record.next (t : Record) : Op → Record
  | .header _ => { t with headers := t.headers + 1 }
  | .alter _ _ | .set _ _ | .data _ _ | .read _ _ => t
  | .dropHeader j => { t with freed := j :: t.freed }
  | .point => { t with given := t.given ++ [some 0] }
  | .copy i => { t with given := t.given ++ [(t.given[i]?).join] }
  | .give i j => { t with given := t.given.set i (some j) }
  | .dropPoint i => { t with given := t.given.set i none }
  | .openReader _ =>
    ⟨t.headers + 1, t.given ++ [some t.headers], t.readers ++ [some ⟨t.given.length, t.headers⟩], t.freed⟩
  | .close k =>
    match (t.readers[k]?).join with
    | some r =>
      { t with given := t.given.set r.point none, readers := t.readers.set k none, freed := r.header :: t.freed }
    | none => t

/-- What the program can tell after these calls. -/
def recordAfter (ops : List Op) : Record := ops.foldl Record.next .start

/-- No point that still exists has this header. -/
def Record.unused (t : Record) (j : Nat) : Prop := ∀ i : Nat, t.given[i]? ≠ some (some j)

/-- The call does not touch a header of a point that still exists. Closing a reader may end its own point. -/
def Record.Allowed (t : Record) : Op → Prop
  | .alter j _ | .dropHeader j => t.unused j
  | .close k => ∀ r, t.readers[k]? = some (some r) → ∀ i : Nat, i ≠ r.point → t.given[i]? ≠ some (some r.header)
  | _ => True

/-- Headers are changed and destroyed, and readers closed, only when no point (or copy of a point) has their header any more. -/
def Careful : Record → List Op → Prop
  | _, [] => True
  | t, op :: ops => t.Allowed op ∧ Careful (t.next op) ops

end LibLAS.PointLife
