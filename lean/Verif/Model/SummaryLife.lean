import Verif.Model.Summary
/-
src/utility.cpp, include/liblas/utility.hpp: `Summary` objects being copied, assigned and destroyed. The points `minimum`
and `maximum` of a summary refer to a header by address (include/liblas/point.hpp:217 `Header const* m_header`): that of
the summary they were made in, or that of the reader the first point came from. Model/Summary has the values; here are
the objects and what they refer to. Programs: apps/lasinfo.cpp (`check_points`, `main`), apps/laskernel.cpp
(`SummarizeReader`). `CoordinateSummary` (src/utility.cpp:582-684) copies in the same way and is not modelled here.
-/
namespace LibLAS.SummaryLife

/-- Whose header the points `minimum` and `maximum` refer to. -/
inductive Home where
  /-- `m_header` of a summary object -/
  | summary (i : Nat)
  /-- the header of an open reader -/
  | source (k : Nat)
  deriving DecidableEq, Repr

/-- A `Summary` object. `val.header` is the present `m_header` if `bHaveHeader`; `val.ext` is `none` while `first`. The
headers inside `val.ext` are not meaningful: what counts is where `home` leads (`none`: `minimum` is a null pointer). -/
structure Obj where
  val : Summary
  home : Option Home
  deriving DecidableEq, Repr

/-- All summary objects ever made (`none`: destroyed) and all readers ever opened (`none`: closed). -/
structure World where
  objs : List (Option Obj)
  sources : List (Option PHeader)
  deriving DecidableEq, Repr

/-- Using an object: undefined if there is none, or no more. -/
def World.get (w : World) (i : Nat) : Outcome Obj :=
  match w.objs[i]? with
  | some (some o) => .ok o
  | _ => .ub

/-- Replace an object. -/
def World.put (w : World) (i : Nat) (o : Option Obj) : World := { w with objs := w.objs.set i o }

/-- Dereferencing the header pointer of `minimum` or `maximum`. -/
def World.headerAt (w : World) : Home → Outcome PHeader
  | .summary i =>
    match w.objs[i]? with
    | some (some o) => match o.val.header with
      | some h => .ok h
      | none => .ub
    | _ => .ub
  | .source k =>
    match w.sources[k]? with
    | some (some h) => .ok h
    | _ => .ub

/-- Both points with the header they refer to. -/
def rehome (h : PHeader) (e : Extremes) : Extremes := ⟨{ e.minimum with hdr := h }, { e.maximum with hdr := h }⟩

/-- The two points made by `SetHeader` (src/utility.cpp:311-312). -/
def blanks (h : PHeader) : Extremes := ⟨Point.new h, Point.new h⟩

/-- The header the extremes refer to; `minimum` is a null pointer in a new summary. -/
def World.extHeader (w : World) (o : Obj) : Outcome PHeader :=
  match o.home with
  | none => .ub
  | some hm => w.headerAt hm

/-- The summary as a computation sees it: once there are points, the extremes with the header they refer to. -/
def World.load (w : World) (o : Obj) : Outcome Summary :=
  match o.val.ext with
  | none => .ok o.val
  | some e => do
    let h ← w.extHeader o
    pure { o.val with ext := some (rehome h e) }

/-- src/utility.cpp:133-137: after the first point `m_header` has its scale and offset. -/
def adopt (p : Point) (h : PHeader) : PHeader := ⟨h.fmt, h.recLen, h.hasTimeDim, h.hasRedDim, p.hdr.scale, p.hdr.offset⟩

/-- The object after `AddPoint`: at the first point the extremes are made anew, as copies of the point (:117-118), and
re-homed to the own `m_header` if a header was given (:127-131). `s` is the new value. -/
def Obj.added (o : Obj) (i k : Nat) (p : Point) (s : Summary) : Obj :=
  match o.val.ext with
  | some _ => { o with val := s }
  | none =>
    match o.val.header with
    | some h => ⟨{ s with header := some (adopt p h) }, some (.summary i)⟩
    | none => ⟨s, some (.source k)⟩

/-- src/utility.cpp:307-315 `SetHeader`, at any time. `first` stays as it is. -/
def Obj.setHeader (o : Obj) (i : Nat) (h : PHeader) : Obj :=
  ⟨{ o.val with header := some h, ext := o.val.ext.map fun _ => blanks h }, some (.summary i)⟩

/-- src/utility.cpp:71-109: what the copy constructor and the assignment take over. `new Point(*other.minimum)` with a
null `minimum` is undefined; the copy refers to the same header (src/point.cpp:75-80). -/
def Obj.copied (o : Obj) : Outcome Obj :=
  match o.home with
  | none => .ub
  | some _ => .ok o

/-- What a program does. -/
inductive Op where
  /-- a reader with this header is opened -/
  | source (h : PHeader)
  /-- the reader is closed (its header destroyed) -/
  | close (k : Nat)
  /-- `Summary s;` -/
  | new
  | setHeader (i : Nat) (h : PHeader)
  /-- `AddPoint` of a point of reader `k` -/
  | add (i k : Nat) (p : Point)
  /-- `Summary t(s_i);` -/
  | copy (i : Nat)
  /-- `s_i = s_j;` -/
  | assign (i j : Nat)
  /-- `s_i` goes out of scope -/
  | destroy (i : Nat)
  deriving DecidableEq, Repr

/-- One operation. Adding a point that is not of an open reader is outside the model and counted as undefined. -/
def step (b : Build) (w : World) : Op → Outcome World
  | .source h => .ok { w with sources := w.sources ++ [some h] }
  | .close k => .ok { w with sources := w.sources.set k none }
  | .new => .ok { w with objs := w.objs ++ [some ⟨Summary.new, none⟩] }
  | .setHeader i h => do
    let o ← w.get i
    pure (w.put i (some (o.setHeader i h)))
  | .add i k p =>
    if w.sources[k]? = some (some p.hdr) then do
      let o ← w.get i
      let s ← w.load o
      let s' ← s.addPoint b p
      pure (w.put i (some (o.added i k p s')))
    else .ub
  | .copy i => do
    let o ← w.get i
    let c ← o.copied
    pure { w with objs := w.objs ++ [some c] }
  | .assign i j => do
    let _ ← w.get i
    let o ← w.get j
    if i = j then pure w
    else do
      let c ← o.copied
      pure (w.put i (some c))
  | .destroy i => do
    let _ ← w.get i
    pure (w.put i none)

/-- A sequence of operations. -/
def run (b : Build) : List Op → World → Outcome World
  | [], w => .ok w
  | op :: ops, w => do
    let w ← step b w op
    run b ops w

/-- src/utility.cpp:323-390 `GetPTree`: the contents shown (Model/SummaryXml has the tree made of them). `minimum` and
`maximum` are read through the header they refer to; before the first point they are the blank points of `SetHeader`. -/
def report (w : World) (i : Nat) : Outcome Summary := do
  let o ← w.get i
  let h ← w.extHeader o
  pure { o.val with ext := some (rehome h (o.val.ext.getD (blanks h))) }

/-- No objects yet. -/
def World.empty : World := ⟨[], []⟩

/-- `AddPoint` for every point of reader `k`. -/
def addOps (i k : Nat) (ps : List Point) : List Op := ps.map (.add i k)

/-- apps/laskernel.cpp:1448-1467 `SummarizeReader` after the check for a first point: reader 0, summary 0. -/
def summarizeReader (h : PHeader) (ps : List Point) : List Op := [.source h, .new] ++ addOps 0 0 ps

/-- apps/lasinfo.cpp:232-238 with `check`, and :25-65 `check_points`: reader 0, `summary` of `main` is 0, that of
`check_points` is 1. The compiler may make the returned object in place (`elide`) or copy it. -/
def lasinfo (elide : Bool) (h : PHeader) (ps : List Point) : List Op :=
  [.source h, .new, .new, .setHeader 1 h] ++ addOps 1 0 ps ++
    (if elide then [.assign 0 1, .destroy 1] else [.copy 1, .destroy 1, .assign 0 2, .destroy 2])

end LibLAS.SummaryLife
