import Verif.Model.CApi
/-
src/c_api.cpp, src/point.cpp: the points and headers a C program holds. A point refers to its header by address
(include/liblas/point.hpp:217 `Header const* m_header`), a header handle owns its header (`new HeaderPtr(new Header(...))`), and
an open reader owns the header its point refers to. Model/CApi has the calls on one object; here are the objects together, and what
they refer to.
-/
namespace LibLAS.PointLife

/-- A `Point` object: `m_data` and where `m_header` leads. -/
structure Obj where
  data : List Byte
  home : Nat
  deriving DecidableEq, Repr

/-- A `Reader` object: its point and its header. -/
structure Source where
  point : Nat
  header : Nat
  deriving DecidableEq, Repr

/-- All headers, points and readers ever made (`none`: destroyed). Of a header only what a point uses of it is kept. Header 0 is the
static default header (src/header.cpp `DefaultHeader`), to which no handle leads. -/
structure World where
  headers : List (Option PHeader)
  points : List (Option Obj)
  readers : List (Option Source)
  deriving DecidableEq, Repr

/-- A process that has made nothing yet; `dflt` is the default header. -/
def start (dflt : PHeader) : World := ⟨[some dflt], [], []⟩

/-- Using something that may be there, or may have been destroyed. -/
def use {α : Type} (l : List (Option α)) (i : Nat) : Outcome α :=
  match l[i]? with
  | some (some a) => .ok a
  | _ => .ub

/-- Dereferencing `m_header`: the point as its accessors see it. -/
def World.load (w : World) (o : Obj) : Outcome Point := do
  let h ← use w.headers o.home
  pure ⟨o.data, h⟩

/-- The point behind a handle, as the accessors that use the header see it. -/
def World.look (w : World) (i : Nat) : Outcome Point := do
  let o ← use w.points i
  w.load o

/-- The setters that look at the header: the scaled coordinates (src/point.cpp:413-457), time (:784-803) and colour (:898-965). -/
def usesHeader : CApi.PointSet → Bool
  | .x _ | .y _ | .z _ | .time _ | .color _ => true
  | _ => false

/-- What the C program does. -/
inductive Op where
  /-- a new header handle with this content: `LASHeader_Create`, `LASHeader_Copy`, `LASReader_GetHeader`, `LASPoint_GetHeader`
  (c_api.cpp:488-494, :542-562, :1578-1581) -/
  | header (h : PHeader)
  /-- a `LASHeader_Set...` call on header `j` that leaves this content -/
  | alter (j : Nat) (h : PHeader)
  /-- `LASHeader_Destroy` (c_api.cpp:1571-1576) -/
  | dropHeader (j : Nat)
  /-- `LASPoint_Create` (c_api.cpp:546-548) -/
  | point
  /-- `LASPoint_Copy` (c_api.cpp:550-552) -/
  | copy (i : Nat)
  /-- `LASPoint_SetHeader` (c_api.cpp:564-574) -/
  | give (i j : Nat)
  /-- `LASPoint_Set...` -/
  | set (i : Nat) (s : CApi.PointSet)
  /-- `LASPoint_SetData` (c_api.cpp:576-606) -/
  | data (i : Nat) (d : List Byte)
  /-- `LASPoint_Destroy` (c_api.cpp:635-639) -/
  | dropPoint (i : Nat)
  /-- a reader is opened on a file with this header: its header and its point (c_api.cpp:170-230) -/
  | openReader (h : PHeader)
  /-- the reader reads a record into its point: `LASReader_GetNextPoint`, `LASReader_GetPointAt` (c_api.cpp:368-412) -/
  | read (k : Nat) (d : List Byte)
  /-- `LASReader_Destroy`: the reader's point and header go with it (c_api.cpp:331-365) -/
  | close (k : Nat)
  deriving DecidableEq, Repr

/-- The data of a point after a setter, with the code the C function returns. -/
def settle (b : Build) (p : Point) (s : CApi.PointSet) : Outcome (List Byte × CApi.Code) :=
  match CApi.pointSet b (fun _ => []) [] (some p) s with
  | .ok (c, some q, _) => .ok (q.data, c)
  | .ok (c, none, _) => .ok (p.data, c)
  | .throw e => .throw e
  | .ub => .ub

/-- A point with a header nobody looks at. -/
def unlooked (d : List Byte) : Point := ⟨d, ⟨.f0, 0, false, false, ⟨.fin 1, .fin 1, .fin 1⟩, ⟨.fin 0, .fin 0, .fin 0⟩⟩⟩

/-- The point a setter works on: the header is dereferenced only by the setters that use it. -/
def World.loadFor (w : World) (o : Obj) (s : CApi.PointSet) : Outcome Point :=
  if usesHeader s then w.load o else .ok (unlooked o.data)

/-- Point::SetHeader (src/point.cpp:182-288): a record of zeros is replaced without a look at the old header (:201-208). -/
def World.rehome (b : Build) (w : World) (o : Obj) (h : PHeader) : Outcome (List Byte) :=
  if Point.byteSum o.data = 0 then .ok (List.replicate h.recLen 0#8)
  else do
    let p ← w.load o
    let q ← Point.setHeader b p h
    pure q.data

/-- The record of `LASPoint_SetData`. -/
def assignData (p : Point) (d : List Byte) : Outcome (List Byte × CApi.Code) :=
  match CApi.pointSetData [] (some p) (some d) with
  | .ok (c, some q, _) => .ok (q.data, c)
  | .ok (c, none, _) => .ok (p.data, c)
  | .throw e => .throw e
  | .ub => .ub

/-- One call, with the code it returns (`none` where it returns none). -/
def step (b : Build) (w : World) : Op → Outcome (World × CApi.Code)
  | .header h => .ok ({ w with headers := w.headers ++ [some h] }, .none)
  | .alter j h =>
    if j = 0 then .ub
    else do
      let _ ← use w.headers j
      pure ({ w with headers := w.headers.set j (some h) }, .none)
  | .dropHeader j =>
    if j = 0 then .ub
    else do
      let _ ← use w.headers j
      pure ({ w with headers := w.headers.set j none }, .none)
  | .point => do
    let h ← use w.headers 0
    pure ({ w with points := w.points ++ [some ⟨List.replicate h.recLen 0#8, 0⟩] }, .none)
  | .copy i => do
    let o ← use w.points i
    pure ({ w with points := w.points ++ [some o] }, .none)
  | .give i j => do
    let o ← use w.points i
    let h ← use w.headers j
    let d ← w.rehome b o h
    pure ({ w with points := w.points.set i (some ⟨d, j⟩) }, .none)
  | .set i s => do
    let o ← use w.points i
    let p ← w.loadFor o s
    let r ← settle b p s
    pure ({ w with points := w.points.set i (some ⟨r.1, o.home⟩) }, r.2)
  | .data i d => do
    let o ← use w.points i
    let p ← w.load o
    let r ← assignData p d
    pure ({ w with points := w.points.set i (some ⟨r.1, o.home⟩) }, r.2)
  | .dropPoint i => do
    let _ ← use w.points i
    pure ({ w with points := w.points.set i none }, .none)
  | .openReader h =>
    .ok (⟨w.headers ++ [some h], w.points ++ [some ⟨List.replicate h.recLen 0#8, w.headers.length⟩],
      w.readers ++ [some ⟨w.points.length, w.headers.length⟩]⟩, .none)
  | .read k d => do
    let r ← use w.readers k
    let o ← use w.points r.point
    pure ({ w with points := w.points.set r.point (some ⟨d, o.home⟩) }, .none)
  | .close k => do
    let r ← use w.readers k
    let _ ← use w.points r.point
    let _ ← use w.headers r.header
    pure (⟨w.headers.set r.header none, w.points.set r.point none, w.readers.set k none⟩, .none)

/-- A program: the world it ends in and the codes it got. -/
def run (b : Build) : List Op → World → Outcome (World × List CApi.Code)
  | [], w => .ok (w, [])
  | op :: ops, w => do
    let x ← step b w op
    let y ← run b ops x.1
    pure (y.1, x.2 :: y.2)

end LibLAS.PointLife
