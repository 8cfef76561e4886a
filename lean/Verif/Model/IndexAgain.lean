import Verif.Model.IndexLife
/-
An `Index` that is prepared more than once: src/index.cpp:48-101, :103-134, :258-340. Simplifications: those of Model/IndexLife; readers
given by callers are values; when `IndexInit` throws, the header and the number of the data records count as left as they were.
-/
namespace LibLAS.Index

/-- src/index.cpp:63-101 `Prep`, :136-197 `IndexInit` as in `prep` (Model/IndexLife), with the number of the data records that the object has
(43 for a new one, :123). -/
def prepFrom (env : Env) (b : LibLAS.Build) (s : Setup) (r : Reader) (idx : Option Header) (id : Nat) : Outcome Life :=
  let ih := idx.getD r.hdr
  (findHeader ih.vlrs ih.recordsCount.toNat 0).bind fun found =>
    match found with
    | none => buildUnlessReadOnly env b s r ih id
    | some v =>
      (loadInfo v).bind fun o =>
        match o with
        | none => .ub
        | some i =>
          if s.forceNew then
            (clearOldIndex i.dataId (s.named i) ih).bind fun c => buildUnlessReadOnly env b c.1 r c.2 i.dataId
          else
            (validate i r.hdr).bind fun good =>
              if good then .ok ⟨true, ih, some i, none⟩ else buildUnlessReadOnly env b (s.named i) r ih i.dataId

/-- The index header that `IndexInit` reads, if there is one (src/index.cpp:152-166). -/
def headerRead (h : Header) : Option Info :=
  match findHeader h.vlrs h.recordsCount.toNat 0 with
  | .ok (some v) =>
    match loadInfo v with
    | .ok o => o
    | _ => none
  | _ => none

/-- The members of an `Index` that a second `Prep` finds (include/liblas/index.hpp:134-146): the reader, whether the object has made it,
whether the index is ready, the header with the index and the number of the data records. `lost` counts the readers the object has made
that nothing points to any more. -/
structure Obj where
  reader : Option Reader
  made : Bool
  ready : Bool
  hdr : Header
  dataId : Nat
  lost : Nat

/-- src/index.cpp:48-52, :103-128: a new object. -/
def Obj.new (h : Header) : Obj := ⟨none, false, false, h, 43, 0⟩

/-- What `Prep` is called with: the settings, a reader or a stream, and perhaps the header of an index file. -/
structure PrepCall where
  s : Setup
  given : Option Reader
  stream : IStream
  idx : Option Header

/-- src/index.cpp:66-75: the reader used; `true` with one made. -/
def PrepCall.open (env : Env) (today : BitVec 16 × BitVec 16) (c : PrepCall) : Outcome (Reader × Bool) :=
  match c.given with
  | some r => .ok (r, false)
  | none => (Reader.make env today c.stream).bind fun r => .ok (r, true)

/-- src/index.cpp:63-101 `Prep`. The reader that the object had made is not deleted when its pointer is overwritten (:66-68). -/
def Obj.prep (env : Env) (today : BitVec 16 × BitVec 16) (b : LibLAS.Build) (o : Obj) (c : PrepCall) : Obj × Outcome Bool :=
  let lost := if o.made then o.lost + 1 else o.lost
  match c.open env today with
  | .throw e => ({ o with reader := none, made := false, lost := lost }, if e.isRuntime then .ok false else .throw e)
  | .ub => ({ o with reader := none, made := false, lost := lost }, .ub)
  | .ok (r, made) =>
    let o := { o with reader := some r, made := made, lost := lost }
    match prepFrom env b c.s r c.idx o.dataId with
    | .throw e => (o, .throw e)
    | .ub => (o, .ub)
    | .ok life =>
      let id := match headerRead (c.idx.getD r.hdr) with
        | some i => i.dataId
        | none => o.dataId
      ({ o with ready := life.ready, hdr := life.hdr, dataId := id }, .ok life.ready)

/-- src/index.cpp:258-340 `Filter` without an iterator, for an object: nothing without a reader (:270). -/
def Obj.filter (o : Obj) (pts : List Pt) (q : Query) (pos : RPos) : Outcome (List Nat) :=
  match o.reader with
  | none => .ok []
  | some _ => Index.filter pts o.hdr.vlrs q pos

/-- Several calls of `Prep`. -/
def Obj.prepAll (env : Env) (today : BitVec 16 × BitVec 16) (b : LibLAS.Build) (o : Obj) (cs : List PrepCall) : Obj :=
  cs.foldl (fun o c => (o.prep env today b c).1) o

/-- src/index.cpp:130-134 `~Index`: the number of readers the object has made that are never deleted. -/
def Obj.leftover (o : Obj) : Nat := o.lost

end LibLAS.Index
