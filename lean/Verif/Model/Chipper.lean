import Verif.Model.Bounds
/-
src/chipper.cpp, include/liblas/chipper.hpp: tiling a point set into blocks.

Simplifications, all of them also in DESIGN.md:
* `Load` is taken on the list of the (x, y) doubles that the reader delivers, not on a reader; the number of
  elements the spare list is resized to (`GetPointRecordsCount()`) is a parameter.
* memory-mapped allocation (`m_use_maps`) is not modelled: a vector is a length and its contents.
* `std::sort` is a parameter of the model: the standard only says that it leaves a sorted permutation when the
  comparison is a strict weak ordering. The comparisons used are strict weak orderings unless a coordinate is a NaN;
  a NaN coordinate is undefined behaviour here.
* the number of points is below 2^32 (the `uint32_t` counters do not wrap).
* one call of `Chip()`.
-/
namespace LibLAS.Chipper

/-- include/liblas/chipper.hpp:23-32 -/
structure PtRef where
  pos : Fl
  ptindex : Nat
  oindex : Nat
  deriving DecidableEq, Repr

/-- include/liblas/chipper.hpp:16-21 -/
inductive Dir | x | y | none
  deriving DecidableEq, Repr

/-- include/liblas/chipper.hpp:35-76 `RefList`: its direction, the length and the contents of the vector. -/
structure RefList where
  dir : Dir
  len : Nat
  ref : Nat → PtRef

/-- Which of the three lists of the chipper a `RefList&` or `RefList*` refers to. -/
inductive Slot | x | y | spare
  deriving DecidableEq, Repr

/-- include/liblas/chipper.hpp:80-98 -/
structure Block where
  list : Slot
  left : Nat
  right : Nat
  bounds : Bounds
  deriving DecidableEq, Repr

/-- include/liblas/chipper.hpp:101-117 (`m_use_maps`, `m_map_file` not modelled) -/
structure Options where
  threshold : Nat := 1000
  useSort : Bool := false

/-- include/liblas/chipper.hpp:149-157: the lists and the blocks of a `Chipper`. -/
structure St where
  lists : Slot → RefList
  blocks : List Block

/-- What the platform's `std::sort` leaves, given the comparison and the elements. -/
abbrev Sorter := (PtRef → PtRef → Bool) → List PtRef → List PtRef

/-- chipper.hpp:62-63 `operator[]` -/
def get (s : St) (a : Slot) (i : Nat) : Outcome PtRef :=
  if i < (s.lists a).len then .ok ((s.lists a).ref i) else .ub

/-- Assignment of an element. -/
def put (s : St) (a : Slot) (i : Nat) (r : PtRef) : Outcome St :=
  if i < (s.lists a).len then
    .ok { s with lists := fun b => if b = a then { s.lists a with ref := fun j => if j = i then r else (s.lists a).ref j } else s.lists b }
  else .ub

/-- Assignment of `m_oindex` of an element. -/
def putOIndex (s : St) (a : Slot) (i : Nat) (o : Nat) : Outcome St := do
  let w ← get s a i
  put s a i { w with oindex := o }

/-- Assignment of `m_dir`. -/
def setDir (s : St) (a : Slot) (d : Dir) : St :=
  { s with lists := fun b => if b = a then { s.lists a with dir := d } else s.lists b }

/-- The elements `[l, l+n)` of a vector as a list. -/
def slice (f : Nat → PtRef) (l n : Nat) : List PtRef := (List.range' l n).map f

/-- Replace the elements from `l` on by a list. -/
def paste (f : Nat → PtRef) (l : Nat) (xs : List PtRef) : Nat → PtRef :=
  fun j => if l ≤ j then (xs[j - l]?).getD (f j) else f j

/-- chipper.hpp:30-31 `PtRef::operator<` -/
def posLt (p q : PtRef) : Bool := Fl.lt p.pos q.pos

/-- src/chipper.cpp:84-105 `OIndexSorter::operator()` -/
def oindexLt (center : Nat) (p1 p2 : PtRef) : Bool :=
  if p1.oindex < center ∧ center ≤ p2.oindex then true
  else if center ≤ p1.oindex ∧ p2.oindex < center then false
  else Fl.lt p1.pos p2.pos

/-- src/chipper.cpp:107-114 `SortByOIndex`: sort `[left, right]`; iterators past the end are undefined. -/
def sortByOIndex (sort : Sorter) (s : St) (a : Slot) (left center right : Nat) : Outcome St :=
  if right < (s.lists a).len ∧ left ≤ right + 1 then
    .ok { s with lists := fun b =>
      if b = a then
        { s.lists a with ref := paste (s.lists a).ref left (sort (oindexLt center) (slice (s.lists a).ref left (right + 1 - left))) }
      else s.lists b }
  else .ub

/-- src/chipper.cpp:308-311, the loop after the sort, from `i` on for `n` iterations. -/
def relink (wide narrow : Slot) : Nat → Nat → St → Outcome St
  | 0, _, s => .ok s
  | n + 1, i, s => do
    let e ← get s narrow i
    let s1 ← putOIndex s wide e.oindex i
    relink wide narrow n (i + 1) s1

/-- src/chipper.cpp:321-335, the copy loop, from `i` on for `n` iterations. -/
def copyLoop (wide narrow spare : Slot) (center : Nat) : Nat → Nat → Nat → Nat → St → Outcome St
  | 0, _, _, _, s => .ok s
  | n + 1, i, lstart, rstart, s => do
    let e ← get s narrow i
    if e.oindex < center then do
      let s1 ← put s spare lstart e
      let s2 ← putOIndex s1 wide e.oindex lstart
      copyLoop wide narrow spare center n (i + 1) (lstart + 1) rstart s2
    else do
      let s1 ← put s spare rstart e
      let s2 ← putOIndex s1 wide e.oindex rstart
      copyLoop wide narrow spare center n (i + 1) lstart (rstart + 1) s2

/-- src/chipper.cpp:302-337 `RearrangeNarrow` -/
def rearrangeNarrow (sort : Sorter) (o : Options) (wide narrow spare : Slot) (left center right : Nat) (s : St) : Outcome St :=
  if o.useSort then do
    let s1 ← sortByOIndex sort s narrow left center right
    relink wide narrow (right + 1 - left) left s1
  else copyLoop wide narrow spare center (right + 1 - left) left left center s

/-- src/chipper.cpp:416-440 `Emit` -/
def emit (wide : Slot) (widemin widemax : Nat) (narrow : Slot) (narrowmin narrowmax : Nat) (s : St) : Outcome St := do
  let w0 ← get s wide widemin
  let n0 ← get s narrow narrowmin
  let w1 ← get s wide widemax
  let n1 ← get s narrow narrowmax
  let bnd := if (s.lists wide).dir = .x then Bounds.make2 w0.pos n0.pos w1.pos n1.pos
    else Bounds.make2 n0.pos w0.pos n1.pos w1.pos
  pure { s with blocks := s.blocks ++ [⟨wide, widemin, widemax, bnd⟩] }

/-- One of the two scans of `FinalSplit` (src/chipper.cpp:368-399): over the indices in the given order, the first
index whose partner is left of the center and the first whose partner is not; `none` is the `-1` of the code. -/
def finalScan (s : St) (narrow : Slot) (center : Nat) : List Nat → Option Nat → Option Nat → Outcome (Option Nat × Option Nat)
  | [], a, b => .ok (a, b)
  | i :: is, a, b => do
    let e ← get s narrow i
    if a = none ∧ e.oindex < center then
      (if b ≠ none then .ok (some i, b) else finalScan s narrow center is (some i) b)
    else if b = none ∧ center ≤ e.oindex then
      (if a ≠ none then .ok (a, some i) else finalScan s narrow center is a (some i))
    else finalScan s narrow center is a b

/-- `static_cast<uint32_t>` of an index or of -1. -/
def index32 : Option Nat → Nat
  | some i => i
  | none => 4294967295

/-- `p - 1` in `uint32_t`. -/
def pred32 (p : Nat) : Nat := (p + 4294967295) % 4294967296

/-- src/chipper.cpp:342-414 `FinalSplit` -/
def finalSplit (wide narrow : Slot) (left center right : Nat) (s : St) : Outcome St := do
  let idx := List.range' left (right + 1 - left)
  let (left1, left2) ← finalScan s narrow center idx none none
  let (right1, right2) ← finalScan s narrow center idx.reverse none none
  let s1 ← emit wide left (pred32 center) narrow (index32 left1) (index32 right1) s
  emit wide center right narrow (index32 left2) (index32 right2) s1

/-- `m_partitions[i]` -/
def part (ps : List Nat) (i : Nat) : Outcome Nat :=
  match ps[i]? with
  | some p => .ok p
  | none => .ub

/-- src/chipper.cpp:259-300 `Split`; `rec` is `DecideSplit`. -/
def split (sort : Sorter) (o : Options) (ps : List Nat)
    (rec : Slot → Slot → Slot → Nat → Nat → St → Outcome St)
    (wide narrow spare : Slot) (pleft pright : Nat) (s : St) : Outcome St := do
  let left ← part ps pleft
  let pr ← part ps pright
  let right := pred32 pr
  if pright - pleft = 1 then emit wide left right narrow left right s
  else if pright - pleft = 2 then do
    let center ← part ps (pright - 1)
    finalSplit wide narrow left center right s
  else do
    let pcenter := (pleft + pright) / 2
    let center ← part ps pcenter
    let s1 ← rearrangeNarrow sort o wide narrow spare left center right s
    let dir := (s1.lists narrow).dir
    let s2 := setDir s1 spare dir
    let (second, third) := if o.useSort then (narrow, spare) else (spare, narrow)
    let s3 ← rec wide second third pleft pcenter s2
    let s4 ← rec wide second third pcenter pright s3
    pure (setDir s4 narrow dir)

/-- src/chipper.cpp:241-257 `DecideSplit`. The recursion takes a fuel; running out of it is an unbounded recursion. -/
def decideSplit (sort : Sorter) (o : Options) (ps : List Nat) : Nat → Slot → Slot → Slot → Nat → Nat → St → Outcome St
  | 0, _, _, _, _, _, _ => .ub
  | fuel + 1, v1, v2, spare, pleft, pright, s => do
    let left ← part ps pleft
    let pr ← part ps pright
    let right := pred32 pr
    let a1 ← get s v1 right
    let a0 ← get s v1 left
    let b1 ← get s v2 right
    let b0 ← get s v2 left
    if Fl.lt (Fl.sub b1.pos b0.pos) (Fl.sub a1.pos a0.pos) then
      split sort o ps (decideSplit sort o ps fuel) v1 v2 spare pleft pright s
    else split sort o ps (decideSplit sort o ps fuel) v2 v1 spare pleft pright s

/-- include/liblas/detail/private_utility.hpp:68-70 `sround` -/
def sround (r : Fl) : Fl :=
  if Fl.lt (.fin 0) r then Fl.floor (Fl.add r (.fin (1 / 2))) else Fl.ceil (Fl.sub r (.fin (1 / 2)))

/-- `static_cast<uint32_t>(double)`: truncation; undefined when the value does not fit. -/
def toUInt32 : Fl → Outcome Nat
  | .fin q =>
    let t : ℤ := if 0 ≤ q then ⌊q⌋ else ⌈q⌉
    if 0 ≤ t ∧ t ≤ 4294967295 then .ok t.toNat else .ub
  | _ => .ub

/-- src/chipper.cpp:234-238, the loop of `Partition`: the partitions pushed by `n` iterations. -/
def partitionLoop (size : Fl) : Nat → Fl → Outcome (List Nat)
  | 0, _ => .ok []
  | n + 1, total => do
    let total1 := Fl.add total size
    let p ← toUInt32 (sround total1)
    let rest ← partitionLoop size n total1
    pure (p :: rest)

/-- src/chipper.cpp:226-230: the number of partitions. -/
def numPartitions (size threshold : Nat) : Nat :=
  if size % threshold ≠ 0 then size / threshold + 1 else size / threshold

/-- src/chipper.cpp:224-239 `Partition` (division by a zero threshold is undefined). -/
def partition (size threshold : Nat) : Outcome (List Nat) :=
  if threshold = 0 then .ub
  else do
    let num := numPartitions size threshold
    let rest ← partitionLoop (Fl.div (.fin size) (.fin num)) num (.fin 0)
    pure (0 :: rest)

/-- The vector filled by the loop of `Load` (src/chipper.cpp:197-207) from the coordinates `v`. -/
def fill (v : List Fl) : Nat → PtRef := fun i => ⟨v.getD i .nan, i, 0⟩

/-- src/chipper.cpp:210-213: `yvec[xvec[i].ptindex].oindex = i`, from `i` on for `n` iterations. -/
def linkByPoint : Nat → Nat → St → Outcome St
  | 0, _, s => .ok s
  | n + 1, i, s => do
    let e ← get s .x i
    let s1 ← putOIndex s .y e.ptindex i
    linkByPoint n (i + 1) s1

/-- Sort a whole list by position. -/
def sortWhole (sort : Sorter) (s : St) (a : Slot) : St :=
  { s with lists := fun b =>
    if b = a then { s.lists a with ref := paste (s.lists a).ref 0 (sort posLt (slice (s.lists a).ref 0 (s.lists a).len)) }
    else s.lists b }

/-- src/chipper.cpp:188-222 `Load`, with the allocation (:147-186): `reserved` is the record count of the header. In
sort mode the spare list has no vector (it is never touched). -/
def load (sort : Sorter) (o : Options) (reserved : Nat) (pts : List (Fl × Fl)) : Outcome St :=
  if pts.any fun p => p.1 = .nan || p.2 = .nan then .ub
  else do
    let s0 : St := {
      lists := fun a => match a with
        | .x => ⟨.x, pts.length, fill (pts.map Prod.fst)⟩
        | .y => ⟨.y, pts.length, fill (pts.map Prod.snd)⟩
        | .spare => ⟨.none, if o.useSort then 0 else reserved, fun _ => ⟨.nan, 0, 0⟩⟩
      blocks := [] }
    let s1 := sortWhole sort s0 .x
    let s2 ← linkByPoint pts.length 0 s1
    let s3 := sortWhole sort s2 .y
    relink .x .y pts.length 0 s3

/-- src/chipper.cpp:139-145 `Chip` -/
def chip (sort : Sorter) (o : Options) (reserved : Nat) (pts : List (Fl × Fl)) : Outcome St := do
  let s ← load sort o reserved pts
  let ps ← partition (s.lists .x).len o.threshold
  decideSplit sort o ps (ps.length + 1) .x .y .spare 0 (ps.length - 1) s

/-- src/chipper.cpp:117-124 `Block::GetIDs`, evaluated in the state the chipper is left in. -/
def getIDs (s : St) (b : Block) : Outcome (List Nat) :=
  (List.range' b.left (b.right + 1 - b.left)).mapM fun i => do
    let e ← get s b.list i
    pure e.ptindex

end LibLAS.Chipper
