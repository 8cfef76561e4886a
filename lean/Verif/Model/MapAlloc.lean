import Verif.Model.Chipper
/-
include/liblas/detail/opt_allocator.hpp and `Chipper::Allocate` (src/chipper.cpp:147-186): the memory of a chipper,
from the heap or from a mapped file. The members of `opt_allocator<PtRef>` are static, so there is one set of
them in a process.

Simplifications: the heap never runs out; mapping a region inside the file succeeds; a mapped address is a number that
was not used before; opening the map file either fails and leaves everything as it is, or the file is created.
`sizeof(PtRef)` is 16; `size_t` has 64 bits.
-/
namespace LibLAS.MapAlloc

/-- What can be thrown: `std::bad_alloc`, `std::length_error`, `boost::interprocess::interprocess_exception`. -/
inductive Error | badAlloc | lengthError | mapping
  deriving DecidableEq, Repr

/-- The bytes `[offset, offset + size)` of the mapped file, at some address. -/
structure Region where
  address : Nat
  offset : Nat
  size : Nat
  deriving DecidableEq, Repr

/-- include/liblas/detail/opt_allocator.hpp:60-68, the static members (`file`: the name behind `m_file_p`), the
addresses used so far and the files on disk. -/
structure Process where
  initialized : Bool
  file : Option String
  maxSize : Nat
  next : Nat
  regions : List Region
  fresh : Nat
  disk : String → List Byte

/-- opt_allocator.hpp:186-200: the initial values. -/
def Process.start (disk : String → List Byte) : Process := ⟨false, none, 0, 0, [], 0, disk⟩

/-- opt_allocator.hpp:77-84, the constructor for the heap. -/
def newHeap (p : Process) : Except Error Unit × Process :=
  if p.initialized ∧ p.file.isSome then (.error .badAlloc, p) else (.ok (), { p with initialized := true })

/-- opt_allocator.hpp:86-106, the constructor for a file. `maps`: whether `file_mapping` can be made. The name is only
used the first time. -/
def newMapped (p : Process) (name : String) (maps : Bool) : Except Error Unit × Process :=
  if p.initialized ∧ p.file.isNone then (.error .badAlloc, p)
  else
    let p := { p with initialized := true }
    if p.file.isSome then (.ok (), p)
    else
      let p := { p with maxSize := (p.disk name).length }
      if maps then (.ok (), { p with file := some name }) else (.error .mapping, p)

/-- opt_allocator.hpp:120-124 `max_size`. -/
def maxElements (p : Process) : Nat := (if p.file.isSome then p.maxSize else 2 ^ 64 - 1) / 16

/-- opt_allocator.hpp:126-149 `allocate`: the address of the region, none for the heap. -/
def allocate (p : Process) (num : Nat) : Except Error (Option Nat) × Process :=
  let size := num * 16 % 2 ^ 64
  if p.file.isSome then
    if (p.next + size) % 2 ^ 64 > p.maxSize then (.error .badAlloc, p)
    else (.ok (some p.fresh), { p with
      next := (p.next + size) % 2 ^ 64
      regions := p.regions ++ [⟨p.fresh, p.next, size⟩]
      fresh := p.fresh + 1 })
  else (.ok none, p)

/-- opt_allocator.hpp:151-166 `deallocate`: the space in the file is not used again. -/
def deallocate (p : Process) (address : Nat) : Process :=
  if p.file.isSome then { p with regions := p.regions.filter fun r => r.address ≠ address } else p

/-- `reserve(n)` or `resize(n)` on a new `std::vector` (libstdc++): the size is checked against `max_size`
(which is also at most `PTRDIFF_MAX / 16`), and nothing is allocated for no elements. -/
def reserve (p : Process) (n : Nat) : Except Error (Option Nat) × Process :=
  if n > min (maxElements p) ((2 ^ 63 - 1) / 16) then (.error .lengthError, p)
  else if n = 0 then (.ok none, p)
  else allocate p n

/-- include/liblas/chipper.hpp:101-117, the options that concern memory. -/
structure Options where
  useSort : Bool
  useMaps : Bool
  mapFile : String
  deriving DecidableEq, Repr

/-- src/chipper.cpp:126-137, constructor: no maps without a file name. -/
def options (o : Options) : Options := if o.mapFile = "" then { o with useMaps := false } else o

/-- src/chipper.cpp:177-184: the vectors. Result: the addresses held by the chipper, also after an exception. -/
def lists (p : Process) (n : Nat) : Nat → Except Error Unit × List Nat × Process
  | 0 => (.ok (), [], p)
  | k + 1 =>
    match reserve p n with
    | (.error e, p) => (.error e, [], p)
    | (.ok a, p) =>
      let (r, l, p) := lists p n k
      (r, a.toList ++ l, p)

/-- The number of vectors: the spare one is not needed for sorting (:160, :181). -/
def howMany (o : Options) : Nat := if o.useSort then 2 else 3

/-- src/chipper.cpp:153-163: the map file is emptied and extended with zeros. -/
def makeFile (p : Process) (o : Options) (count : Nat) : Process :=
  { p with disk := fun f => if f = o.mapFile then List.replicate (count * 16 * howMany o + 1) 0#8 else p.disk f }

/-- src/chipper.cpp:177-184 once the allocator is there. -/
def withLists (r : Except Error Unit × Process) (count k : Nat) : Except Error Bool × List Nat × Process :=
  match r with
  | (.error e, p) => (.error e, [], p)
  | (.ok (), p) =>
    match lists p count k with
    | (.error e, l, p) => (.error e, l, p)
    | (.ok (), l, p) => (.ok true, l, p)

/-- src/chipper.cpp:147-186 `Allocate`. `opens`: the map file can be created; `maps`: it can be mapped. `false`: the
function returned -1. -/
def allocateAll (p : Process) (o : Options) (count : Nat) (opens maps : Bool) : Except Error Bool × List Nat × Process :=
  if o.useMaps then
    if opens then withLists (newMapped (makeFile p o count) o.mapFile maps) count (howMany o)
    else (.ok false, [], p)
  else withLists (newHeap p) count (howMany o)

/-- The constructor and `Chip` (src/chipper.cpp:139-145, :188-194), as far as memory is concerned: what happened, the
addresses the chipper holds and the process. -/
def run (p : Process) (o : Options) (count : Nat) (opens maps : Bool) : Except Error Bool × List Nat × Process :=
  allocateAll p (options o) count opens maps

/-- include/liblas/chipper.hpp:43-46, the destructor of a chipper that holds these addresses. -/
def destroy (p : Process) (l : List Nat) : Process := l.foldl deallocate p

/-- The bytes at a mapped address. Behind the end of the file the access is an error (`SIGBUS`). -/
def contents (p : Process) (r : Region) : Outcome (List Byte) :=
  match p.file with
  | none => .ub
  | some f => if r.offset + r.size ≤ (p.disk f).length then .ok (((p.disk f).drop r.offset).take r.size) else .ub

/-- A store through a mapped address. -/
def store (p : Process) (r : Region) (i : Nat) (b : Byte) : Process :=
  match p.file with
  | none => p
  | some f =>
    if i < r.size ∧ r.offset + i < (p.disk f).length then
      { p with disk := fun g => if g = f then (p.disk f).set (r.offset + i) b else p.disk g }
    else p

end LibLAS.MapAlloc
