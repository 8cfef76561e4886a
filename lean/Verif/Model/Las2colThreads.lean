import Verif.Model.Basic
/-
apps/las2col.c: the threads. `num_read_threads` reading threads fill slots with columns, `main` hands the slots to
`num_of_entries` writing threads, one per column file.

A step of a thread is what it does between two points where another thread can be seen: a section under `dataLock` up to the
release (or up to `pthread_cond_wait`, which releases it), or a stretch outside the lock. `stop` is read outside the lock
(:308, :317); such a read is one step. A broadcast makes the waiting threads runnable at the test of their loop. A wait may
also end without a broadcast (POSIX allows it); those are separate steps.
-/
namespace LibLAS.Las2col

/-- `struct writeT[num_of_entries]`, apps/las2col.c:287-291: the pointers `values`, `none` if NULL. `file` is the number of
the input file; it decides the slot (`read_index`, :353). -/
structure Batch where
  file : Nat
  cols : Nat → Option (List Byte)

/-- Where a reading thread is (apps/las2col.c:334-526): before :347, after :371, before :506, in the wait :513, returned. -/
inductive RPc where
  | next
  | reading (k : Nat)
  | put (b : Batch)
  | wait (b : Batch)
  | gone

/-- Where `main` is (apps/las2col.c:979-1032): before :981 (or at :986 after the wait), in the wait :985, before :1002, in the
wait :1005, after it, before :1024, at the joins, after them. -/
inductive MPc where
  | take
  | takeWait
  | told
  | doneWait
  | check
  | finish
  | join
  | ended
  deriving DecidableEq

/-- Where a writing thread is (apps/las2col.c:304-332): at :308, before :309 (or at :310 after the wait), in the wait :312,
at :317, at :321, before :322, at :326, returned. -/
inductive WPc where
  | top
  | check
  | wait
  | go
  | write
  | clear
  | tell
  | gone
  deriving DecidableEq

/-- Why the process ended early: `exit(1)` or undefined behaviour. -/
inductive Halt where
  | exit
  | ub
  deriving DecidableEq

/-- What the run is about: the numbers of input files, reading threads and columns, and what reading a file gives
(apps/las2col.c:356-502): the bytes of every column, or `exit(1)`, or undefined behaviour. -/
structure Cfg where
  files : Nat
  readers : Nat
  columns : Nat
  read : Nat → Outcome (Nat → List Byte)

/-- The shared variables of apps/las2col.c:240-258, :978-1000 (`files_in_index`, `data`, `dataWriteT`, `writeIndex`,
`num_files`, `stop`), the places of the threads and what is in the column files. -/
structure St where
  next : Nat
  data : Nat → Option Batch
  cur : Option Batch
  slot : Nat
  left : Nat
  stop : Bool
  rd : Nat → RPc
  mn : MPc
  wr : Nat → WPc
  out : Nat → List Byte
  halt : Option Halt

/-- One value of a function replaced. -/
def upd {α : Type} (f : Nat → α) (i : Nat) (a : α) : Nat → α := fun j => if j = i then a else f j

/-- apps/las2col.c:948-979: before the first step. -/
def start (c : Cfg) : St where
  next := 0
  data := fun _ => none
  cur := none
  slot := 0
  left := c.files
  stop := false
  rd := fun _ => .next
  mn := .take
  wr := fun _ => .top
  out := fun _ => []
  halt := none

/-- `pthread_cond_broadcast(&readCond)`. -/
def wakeR (f : Nat → RPc) : Nat → RPc := fun j => match f j with | .wait b => .put b | x => x

/-- `pthread_cond_broadcast(&mainCond)`. -/
def wakeM : MPc → MPc
  | .takeWait => .take
  | .doneWait => .check
  | x => x

/-- `pthread_cond_broadcast(&writeTCond)`. -/
def wakeW (f : Nat → WPc) : Nat → WPc := fun i => match f i with | .wait => .check | x => x

/-- A step of reading thread `j`, apps/las2col.c:334-526. Opening the file (:358) is part of reading it. -/
def readerStep (c : Cfg) (s : St) (j : Nat) : Option St :=
  match s.rd j with
  | .next =>
    if s.next < c.files then some { s with next := s.next + 1, rd := upd s.rd j (.reading s.next) }
    else some { s with rd := upd s.rd j .gone }
  | .reading k =>
    match c.read k with
    | .ok f => some { s with rd := upd s.rd j (.put ⟨k, fun i => some (f i)⟩) }
    | .throw _ => some { s with halt := some .exit }
    | .ub => some { s with halt := some .ub }
  | .put b =>
    match s.data (b.file % c.readers) with
    | some _ => some { s with rd := upd s.rd j (.wait b) }
    | none => some { s with data := upd s.data (b.file % c.readers) (some b), mn := wakeM s.mn, rd := upd s.rd j .next }
  | .wait _ => none
  | .gone => none

/-- Some column of the batch is not yet written (apps/las2col.c:1007-1012). -/
def Batch.pending (b : Batch) (columns : Nat) : Bool := (List.range columns).any fun i => (b.cols i).isSome

/-- A step of `main`, apps/las2col.c:979-1032. -/
def mainStep (c : Cfg) (s : St) : Option St :=
  match s.mn with
  | .take =>
    if s.slot < c.readers then
      match s.data s.slot with
      | none => some { s with cur := none, mn := .takeWait }
      | some b => some { s with
          cur := some b, data := upd s.data s.slot none, wr := wakeW s.wr, rd := wakeR s.rd,
          slot := (s.slot + 1) % c.readers, mn := .told }
    else some { s with halt := some .ub }
  | .takeWait => none
  | .told => some { s with mn := .doneWait }
  | .doneWait => none
  | .check =>
    match s.cur with
    | none => some { s with halt := some .ub }
    | some b =>
      if b.pending c.columns then some { s with mn := .doneWait }
      else some { s with left := s.left - 1, cur := none, mn := if s.left - 1 = 0 then .finish else .take }
  | .finish => some { s with stop := true, wr := wakeW s.wr, mn := .join }
  | .join => if (List.range c.columns).all fun i => s.wr i = .gone then some { s with mn := .ended } else none
  | .ended => none

/-- apps/las2col.c:310: there is nothing to write for column `i`. -/
def nothing (s : St) (i : Nat) : Bool :=
  match s.cur with
  | none => true
  | some b => (b.cols i).isNone

/-- A step of the thread writing column `i`, apps/las2col.c:304-332. `fwrite` of a NULL pointer is undefined. -/
def writerStep (s : St) (i : Nat) : Option St :=
  match s.wr i with
  | .top => some { s with wr := upd s.wr i (if s.stop then .gone else .check) }
  | .check =>
    if s.stop = false ∧ nothing s i = true then some { s with wr := upd s.wr i .wait }
    else some { s with wr := upd s.wr i .go }
  | .wait => none
  | .go => some { s with wr := upd s.wr i (if s.stop then .gone else .write) }
  | .write =>
    match s.cur with
    | none => some { s with halt := some .ub }
    | some b =>
      match b.cols i with
      | none => some { s with halt := some .ub }
      | some v => some { s with out := upd s.out i (s.out i ++ v), wr := upd s.wr i .clear }
  | .clear =>
    match s.cur with
    | none => some { s with halt := some .ub }
    | some b => some { s with cur := some { b with cols := upd b.cols i none }, wr := upd s.wr i .tell }
  | .tell => some { s with mn := wakeM s.mn, wr := upd s.wr i .top }
  | .gone => none

/-- Which thread the scheduler lets run, or which wait it ends without a broadcast. -/
inductive Choice where
  | reader (j : Nat)
  | main
  | writer (i : Nat)
  | wakeReader (j : Nat)
  | wakeMain
  | wakeWriter (i : Nat)
  deriving DecidableEq

/-- A step of the program; `none` if the thread cannot run. -/
def step (c : Cfg) (s : St) (ch : Choice) : Option St :=
  if s.halt.isSome then none
  else match ch with
  | .reader j => if j < c.readers then readerStep c s j else none
  | .main => mainStep c s
  | .writer i => if i < c.columns then writerStep s i else none
  | .wakeReader j =>
    match s.rd j with
    | .wait b => some { s with rd := upd s.rd j (.put b) }
    | _ => none
  | .wakeMain =>
    match s.mn with
    | .takeWait => some { s with mn := .take }
    | .doneWait => some { s with mn := .check }
    | _ => none
  | .wakeWriter i =>
    match s.wr i with
    | .wait => some { s with wr := upd s.wr i .check }
    | _ => none

/-- A schedule: the steps one after the other. -/
def run (c : Cfg) (s : St) : List Choice → Option St
  | [] => some s
  | ch :: rest =>
    match step c s ch with
    | none => none
    | some t => run c t rest

end LibLAS.Las2col
