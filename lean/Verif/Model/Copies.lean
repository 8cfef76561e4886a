import Verif.Model.WriterSession
import Verif.Model.ReaderSession
import Verif.Spec.ReaderSession
/-
include/liblas/reader.hpp, src/reader.cpp, include/liblas/writer.hpp, src/writer.cpp: `Reader` and `Writer` objects that are
copied, assigned and destroyed. Each holds one `boost::shared_ptr` to its implementation (include/liblas/reader.hpp:140,
include/liblas/writer.hpp:114, include/liblas/detail/fwd.hpp:71-72 `ReaderIPtr`, `WriterIPtr`), which counts the objects that hold it.
Streams outlive the objects; a program ends with the first exception.
-/
namespace LibLAS.Copies

/-- What readers and writers have in common: an implementation is made from something, called, and closed. -/
structure Kind (F S C R Z : Type) where
  make : F → Outcome S
  call : S → C → Outcome (S × R)
  close : S → Z

/-- What a program does with objects of one class. Objects are numbered in the order they are made. -/
inductive Op (F C : Type) where
  /-- the constructor from a stream -/
  | make (f : F)
  /-- the copy constructor -/
  | copy (i : Nat)
  /-- `object i = object j` -/
  | assign (i j : Nat)
  | destroy (i : Nat)
  | call (i : Nat) (c : C)

/-- An implementation on the heap: with the number of objects that hold it, or deleted (what it left is kept). -/
inductive Impl (S Z : Type) where
  | live (uses : Nat) (s : S)
  | gone (z : Z)

/-- All objects ever made (`none`: destroyed; otherwise `m_pimpl`) and all implementations ever made. -/
structure World (S Z : Type) where
  objs : List (Option Nat)
  impls : List (Impl S Z)

variable {F S C R Z : Type}

/-- Copying a `shared_ptr`. -/
def acquire (w : World S Z) (k : Nat) : Outcome (World S Z) :=
  match w.impls[k]? with
  | some (.live n s) => .ok { w with impls := w.impls.set k (.live (n + 1) s) }
  | _ => .ub

/-- Destroying a `shared_ptr`: the last one deletes the implementation. -/
def release (K : Kind F S C R Z) (w : World S Z) (k : Nat) : Outcome (World S Z) :=
  match w.impls[k]? with
  | some (.live (n + 2) s) => .ok { w with impls := w.impls.set k (.live (n + 1) s) }
  | some (.live 1 s) => .ok { w with impls := w.impls.set k (.gone (K.close s)) }
  | _ => .ub

/-- One step, with what a call returns: the constructors (src/reader.cpp:65-69, :78-81; src/writer.cpp:58-74), assignment
(src/reader.cpp:83-90, src/writer.cpp:76-83: the new pointer is copied before the old one is dropped), destructors, and the
calls, all of which go to `m_pimpl`. -/
def step (K : Kind F S C R Z) (w : World S Z) : Op F C → Outcome (World S Z × Option R)
  | .make f => do
    let s ← K.make f
    pure (⟨w.objs ++ [some w.impls.length], w.impls ++ [.live 1 s]⟩, none)
  | .copy i =>
    match w.objs[i]? with
    | some (some k) => do
      let w ← acquire w k
      pure ({ w with objs := w.objs ++ [some k] }, none)
    | _ => .ub
  | .assign i j =>
    match w.objs[i]?, w.objs[j]? with
    | some (some k), some (some l) =>
      if i = j then .ok (w, none)
      else do
        let w ← acquire w l
        let w ← release K w k
        pure ({ w with objs := w.objs.set i (some l) }, none)
    | _, _ => .ub
  | .destroy i =>
    match w.objs[i]? with
    | some (some k) => do
      let w ← release K w k
      pure ({ w with objs := w.objs.set i none }, none)
    | _ => .ub
  | .call i c =>
    match w.objs[i]? with
    | some (some k) =>
      match w.impls[k]? with
      | some (.live n s) => do
        let (s, r) ← K.call s c
        pure ({ w with impls := w.impls.set k (.live n s) }, some r)
      | _ => .ub
    | _ => .ub

/-- A program; with the world it leaves comes what its last step returned. -/
def run (K : Kind F S C R Z) (ops : List (Op F C)) : Outcome (World S Z × Option R) :=
  ops.foldl (fun x op => x >>= fun a => step K a.1 op) (.ok (⟨[], []⟩, none))

/-- One object alone: made, then called. -/
def alone (K : Kind F S C R Z) (f : F) (cs : List C) : Outcome (S × Option R) :=
  cs.foldl (fun x c => x >>= fun a => K.call a.1 c >>= fun b => pure (b.1, some b.2)) (K.make f >>= fun s => pure (s, none))

/-- Writers (src/writer.cpp:58-68, Model/WriterSession), each on a stream of its own with the bytes given. What is left is the
file. -/
def writers (env : Env) : Kind (List Byte × Header) OpenWriter WriterCall Unit (List Byte) where
  make := fun f => do
    let w ← Writer.make env (OStream.onFile f.1) f.2
    pure (.opened w)
  call := fun o c => do
    let o ← o.call env c
    pure (o, ())
  close := fun o => o.close.buf

/-- What a call of a reader returns. -/
def answer (o : OpenReader) : Spec.HeaderCall → Outcome Bool × Option (List Byte)
  | .op c => Spec.report o.r c
  | _ => (.ok true, none)

/-- Readers (src/reader.cpp:65-69, Model/ReaderSession), each on a stream of its own with the bytes given. -/
def readers (env : Env) (b : Build) (today : BitVec 16 × BitVec 16) :
    Kind (List Byte) OpenReader Spec.HeaderCall (Outcome Bool × Option (List Byte)) Unit where
  make := fun f => do
    let r ← Reader.make env today (IStream.onFile f)
    pure (.opened r)
  call := fun o c => do
    let o' ← Spec.headerStep env b o c
    pure (o', answer o c)
  close := fun _ => ()

end LibLAS.Copies
