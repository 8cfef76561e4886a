import Verif.Model.ZipWriter
import Verif.Spec.File
/-
What a decompressor must do, and what a caller sees of reading a compressed file.
-/
namespace LibLAS.Spec

/-- From position `off` of the file, with configuration `c`, the decompressor yields the records `rs`: it opens there and
leaves the stream at some position `start`; being ready for record `k` (`Ready k`, whatever that means for its state and the
stream) it delivers record `k` and is ready for the next; from anywhere it can be sent to any of the records; and when
ready for the first record the stream is at `start`. -/
structure Decodes.With (z : LASzip) (c : z.Config) (file : List Byte) (off : Nat) (rs : List (List Byte))
    (Ready : Nat → z.State → IStream → Prop) (u : z.State) (start : Nat) : Prop where
  opens : z.openAt c ⟨file, off, false, false⟩ = (some u, ⟨file, start, false, false⟩)
  fresh : Ready 0 u ⟨file, start, false, false⟩
  reads : ∀ k u s, Ready k u s → (h : k < rs.length) →
    (z.read u s).1 = some rs[k] ∧ Ready (k + 1) (z.read u s).2.1 (z.read u s).2.2
  seeks : ∀ k u s n, Ready k u s → n < rs.length → Ready n (z.seek u s.clear n).1 (z.seek u s.clear n).2
  first : ∀ u s, Ready 0 u s → s = ⟨file, start, false, false⟩

def Decodes (z : LASzip) (c : z.Config) (file : List Byte) (off : Nat) (rs : List (List Byte)) : Prop :=
  ∃ Ready u start, Decodes.With z c file off rs Ready u start

/-- Calls of the reading interface, without filters. -/
inductive ZipOp where
  | next
  | at (n : Nat)
  | seek (n : Nat)
  | transforms (ts : List (List Byte → List Byte))

/-- In a session of these calls the reader is a cursor over the records `rs`: at record `k`, with `ts` the transforms in
force (applied in that order). `ReadNextPoint` delivers the record at the cursor and advances, or reports the end;
`ReadPointAt` delivers the record asked for and leaves the cursor after it, or throws `out_of_range`; `Seek` moves the cursor,
reports `false` just past the last record and throws beyond that. -/
def cursorSession {z : LASzip} (rs : List (List Byte)) :
    Nat → List (List Byte → List Byte) → ZipReader z → List ZipOp → Prop
  | _, _, _, [] => True
  | k, ts, r, .next :: ops =>
    match rs[k]? with
    | some p => r.readNext.2 = .ok true ∧ r.readNext.1.point = ts.foldl (fun p t => t p) p ∧
        cursorSession rs (k + 1) ts r.readNext.1 ops
    | none => r.readNext.2 = .ok false ∧ cursorSession rs k ts r.readNext.1 ops
  | k, ts, r, .at n :: ops =>
    match rs[n]? with
    | some p => (r.readAt n).2 = .ok true ∧ (r.readAt n).1.point = ts.foldl (fun p t => t p) p ∧
        cursorSession rs (n + 1) ts (r.readAt n).1 ops
    | none => (r.readAt n).2 = .throw .outOfRange ∧ cursorSession rs k ts (r.readAt n).1 ops
  | k, ts, r, .seek n :: ops =>
    if n < rs.length then (r.seek n).2 = .ok true ∧ cursorSession rs n ts (r.seek n).1 ops
    else if n = rs.length then (r.seek n).2 = .ok false ∧ cursorSession rs k ts (r.seek n).1 ops
    else (r.seek n).2 = .throw .runtimeError ∧ cursorSession rs k ts (r.seek n).1 ops
  | k, _, r, .transforms ts :: ops => cursorSession rs k ts (r.setTransforms ts) ops

/-- Successive calls of `ReadNextPoint` deliver exactly these records and then report the end of the data. -/
def zipDelivers {z : LASzip} : ZipReader z → List (List Byte) → Prop
  | r, [] => r.readNext.2 = .ok false
  | r, p :: ps => r.readNext.2 = .ok true ∧ r.readNext.1.point = p ∧ zipDelivers r.readNext.1 ps

/-- The verdicts of the filters on the last three records, for which filtering a compressed file reaches the end in order:
nothing rejected at the end but three or more, and two rejected records do not precede an accepted last one. -/
def CleanEnd (acc : List Byte → Bool) (rs : List (List Byte)) : Prop :=
  match (rs.map acc).reverse with
  | true :: false :: false :: _ => False
  | false :: false :: false :: _ => True
  | false :: _ => False
  | _ => True

/-- The second stream holds what the first one holds below `off`. -/
def Keeps (off : Nat) (o o' : OStream) : Prop :=
  ∀ p k, p + k ≤ off → p + k ≤ o.buf.length → slice o'.buf p k = slice o.buf p k

/-- The compressor with configuration `c`: opened at position `off` it takes records of its record length, leaves the bytes
below `off` alone, is not disturbed when such bytes are overwritten and the stream put back where it was, and when
closed has left a stream from which the decompressor yields the records taken. `W off rs` is whatever the compressor and
the stream are after taking `rs`. The number of records is limited to what its counter holds. -/
structure Packs.With (z : LASzip) (c : z.Config) (W : Nat → List (List Byte) → z.Packer → OStream → Prop) : Prop where
  opens : ∀ o, o.fail = false → ∃ u o', z.openOn c o = (some u, o') ∧ W o.pos [] u o' ∧ Keeps o.pos o o'
  writes : ∀ off rs u o d, W off rs u o → d.length = z.size c → rs.length + 1 < 2 ^ 32 →
    ∃ u' o', z.write u o d = (true, u', o') ∧ W off (rs ++ [d]) u' o' ∧ Keeps off o o'
  patched : ∀ off rs u o p bs, W off rs u o → p + bs.length ≤ off → p + bs.length ≤ o.buf.length →
    W off rs u (((o.seek p).write bs).seek o.pos)
  good : ∀ off rs u o, W off rs u o → o.fail = false
  closes : ∀ off rs u o, W off rs u o → Keeps off o (z.close u o) ∧ Decodes z c (z.close u o).buf off rs

def Packs (z : LASzip) (c : z.Config) : Prop := ∃ W, Packs.With z c W

/-- The description of the configuration that goes into a variable record can be stored and understood. -/
def Described (z : LASzip) (c : z.Config) : Prop :=
  z.pack c ≠ [] ∧ (z.pack c).length < 2 ^ 16 ∧ z.unpack (z.pack c) = some c

/-- The variable records of the header, should one of them be a description by LASzip, ask for what LASzip does by itself for
the point format. (Files that libLAS did not write may ask for something else.) -/
def UsualPacking (z : LASzip) (h : Header) : Prop :=
  ∀ v ∈ h.vlrs, cstr v.userId = lit "laszip encoded" → v.recordId = 22204#16 → v.data ≠ [] ∧ z.unpack v.data = z.setup h.schema.fmt

end LibLAS.Spec
