import Verif.Lemmas.ReadSeq
import Verif.Lemmas.Open
namespace LibLAS
open Spec

/-- A reader whose transforms keep the record length. -/
def Reader.Keeps (r : Reader) (len : Nat) : Prop := ∀ p : List Byte, p.length = len → (r.xf p).length = len

/-- What no call changes. -/
structure Reader.Same (r r' : Reader) : Prop where
  hdr : r'.hdr = r.hdr
  size : r'.size = r.size
  recordSize : r'.recordSize = r.recordSize
  filter : r'.filter = r.filter
  xform : r'.xform = r.xform
  buf : r'.ifs.buf = r.ifs.buf
  even : r.ifs.eof = r.ifs.fail → r'.ifs.eof = r'.ifs.fail

theorem Reader.Same.refl (r : Reader) : r.Same r := ⟨rfl, rfl, rfl, rfl, rfl, rfl, id⟩
theorem Reader.Same.trans {a b c : Reader} (h : a.Same b) (g : b.Same c) : a.Same c :=
  ⟨g.hdr.trans h.hdr, g.size.trans h.size, g.recordSize.trans h.recordSize, g.filter.trans h.filter,
    g.xform.trans h.xform, g.buf.trans h.buf, fun e => g.even (h.even e)⟩

/-- `Same`, and the record keeps its length. -/
def Reader.Inv (len : Nat) (r r' : Reader) : Prop := r.Same r' ∧ r'.point.length = len

theorem Reader.Same.xf {r r' : Reader} (h : r.Same r') : r'.xf = r.xf := by
  funext p; unfold Reader.xf; rw [h.xform]

theorem IStream.read_buf' (s : IStream) (k : Nat) : (s.read k).2.buf = s.buf := by
  unfold IStream.read; dsimp only; split
  · rfl
  · split <;> rfl

theorem IStream.read_even (s : IStream) (k : Nat) (h : s.eof = s.fail) : (s.read k).2.eof = (s.read k).2.fail := by
  unfold IStream.read; dsimp only; split
  · rename_i h'; simp only [Bool.or_eq_true] at h'; rcases h' with h' | h'
    · exact h'
    · show s.eof = true; rw [h]; exact h'
  · split
    · exact h
    · rfl

theorem IStream.read_le (s : IStream) (k : Nat) : (s.read k).1.length ≤ k := by
  unfold IStream.read; dsimp only; split
  · simp
  · split <;> simp <;> omega

theorem IStream.seek_buf (s : IStream) (p : Nat) : (s.seek p).buf = s.buf := by
  unfold IStream.seek; split <;> rfl

theorem Reader.readRecord_inv {r : Reader} {len : Nat} (hp : r.point.length = len) : r.Inv len r.readRecord.1 := by
  unfold Reader.readRecord
  split
  · exact ⟨.refl _, hp⟩
  split
  · exact ⟨.refl _, hp⟩
  split
  · exact ⟨.refl _, hp⟩
  · rename_i h
    refine ⟨⟨rfl, rfl, rfl, rfl, rfl, IStream.read_buf' _ _, IStream.read_even _ _⟩, ?_⟩
    have := IStream.read_le r.ifs r.recordSize
    simp only [List.length_append, List.length_drop]
    omega

theorem Reader.Inv.trans {a b c : Reader} {len : Nat} (h : a.Inv len b) (g : b.Inv len c) : a.Inv len c :=
  ⟨h.1.trans g.1, g.2⟩

theorem Reader.readCounted_inv {r : Reader} {len : Nat} (hp : r.point.length = len) : r.Inv len r.readCounted.1 := by
  have h := Reader.readRecord_inv hp
  unfold Reader.readCounted
  rcases hr : r.readRecord with ⟨r1, o⟩
  rw [hr] at h
  rcases o with a | e | _
  · exact ⟨⟨h.1.hdr, h.1.size, h.1.recordSize, h.1.filter, h.1.xform, h.1.buf, h.1.even⟩, h.2⟩
  · cases e <;> exact h
  · exact h

theorem Reader.skipLoop_inv {len : Nat} : ∀ (fuel : Nat) (r : Reader), r.point.length = len → r.Inv len (Reader.skipLoop fuel r).1 := by
  intro fuel
  induction fuel with
  | zero => intro r hp; exact ⟨.refl _, hp⟩
  | succ fuel ih =>
    intro r hp
    unfold Reader.skipLoop
    split
    · exact ⟨.refl _, hp⟩
    · have h := Reader.readCounted_inv hp
      rcases hr : r.readCounted with ⟨r1, o⟩
      rw [hr] at h
      rcases o with a | e | _
      · simp only
        split
        · exact h
        · exact h.trans (ih r1 h.2)
      · exact h
      · exact h

theorem Reader.transform_inv {r : Reader} {len : Nat} (hp : r.point.length = len) (hk : r.Keeps len) : r.Inv len r.transform := by
  rw [Reader.transform_eq]
  exact ⟨⟨rfl, rfl, rfl, rfl, rfl, rfl, id⟩, hk _ hp⟩

theorem Reader.Same.keeps {r r' : Reader} {len : Nat} (h : r.Same r') (hk : r.Keeps len) : r'.Keeps len := by
  intro p hp; rw [h.xf]; exact hk p hp

theorem Reader.implReadNext_inv {r : Reader} {len : Nat} (hp : r.point.length = len) (hk : r.Keeps len) :
    r.Inv len r.implReadNext.1 := by
  unfold Reader.implReadNext
  dsimp only
  have h0 : r.Inv len (if r.current = 0 then { r with ifs := r.ifs.clear.seek r.hdr.dataOffset.toNat } else r) := by
    split
    · exact ⟨⟨rfl, rfl, rfl, rfl, rfl, by show (r.ifs.clear.seek _).buf = _; rw [IStream.seek_buf]; rfl, fun _ => rfl⟩, hp⟩
    · exact ⟨.refl _, hp⟩
  generalize (if r.current = 0 then { r with ifs := r.ifs.clear.seek r.hdr.dataOffset.toNat } else r) = r0 at h0
  split
  · exact h0
  have h1 := h0.trans (Reader.readCounted_inv h0.2)
  rcases hr : r0.readCounted with ⟨r1, o⟩
  rw [hr] at h1
  rcases o with a | e | _
  · simp only
    split
    · exact h1.trans (Reader.transform_inv h1.2 (h1.1.keeps hk))
    · unfold Reader.afterReject
      have h2 := h1.trans (Reader.readCounted_inv h1.2)
      rcases hr2 : r1.readCounted with ⟨r2, o2⟩
      rw [hr2] at h2
      rcases o2 with a | e | _
      · simp only
        have h3 : r.Inv len r2.skip.1 := h2.trans (by unfold Reader.skip; exact Reader.skipLoop_inv _ _ h2.2)
        rcases hr3 : r2.skip with ⟨r3, o3⟩
        rw [hr3] at h3
        rcases o3 with l | e | _
        · simp only
          split <;> exact h3.trans (Reader.transform_inv h3.2 (h3.1.keeps hk))
        · exact h3
        · exact h3
      · exact h2
      · exact h2
  · exact h1
  · exact h1

theorem catchRange_fst (x : Reader × Outcome Unit) : (Reader.catchRange x).1 = x.1 := by
  rcases x with ⟨r, o⟩
  rcases o with a | e | _
  · rfl
  · cases e <;> rfl
  · rfl

theorem Reader.implReadAt_inv {r : Reader} {len n : Nat} (hp : r.point.length = len) (hk : r.Keeps len) :
    r.Inv len (r.implReadAt n).1 := by
  unfold Reader.implReadAt
  split
  · exact ⟨.refl _, hp⟩
  split
  · exact ⟨.refl _, hp⟩
  dsimp only
  have h0 : r.Inv len { r with ifs := r.ifs.clear.seek (n * r.hdr.dataRecordLength + r.hdr.dataOffset.toNat) } :=
    ⟨⟨rfl, rfl, rfl, rfl, rfl, by show (r.ifs.clear.seek _).buf = _; rw [IStream.seek_buf]; rfl, fun _ => rfl⟩, hp⟩
  have h1 := h0.trans (Reader.readRecord_inv h0.2)
  rcases hr : Reader.readRecord { r with ifs := r.ifs.clear.seek (n * r.hdr.dataRecordLength + r.hdr.dataOffset.toNat) } with ⟨r1, o⟩
  rw [hr] at h1
  rcases o with a | e | _
  · exact h1.trans (Reader.transform_inv h1.2 (h1.1.keeps hk))
  · exact h1
  · exact h1

theorem Reader.implSeek_inv {r : Reader} {len n : Nat} (hp : r.point.length = len) : r.Inv len (r.implSeek n).1 := by
  unfold Reader.implSeek
  split
  · exact ⟨.refl _, hp⟩
  split
  · exact ⟨.refl _, hp⟩
  · exact ⟨⟨rfl, rfl, rfl, rfl, rfl, by show (r.ifs.clear.seek _).buf = _; rw [IStream.seek_buf]; rfl, fun _ => rfl⟩, hp⟩

theorem Reader.Inv.on {r r' : Reader} {f : List Byte} {off len n : Nat} (ho : r.On f off len n) (h : r.Inv len r') :
    r'.On f off len n :=
  ⟨by rw [h.1.buf]; exact ho.buf, by rw [h.1.hdr]; exact ho.dataOffset, by rw [h.1.recordSize]; exact ho.recordSize,
    by rw [h.1.hdr]; exact ho.recordLength, h.2, by rw [h.1.size]; exact ho.size, by rw [h.1.hdr]; exact ho.count, ho.pos⟩

/-- What every history of calls keeps. -/
structure Reader.Ready (r : Reader) (f : List Byte) (off len n : Nat) : Prop where
  on : r.On f off len n
  keeps : r.Keeps len

theorem Reader.Inv.ready {r r' : Reader} {f : List Byte} {off len n : Nat} (h : r.Ready f off len n) (hi : r.Inv len r') :
    r'.Ready f off len n := ⟨hi.on h.on, hi.1.keeps h.keeps⟩

theorem foldl_length (ts : List (List Byte → List Byte)) (h : ∀ t ∈ ts, ∀ p : List Byte, (t p).length = p.length) :
    ∀ p : List Byte, (ts.foldl (fun p t => t p) p).length = p.length := by
  induction ts with
  | nil => intro p; rfl
  | cons t ts ih =>
    intro p
    rw [List.foldl_cons, ih (fun t ht => h t (List.mem_cons_of_mem _ ht)), h t List.mem_cons_self]

theorem readStep_ready {r : Reader} {f : List Byte} {off len n : Nat} (h : r.Ready f off len n) {op : ReadOp} (hb : op.Benign) :
    (readStep r op).Ready f off len n := by
  have hp := h.on.point
  cases op with
  | next => 
    refine Reader.Inv.ready h ?_
    show r.Inv len r.readNext.1; unfold Reader.readNext; rw [catchRange_fst]; exact Reader.implReadNext_inv hp h.keeps
  | «at» n =>
    refine Reader.Inv.ready h ?_
    show r.Inv len (r.readAt n).1
    unfold Reader.readAt
    split
    · exact ⟨.refl _, hp⟩
    · rw [catchRange_fst]; exact Reader.implReadAt_inv hp h.keeps
  | seek n =>
    refine Reader.Inv.ready h ?_
    show r.Inv len (r.seek n).1; unfold Reader.seek; rw [catchRange_fst]; exact Reader.implSeek_inv hp
  | filters fs => exact ⟨⟨h.on.buf, h.on.dataOffset, h.on.recordSize, h.on.recordLength, h.on.point, h.on.size, h.on.count, h.on.pos⟩, h.keeps⟩
  | transforms ts =>
    refine ⟨⟨h.on.buf, h.on.dataOffset, h.on.recordSize, h.on.recordLength, h.on.point, h.on.size, h.on.count, h.on.pos⟩, ?_⟩
    intro p hp
    show ((r.setTransforms ts).xf p).length = len
    unfold Reader.xf Reader.setTransforms
    split
    · exact hp
    · rename_i g hg
      dsimp only at hg
      split at hg
      · cases hg
      · injection hg with hg
        rw [← hg, foldl_length ts hb, hp]

theorem readRun_ready {f : List Byte} {off len n : Nat} (ops : List ReadOp) : ∀ {r : Reader}, r.Ready f off len n →
    (∀ op ∈ ops, op.Benign) → (readRun r ops).Ready f off len n := by
  induction ops with
  | nil => intro r h _; exact h
  | cons op ops ih =>
    intro r h hb
    exact ih (readStep_ready h (hb op List.mem_cons_self)) (fun o ho => hb o (List.mem_cons_of_mem _ ho))

/-- A file just opened. -/
theorem Opened.on {b : List Byte} {r : Reader} (h : Opened b r) (h0 : 0 < r.hdr.dataRecordLength) :
    r.On b r.hdr.dataOffset.toNat r.hdr.dataRecordLength r.hdr.pointCount.toNat ∧
    r.At r.hdr.dataOffset.toNat r.hdr.dataRecordLength 0 ∧ r.Keeps r.hdr.dataRecordLength := by
  refine ⟨⟨by rw [h.ifs], rfl, by rw [h.recordSize, h.recordLength], rfl, ?_, by rw [h.size, h.pointCount], rfl, h0⟩,
    ⟨h.current, fun hh => absurd rfl hh⟩, ?_⟩
  · rw [h.point, h.recordLength]; simp
  · intro p hp; unfold Reader.xf; rw [h.xform]; exact hp

/-- Random access. -/
theorem Reader.readAt_hit {r : Reader} {f : List Byte} {off len n k : Nat} (ho : r.On f off len n) (hk : k < n)
    (hin : off + (k + 1) * len ≤ f.length) :
    r.readAt k = ({ r with ifs := ⟨f, off + (k + 1) * len, false, false⟩, point := r.xf (record f off len k) }, .ok true) := by
  unfold Reader.readAt
  rw [if_neg (by rw [ho.count]; omega)]
  unfold Reader.implReadAt
  rw [if_neg (by rw [ho.size]; omega), if_neg (by rw [ho.size]; omega)]
  dsimp only
  have hs : r.ifs.clear.seek (k * r.hdr.dataRecordLength + r.hdr.dataOffset.toNat) = ⟨f, off + k * len, false, false⟩ := by
    rw [IStream.clear_seek, ho.buf, ho.recordLength, ho.dataOffset, Nat.add_comm]
  rw [hs]
  have hon : Reader.On { r with ifs := ⟨f, off + k * len, false, false⟩ } f off len n :=
    ⟨rfl, ho.dataOffset, ho.recordSize, ho.recordLength, ho.point, ho.size, ho.count, ho.pos⟩
  have e : off + k * len + len = off + (k + 1) * len := by rw [Nat.succ_mul]; omega
  rw [Reader.readRecord_full hon rfl (by omega)]
  dsimp only
  rw [Reader.transform_eq, e]
  rfl

theorem Reader.seek_hit {r : Reader} {f : List Byte} {off len n k : Nat} (ho : r.On f off len n) (hk : k < n) :
    r.seek k = ({ r with ifs := ⟨f, off + k * len, false, false⟩, current := k }, .ok true) := by
  unfold Reader.seek Reader.implSeek
  rw [if_neg (by rw [ho.size]; omega), if_neg (by rw [ho.size]; omega)]
  have hs : r.ifs.clear.seek (k * r.hdr.dataRecordLength + r.hdr.dataOffset.toNat) = ⟨f, off + k * len, false, false⟩ := by
    rw [IStream.clear_seek, ho.buf, ho.recordLength, ho.dataOffset, Nat.add_comm]
  rw [hs]
  rfl

end LibLAS
