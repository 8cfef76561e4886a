import Verif.Lemmas.ReadShort
namespace LibLAS
open Spec HeaderReader

/-- The stream returned (if any) is over the bytes `b`. -/
def OnBuf (b : List Byte) (x : Outcome (IStream × Header)) : Prop := ∀ s h, x = .ok (s, h) → s.buf = b

theorem OnBuf.scalar {b : List Byte} {s : IStream} {w n : Nat} {f : BitVec w × IStream → Outcome (IStream × Header)}
    (hs : s.buf = b) (h : ∀ v s', s'.buf = b → OnBuf b (f (v, s'))) : OnBuf b (HeaderReader.readScalar s w n >>= f) := by
  intro t g e
  obtain ⟨⟨v, s'⟩, e1, e2⟩ := bind_eq_ok e
  refine h v s' ?_ t g e2
  unfold HeaderReader.readScalar at e1
  obtain ⟨⟨bs, s2⟩, e3, e4⟩ := bind_eq_ok e1
  have := readN_buf e3
  simp only [Outcome.pure_eq, Outcome.ok.injEq, Prod.mk.injEq] at e4
  rw [← e4.2]; rw [← hs]; exact this

theorem OnBuf.readN {b : List Byte} {s : IStream} {o : List Byte} {f : List Byte × IStream → Outcome (IStream × Header)}
    (hs : s.buf = b) (h : ∀ v s', s'.buf = b → OnBuf b (f (v, s'))) : OnBuf b (s.readN o >>= f) := by
  intro t g e
  obtain ⟨⟨v, s'⟩, e1, e2⟩ := bind_eq_ok e
  exact h v s' (by rw [← hs]; exact readN_buf e1) t g e2

theorem OnBuf.other {α : Type} {b : List Byte} {x : Outcome α} {f : α → Outcome (IStream × Header)}
    (h : ∀ v, OnBuf b (f v)) : OnBuf b (x >>= f) := by
  intro t g e
  obtain ⟨v, e1, e2⟩ := bind_eq_ok e
  exact h v t g e2

theorem OnBuf.pair {b : List Byte} {x : Outcome (IStream × Header)} {f : IStream × Header → Outcome (IStream × Header)}
    (hx : OnBuf b x) (h : ∀ s' v, s'.buf = b → OnBuf b (f (s', v))) : OnBuf b (x >>= f) := by
  intro t g e
  obtain ⟨⟨v, s'⟩, e1, e2⟩ := bind_eq_ok e
  exact h v s' (hx _ _ e1) t g e2

theorem OnBuf.pure {b : List Byte} {s : IStream} {h : Header} (hs : s.buf = b) : OnBuf b (.ok (s, h)) := by
  intro t g e
  injection e with e
  injection e with e1 e2
  rw [← e1]; exact hs

theorem readReturns_onBuf {b : List Byte} : ∀ (k i : Nat) (s : IStream) (h : Header), s.buf = b → OnBuf b (readReturns k i s h) := by
  intro k
  induction k with
  | zero => intro i s h hs; exact OnBuf.pure hs
  | succ k ih =>
    intro i s h hs
    rw [readReturns]
    refine OnBuf.scalar hs fun v s' hs' => ?_
    dsimp only
    split
    · exact ih _ _ _ hs'
    · intro _ _ e; cases e
    · intro _ _ e; cases e

theorem readVLRsIfAny_onBuf {b : List Byte} {env : Env} {s : IStream} {h : Header} (hs : s.buf = b) :
    OnBuf b (readVLRsIfAny env s h) := by
  unfold readVLRsIfAny
  split
  · unfold readVLRs
    dsimp only
    refine OnBuf.pair ?_ fun s' v hs' => ?_
    · intro t g e
      have := (readVLRLoop_frame _ _ _ _ _ _ e).2.2
      rw [this, IStream.seek_buf]
      split <;> exact hs
    · dsimp only
      exact OnBuf.other fun v => OnBuf.pure hs'
  · exact OnBuf.pure hs

theorem readHeader_onBuf {b : List Byte} {env : Env} {s : IStream} {h : Header} (hs : s.buf = b) :
    OnBuf b (readHeader env s h) := by
  unfold readHeader
  dsimp only
  refine OnBuf.readN (by rw [IStream.seek_buf]; exact hs) fun _ _ hb => ?_
  dsimp only
  refine OnBuf.other fun _ => ?_
  iterate 2
    refine OnBuf.scalar (by assumption) fun _ _ hb => ?_
    dsimp only
  refine OnBuf.readN (by assumption) fun _ _ hb => ?_
  dsimp only
  iterate 2
    refine OnBuf.scalar (by assumption) fun _ _ hb => ?_
    dsimp only
    refine OnBuf.other fun _ => ?_
  iterate 2
    refine OnBuf.readN (by assumption) fun _ _ hb => ?_
    dsimp only
    refine OnBuf.other fun _ => ?_
  iterate 4
    refine OnBuf.scalar (by assumption) fun _ _ hb => ?_
    dsimp only
  split
  · intro _ _ e; cases e
  iterate 2
    refine OnBuf.scalar (by assumption) fun _ _ hb => ?_
    dsimp only
  iterate 3
    refine OnBuf.other fun _ => ?_
  iterate 2
    refine OnBuf.scalar (by assumption) fun _ _ hb => ?_
    dsimp only
  refine OnBuf.pair (readReturns_onBuf _ _ _ _ (by assumption)) fun _ _ hb => ?_
  dsimp only
  iterate 12
    refine OnBuf.scalar (by assumption) fun _ _ hb => ?_
    dsimp only
  refine OnBuf.pair (readVLRsIfAny_onBuf (by assumption)) fun _ _ hb => ?_
  dsimp only
  iterate 2
    refine OnBuf.other fun _ => ?_
  refine OnBuf.pure ?_
  rw [IStream.seek_buf]
  split <;> exact hb

/-- Any reader just opened: everything the reading calls rely on. -/
structure Made (b : List Byte) (r : Reader) : Prop where
  buf : r.ifs.buf = b
  current : r.current = 0
  size : r.size = r.hdr.pointCount.toNat
  recordSize : r.recordSize = r.hdr.schema.byteSize
  point : r.point = List.replicate r.hdr.dataRecordLength 0#8
  filter : r.filter = none
  xform : r.xform = none

theorem make_made {env : Env} {today : BitVec 16 × BitVec 16} {b : List Byte} {r : Reader}
    (e : Reader.make env today (IStream.onFile b) = .ok r) : Made b r := by
  unfold Reader.make at e
  obtain ⟨⟨s, h⟩, e1, e⟩ := bind_eq_ok e
  have hb := readHeader_onBuf (b := b) (by rfl) _ _ e1
  dsimp only at e
  split at e
  · cases e
  · simp only [Outcome.pure_eq, Outcome.ok.injEq] at e
    subst e
    exact ⟨by show ((s.clear).seek 0).buf = b; rw [IStream.seek_buf]; exact hb, rfl, rfl, rfl, rfl, rfl, rfl⟩

theorem Made.on {b : List Byte} {r : Reader} (h : Made b r) (h0 : 0 < r.hdr.schema.byteSize)
    (h1 : r.hdr.schema.byteSize < 2 ^ 16) :
    r.On b r.hdr.dataOffset.toNat r.hdr.dataRecordLength r.hdr.pointCount.toNat ∧
    r.At r.hdr.dataOffset.toNat r.hdr.dataRecordLength 0 ∧ r.Keeps r.hdr.dataRecordLength := by
  have hl : r.hdr.dataRecordLength = r.hdr.schema.byteSize := Nat.mod_eq_of_lt h1
  refine ⟨⟨h.buf, rfl, by rw [h.recordSize, hl], rfl, by rw [h.point]; simp, h.size, rfl, by omega⟩,
    ⟨h.current, fun hh => absurd rfl hh⟩, ?_⟩
  intro p hp; unfold Reader.xf; rw [h.xform]; exact hp

end LibLAS
