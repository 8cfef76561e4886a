import Verif.Lemmas.Codec
namespace LibLAS
open Spec HeaderReader

theorem readN_at {b : List Byte} {p : Nat} {old : List Byte} (h : p + old.length ≤ b.length) :
    (⟨b, p, false, false⟩ : IStream).readN old = .ok (slice b p old.length, ⟨b, p + old.length, false, false⟩) :=
  IStream.readN_full rfl rfl h

theorem readBytes_at {b : List Byte} {p n : Nat} {c : Byte} (h : p + n ≤ b.length) :
    (⟨b, p, false, false⟩ : IStream).readN (List.replicate n c) = .ok (slice b p n, ⟨b, p + n, false, false⟩) := by
  have := readN_at (b := b) (p := p) (old := List.replicate n c) (by simpa using h)
  simpa using this

theorem readScalar_at {b : List Byte} {p w n : Nat} (h : p + n ≤ b.length) :
    HeaderReader.readScalar ⟨b, p, false, false⟩ w n = .ok (got w (slice b p n), ⟨b, p + n, false, false⟩) := by
  unfold HeaderReader.readScalar
  rw [readBytes_at h]
  rfl

theorem readReturns_at (k : Nat) : ∀ (i p : Nat) (b : List Byte) (h : Header), i + k ≤ h.byReturn.length →
    p + 4 * k ≤ b.length →
    readReturns k i ⟨b, p, false, false⟩ h =
      .ok (⟨b, p + 4 * k, false, false⟩,
        { h with byReturn := h.byReturn.take i ++ (List.range k).map (fun j => got 32 (slice b (p + 4 * j) 4)) ++
            h.byReturn.drop (i + k) }) := by
  induction k with
  | zero => intro i p b h _ _; simp [readReturns]
  | succ k ih =>
    intro i p b h hl hb
    rw [readReturns, readScalar_at (by omega)]
    simp only [Outcome.bind_ok]
    unfold Header.setByReturn
    rw [if_pos (by omega)]
    dsimp only
    rw [ih (i + 1) (p + 4) b _ (by simp; omega) (by omega)]
    congr 2
    · congr 1; omega
    · congr 1
      rw [List.range_succ_eq_map, List.map_cons, List.map_map]
      have e1 : ((h.byReturn.set i (got 32 (slice b p 4))).take (i + 1)) =
          h.byReturn.take i ++ [got 32 (slice b p 4)] := by
        rw [List.take_succ, List.getElem?_set_self (by omega), List.take_set_of_le (by omega)]
        rfl
      have e2 : (h.byReturn.set i (got 32 (slice b p 4))).drop (i + 1 + k) = h.byReturn.drop (i + (k + 1)) := by
        rw [List.drop_set_of_lt (by omega)]
        congr 1; omega
      dsimp only
      rw [e1, e2]
      simp only [List.append_assoc, List.singleton_append, Nat.mul_zero, Nat.add_zero, List.cons_append]
      congr 2
      rw [List.nil_append]
      congr 1
      apply List.map_congr_left
      intro j _
      simp only [Function.comp]
      congr 2
      omega

/-- The five per-return counts at offset 111. -/
def returnsOf (b : List Byte) (h : Header) : Outcome Header :=
  if 5 ≤ h.byReturn.length then
    .ok { h with byReturn := (List.range 5).map (fun j => got 32 (slice b (111 + 4 * j) 4)) ++ h.byReturn.drop 5 }
  else .throw .outOfRange

theorem readReturns_short (k : Nat) : ∀ (i p : Nat) (b : List Byte) (h : Header), h.byReturn.length < i + k →
    i ≤ h.byReturn.length → p + 4 * k ≤ b.length →
    readReturns k i ⟨b, p, false, false⟩ h = .throw .outOfRange := by
  induction k with
  | zero => intro i p b h h1 h2 _; omega
  | succ k ih =>
    intro i p b h h1 h2 hb
    rw [readReturns, readScalar_at (by omega)]
    simp only [Outcome.bind_ok]
    unfold Header.setByReturn
    by_cases hi : i < h.byReturn.length
    · rw [if_pos hi]
      dsimp only
      exact ih (i + 1) (p + 4) b _ (by simp; omega) (by simp; omega) (by omega)
    · rw [if_neg hi]

theorem readReturns5 {b : List Byte} {h : Header} (hb : 227 ≤ b.length) :
    readReturns 5 0 ⟨b, 111, false, false⟩ h = returnsOf b h >>= fun h => .ok (⟨b, 131, false, false⟩, h) := by
  unfold returnsOf
  by_cases hl : 5 ≤ h.byReturn.length
  · rw [if_pos hl, readReturns_at 5 0 111 b h (by omega) (by omega)]
    simp
  · rw [if_neg hl, readReturns_short 5 0 111 b h (by omega) (by omega) (by omega)]
    rfl

theorem bind_assoc' {α β γ : Type} (x : Outcome α) (f : α → Outcome β) (g : β → Outcome γ) :
    ((x >>= f) >>= g) = (x >>= fun a => f a >>= g) := by
  cases x <;> rfl

/-- The header block as fields of the file, for a file of at least 227 bytes. -/
theorem readHeader_eq (env : Env) (b : List Byte) (q : Nat) (h : Header) (hb : 227 ≤ b.length) :
    readHeader env ⟨b, q, false, false⟩ h = (do
      let h ← HeaderReader.set (h.setFileSignature (slice b 0 4))
      let h := { h with sourceId := got 16 (slice b 4 2), reserved := got 16 (slice b 6 2), guid := slice b 8 16 }
      let h ← HeaderReader.set (h.setVersionMajor (got 8 (slice b 24 1)))
      let h ← HeaderReader.set (h.setVersionMinor (got 8 (slice b 25 1)))
      let h ← HeaderReader.set (h.setSystemId (slice b 26 32))
      let h ← HeaderReader.set (h.setSoftwareId (slice b 58 32))
      if (got 32 (slice b 96 4)).toNat < (got 16 (slice b 94 2)).toNat then .throw .runtimeError else
      let c ← compressionOf (got 8 (slice b 104 1))
      let h := { h with
        doy := got 16 (slice b 90 2)
        year := got 16 (slice b 92 2)
        headerSize := got 16 (slice b 94 2)
        dataOffset := got 32 (slice b 96 4)
        recordsCount := got 32 (slice b 100 4)
        compressed := c }
      let f ← formatOf (got 8 (slice b 104 1) &&& 0x3f)
      let h ← HeaderReader.set (h.setDataFormatId f)
      let h ← returnsOf b { h with pointCount := got 32 (slice b 107 4) }
      let h := { h with
        scale := ⟨got 64 (slice b 131 8), got 64 (slice b 139 8), got 64 (slice b 147 8)⟩
        offset := ⟨got 64 (slice b 155 8), got 64 (slice b 163 8), got 64 (slice b 171 8)⟩
        max := ⟨got 64 (slice b 179 8), got 64 (slice b 195 8), got 64 (slice b 211 8)⟩
        min := ⟨got 64 (slice b 187 8), got 64 (slice b 203 8), got 64 (slice b 219 8)⟩ }
      let (s, h) ← readVLRsIfAny env ⟨b, 227, false, false⟩ h
      let vlr ← h.vlrBlockSize
      let h := { h with padding := h.dataOffset - (h.headerSize.setWidth 32 + vlr) }
      let s := if s.eof then s.clear else s
      let s := s.seek h.dataOffset.toNat
      let h ← addExtra h (got 16 (slice b 105 2)).toNat
      pure (s, h)) := by
  have hs : (⟨b, q, false, false⟩ : IStream).seek 0 = ⟨b, 0, false, false⟩ := rfl
  unfold readHeader
  rw [hs]
  simp (maxSteps := 10000000) (disch := omega) only [readBytes_at, readScalar_at, readReturns5, bind_assoc', Outcome.bind_ok, Nat.zero_add,
    Nat.reduceAdd]

end LibLAS
