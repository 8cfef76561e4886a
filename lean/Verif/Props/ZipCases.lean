import Verif.Props.Zip
/-
C75: a decompressor that meets the contract, and what the compressed reader does not do.
-/
namespace LibLAS
open Spec

/-! A codec that stores each record as its difference (exclusive or) from the one before. -/

def xorBytes (a b : List Byte) : List Byte := List.zipWith (· ^^^ ·) a b

/-- The stored form of `rs` after record `prev`. -/
def xorEncode : List Byte → List (List Byte) → List Byte
  | _, [] => []
  | prev, r :: rs => xorBytes prev r ++ xorEncode r rs

def xorRead (u : Nat × Nat × List Byte) (s : IStream) : Option (List Byte) × (Nat × Nat × List Byte) × IStream :=
  let (bs, s) := s.read u.1
  if bs.length = u.1 then
    let d := xorBytes u.2.2 bs
    (some d, (u.1, u.2.1, d), s)
  else (none, u, s)

/-- Decode and drop `n` records. -/
def xorSkip : Nat → (Nat × Nat × List Byte) → IStream → (Nat × Nat × List Byte) × IStream
  | 0, u, s => (u, s)
  | n + 1, u, s => xorSkip n (xorRead u s).2.1 (xorRead u s).2.2

/-- The codec: a configuration is the record length, a state the record length, the place of the first record and the record
last read. -/
def xorZip : LASzip where
  Config := Nat
  State := Nat × Nat × List Byte
  setup f := match f with
    | .f0 => some 20
    | .f1 => some 28
    | .f2 => some 26
    | .f3 => some 34
    | _ => none
  unpack d := some d.length
  pack c := List.replicate c 0#8
  size c := c
  openAt c s := (some (c, s.pos, List.replicate c 0#8), s)
  read := xorRead
  seek u s n := xorSkip n (u.1, u.2.1, List.replicate u.1 0#8) (s.seek u.2.1)
  Packer := List Byte
  openOn c s := (some (List.replicate c 0#8), s)
  write u s d := (true, d, s.write (xorBytes u d))
  close _ s := s

instance : DecidableEq xorZip.Config := inferInstanceAs (DecidableEq Nat)

theorem xorBytes_length {a b : List Byte} (h : a.length = b.length) : (xorBytes a b).length = b.length := by
  simp [xorBytes, h]

theorem xorBytes_twice : ∀ {a b : List Byte}, a.length = b.length → xorBytes a (xorBytes a b) = b := by
  intro a
  induction a with
  | nil => intro b h; cases b <;> simp_all [xorBytes]
  | cons x a ih =>
    intro b h
    cases b with
    | nil => simp at h
    | cons y b =>
      simp only [List.length_cons, Nat.add_right_cancel_iff] at h
      have := ih h
      simp only [xorBytes, List.zipWith_cons_cons] at this ⊢
      rw [this, ← BitVec.xor_assoc, BitVec.xor_self, BitVec.zero_xor]

/-- The record before record `k`, zeros at the start. -/
def before (len : Nat) (rs : List (List Byte)) (k : Nat) : List Byte :=
  if k = 0 then List.replicate len 0#8 else rs.getD (k - 1) []

theorem xorEncode_drop {len : Nat} : ∀ (rs : List (List Byte)) (prev : List Byte) (k : Nat), (∀ r ∈ rs, r.length = len) → prev.length = len →
    (h : k < rs.length) → ∃ t, (xorEncode prev rs).drop (k * len) = xorBytes (if k = 0 then prev else rs.getD (k - 1) []) rs[k] ++ t := by
  intro rs
  induction rs with
  | nil => intro prev k _ _ h; simp at h
  | cons r rs ih =>
    intro prev k hr hp h
    cases k with
    | zero => exact ⟨xorEncode r rs, by simp [xorEncode]⟩
    | succ k =>
      have hl : (xorBytes prev r).length = len := by
        rw [xorBytes_length (by rw [hp, hr r (by simp)])]; exact hr r (by simp)
      obtain ⟨t, e⟩ := ih r k (fun a ha => hr a (by simp [ha])) (hr r (by simp)) (by simpa using h)
      refine ⟨t, ?_⟩
      rw [xorEncode, List.drop_append, List.drop_eq_nil_of_le (by rw [hl, Nat.add_mul]; omega), hl,
        show (k + 1) * len - len = k * len by rw [Nat.add_mul]; omega, e]
      cases k with
      | zero => simp
      | succ k => simp

/-- The codec meets the contract: every list of records of one length, stored by it anywhere in a file, is decoded. -/
theorem xorZip_decodes {len : Nat} {rs : List (List Byte)} (hr : ∀ r ∈ rs, r.length = len) {file front back : List Byte}
    (hf : file = front ++ xorEncode (List.replicate len 0#8) rs ++ back) : Decodes xorZip len file front.length rs := by
  have hb : ∀ k, k ≤ rs.length → (before len rs k).length = len := by
    intro k hk
    unfold before
    split
    · simp
    · rw [List.getD_eq_getElem?_getD, List.getElem?_eq_getElem (by omega)]
      exact hr _ (List.getElem_mem _)
  let R : Nat → xorZip.State → IStream → Prop := fun k u s =>
    u = (len, front.length, before len rs k) ∧ s = ⟨file, front.length + k * len, false, false⟩
  have hread : ∀ k u s, R k u s → (h : k < rs.length) →
      (xorRead u s).1 = some rs[k] ∧ R (k + 1) (xorRead u s).2.1 (xorRead u s).2.2 := by
    rintro k u s ⟨rfl, rfl⟩ h
    obtain ⟨t, e⟩ := xorEncode_drop rs (List.replicate len 0#8) k hr (by simp) h
    have hd : (file.drop (front.length + k * len)).take len = xorBytes (before len rs k) rs[k] := by
      rw [hf, List.append_assoc, List.drop_append, List.drop_eq_nil_of_le (by omega), List.nil_append,
        Nat.add_sub_cancel_left, List.drop_append, e]
      have : (xorBytes (before len rs k) rs[k]).length = len := by
        rw [xorBytes_length (by rw [hb k (by omega), hr _ (List.getElem_mem _)])]; exact hr _ (List.getElem_mem _)
      show List.take len ((xorBytes (before len rs k) rs[k] ++ t) ++ _) = _
      rw [List.append_assoc, List.take_append_of_le_length (by omega), List.take_of_length_le (by omega)]
    have hl : (xorBytes (before len rs k) rs[k]).length = len := by
      rw [xorBytes_length (by rw [hb k (by omega), hr _ (List.getElem_mem _)])]; exact hr _ (List.getElem_mem _)
    have hrd : IStream.read ⟨file, front.length + k * len, false, false⟩ len =
        (xorBytes (before len rs k) rs[k], ⟨file, front.length + (k + 1) * len, false, false⟩) := by
      unfold IStream.read
      simp only [Bool.or_self, Bool.false_eq_true, if_false]
      rw [hd, if_pos hl]
      rw [Nat.add_mul, Nat.one_mul, Nat.add_assoc]
    unfold xorRead
    dsimp only
    rw [hrd]
    dsimp only
    rw [if_pos hl, xorBytes_twice (by rw [hb k (by omega), hr _ (List.getElem_mem _)])]
    refine ⟨rfl, ?_, rfl⟩
    show (len, front.length, rs[k]) = _
    unfold before
    rw [if_neg (by omega), Nat.add_sub_cancel, List.getD_eq_getElem?_getD, List.getElem?_eq_getElem h]
    rfl
  have hskip : ∀ n k u s, R k u s → k + n ≤ rs.length → R (k + n) (xorSkip n u s).1 (xorSkip n u s).2 := by
    intro n
    induction n with
    | zero => intro k u s h _; exact h
    | succ n ih =>
      intro k u s h hk
      have := ih (k + 1) _ _ (hread k u s h (by omega)).2 (by omega)
      rw [show k + (n + 1) = k + 1 + n by omega]
      exact this
  refine ⟨R, (len, front.length, List.replicate len 0#8), front.length, rfl, ⟨rfl, by simp⟩, hread, ?_, ?_⟩
  · rintro k u s n ⟨rfl, rfl⟩ hn
    have := hskip n 0 (len, front.length, List.replicate len 0#8) ⟨file, front.length, false, false⟩ ⟨rfl, by simp⟩ (by omega)
    rw [Nat.zero_add] at this
    exact this
  · rintro u s ⟨_, rfl⟩
    simp

/-! A compressed file of five points: as `sampleFile`, the compression bit set and the records stored by the codec. -/

def zipFront : List Byte := (sampleFile fivePoints).take 104 ++ [0x81#8] ++ ((sampleFile fivePoints).take 284).drop 105

def zipFile : List Byte := zipFront ++ xorEncode (List.replicate 28 0#8) fivePoints ++ []

/-- It is opened, and meets the hypotheses of C75. -/
theorem zipFile_opens : ∃ r, ZipReader.make xorZip plainEnv (1, 2000) (IStream.onFile zipFile) = .ok r ∧
    Decodes xorZip r.config zipFile r.hdr.dataOffset.toNat fivePoints ∧ r.hdr.pointCount.toNat = fivePoints.length := by
  obtain ⟨r, e, h1, h2, h3⟩ : ∃ r, ZipReader.make xorZip plainEnv (1, 2000) (IStream.onFile zipFile) = .ok r ∧
      (r.config = show xorZip.Config from (28 : Nat)) ∧ r.hdr.dataOffset.toNat = zipFront.length ∧ r.hdr.pointCount.toNat = fivePoints.length :=
    Outcome.exists_of_check (by decide +kernel)
  refine ⟨r, e, ?_, h3⟩
  rw [h1, h2]
  exact xorZip_decodes (by decide +kernel) rfl

/-- The theorem at work: a session of all kinds of calls. -/
example : ∃ r, ZipReader.make xorZip plainEnv (1, 2000) (IStream.onFile zipFile) = .ok r ∧
    cursorSession fivePoints 0 [] r [.next, .at 3, .next, .next, .seek 1, .transforms [List.reverse], .next, .at 9, .seek 5, .seek 6, .at 0] := by
  obtain ⟨r, e, h1, h2⟩ := zipFile_opens
  exact ⟨r, e, compressed_session e h1 h2 _⟩

/-- Filters that meet `CleanEnd`: keep points 1, 3 and 5. -/
example : CleanEnd (fun p => [fun p : List Byte => p.head? != some 2#8, fun p => p.head? != some 4#8].all fun f => f p) fivePoints := by
  have : ∀ p : Prop, p = True → p := fun _ h => h ▸ trivial
  apply this
  rfl

/-- Calls, what each reports and the point held after it. -/
def zipReports (r : ZipReader xorZip) : List (ZipReader xorZip → ZipReader xorZip × Outcome Bool) → List (Outcome Bool × List Byte)
  | [] => []
  | f :: fs => ((f r).2, (f r).1.point) :: zipReports (f r).1 fs

def zipOpen (fs : List (ZipReader xorZip → ZipReader xorZip × Outcome Bool)) : Outcome (List (Outcome Bool × List Byte)) :=
  match ZipReader.make xorZip plainEnv (1, 2000) (IStream.onFile zipFile) with
  | .ok r => .ok (zipReports r fs)
  | .throw e => .throw e
  | .ub => .ub

/-- A filter as a call. -/
def zipKeep (f : List Byte → Bool) (r : ZipReader xorZip) : ZipReader xorZip × Outcome Bool := (r.setFilters [f], .ok true)

def all28 (v : Byte) : List Byte := List.replicate 28 v

/-- C75 refuted for filters: the last record is rejected, and instead of reporting the end `ReadNextPoint` throws. -/
theorem compressed_filter_end_throws : zipOpen [zipKeep fun p => p.head? != some 5#8, ZipReader.readNext, ZipReader.readNext, ZipReader.readNext, ZipReader.readNext, ZipReader.readNext] =
    .ok [(.ok true, all28 0), (.ok true, all28 1), (.ok true, all28 2), (.ok true, all28 3), (.ok true, all28 4),
      (.throw .liblasError, all28 5)] := by
  decide +kernel

/-- C75 refuted for filters: only the last record is accepted, and it is not delivered. -/
theorem compressed_filter_loses_last : zipOpen [zipKeep fun p => p.head? == some 5#8, ZipReader.readNext] =
    .ok [(.ok true, all28 0), (.ok false, all28 5)] := by
  decide +kernel

/-- Random access to a record the filters reject delivers another one. -/
theorem compressed_at_filtered : zipOpen [zipKeep fun p => p.head? != some 2#8, fun r => r.readAt 1] =
    .ok [(.ok true, all28 0), (.ok true, all28 3)] := by
  decide +kernel

/-- `Reset` as a call. -/
def zipReset (r : ZipReader xorZip) : ZipReader xorZip × Outcome Bool :=
  match r.reset plainEnv ⟨.little, false⟩ with
  | .ok r => (r, .ok true)
  | .throw e => (r, .throw e)
  | .ub => (r, .ub)

/-- C75 refuted for `Reset`: after two reads and `Reset` the first record is not delivered: the decompressor goes on from the
state it was in, at the start of the data. `Seek(0)` after it is the remedy. -/
theorem compressed_reset_spoils : zipOpen [ZipReader.readNext, ZipReader.readNext, zipReset, ZipReader.readNext] =
      .ok [(.ok true, all28 1), (.ok true, all28 2), (.ok true, all28 2), (.ok true, all28 3)] ∧
    zipOpen [ZipReader.readNext, ZipReader.readNext, zipReset, fun r => r.seek 0, ZipReader.readNext] =
      .ok [(.ok true, all28 1), (.ok true, all28 2), (.ok true, all28 2), (.ok true, all28 2), (.ok true, all28 1)] := by
  decide +kernel

end LibLAS
