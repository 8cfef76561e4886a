import Verif.Props.Reading
import Verif.Spec.Malformed
/-
C29, C47.
-/
namespace LibLAS
open Spec HeaderReader

/-- An exception, and nothing else. -/
def Throws {α : Type} (x : Outcome α) : Prop := ∃ e, x = .throw e

theorem Throws.set {α : Type} {x : Header × Outcome Unit} {f : Header → Outcome α} (h1 : x.2 ≠ .ub)
    (h2 : ∀ h, x = (h, .ok ()) → Throws (f h)) : Throws (HeaderReader.set x >>= f) := by
  rcases x with ⟨h, o⟩
  rcases o with a | e | _
  · exact h2 h rfl
  · exact ⟨e, rfl⟩
  · exact absurd rfl h1

theorem Throws.bind {α β : Type} {x : Outcome β} {f : β → Outcome α} (h1 : x ≠ .ub)
    (h2 : ∀ a, x = .ok a → Throws (f a)) : Throws (x >>= f) := by
  rcases x with a | e | _
  · exact h2 a rfl
  · exact ⟨e, rfl⟩
  · exact absurd rfl h1

theorem setSig_ne (h : Header) (v : List Byte) : (h.setFileSignature v).2 ≠ .ub := by
  unfold Header.setFileSignature; split <;> simp
theorem setMajor_ne (h : Header) (v : BitVec 8) : (h.setVersionMajor v).2 ≠ .ub := by
  unfold Header.setVersionMajor; split <;> simp
theorem setMinor_ne (h : Header) (v : BitVec 8) : (h.setVersionMinor v).2 ≠ .ub := by
  unfold Header.setVersionMinor; split <;> simp
theorem setSys_ne (h : Header) (v : List Byte) : (h.setSystemId v).2 ≠ .ub := by
  unfold Header.setSystemId; split <;> simp
theorem setSoft_ne (h : Header) (v : List Byte) : (h.setSoftwareId v).2 ≠ .ub := by
  unfold Header.setSoftwareId; split <;> simp
theorem compressionOf_ne (n : BitVec 8) : compressionOf n ≠ .ub := by
  unfold compressionOf; dsimp only; split
  · simp
  · split <;> simp
theorem formatOf_ne (n : BitVec 8) : formatOf n ≠ .ub := by
  unfold formatOf
  repeat' split
  all_goals simp
theorem newFormat_ne (d y : BitVec 16) (f : PointFormat) : ((Header.new d y).schema.setDataFormatId f).2 ≠ .ub := by
  have : ∀ f, ((Header.new 0 0).schema.setDataFormatId f).2 ≠ .ub := by
    intro f; cases f <;> decide +kernel
  exact this f

theorem got_toNat {b : List Byte} {w off k : Nat} (hw : w = 8 * k) (h : off + k ≤ b.length) :
    (got w (slice b off k)).toNat = fileNum b off k := by
  have hl2 : (slice b off k).length = k := slice_length_of_le h
  unfold got fileNum
  simp only [readScalar, swapN, memValue_little, BitVec.toNat_ofNat]
  have := leNat_lt (slice b off k)
  rw [hl2] at this
  apply Nat.mod_eq_of_lt
  rw [hw, Nat.pow_mul]; exact this

theorem compressionOf_tab : ∀ n : BitVec 8, (n.toNat / 64 % 2 = 1 → compressionOf n = .throw .domainError) ∧
    (n.toNat < 64 → compressionOf n = .ok false) ∧ (n.toNat / 64 = 2 → compressionOf n = .ok true) := by
  have : ∀ k : Fin 256, ((BitVec.ofFin (w := 8) k).toNat / 64 % 2 = 1 → compressionOf (BitVec.ofFin k) = .throw .domainError) ∧
    ((BitVec.ofFin (w := 8) k).toNat < 64 → compressionOf (BitVec.ofFin k) = .ok false) ∧
    ((BitVec.ofFin (w := 8) k).toNat / 64 = 2 → compressionOf (BitVec.ofFin k) = .ok true) := by decide +kernel
  intro n; exact this n.toFin

theorem formatOf_tab : ∀ n : BitVec 8, (∀ f, formatOf (n &&& 0x3f) = .ok f → f.std = true → n.toNat % 64 ≤ 3) := by
  have : ∀ k : Fin 256, ∀ f ∈ [PointFormat.f0, .f1, .f2, .f3, .f4, .f5],
      formatOf (BitVec.ofFin (w := 8) k &&& 0x3f) = .ok f → f.std = true → (BitVec.ofFin (w := 8) k).toNat % 64 ≤ 3 := by decide +kernel
  intro n f; exact this n.toFin f (by cases f <;> simp)

/-- C29: a malformed header of full length makes the constructor throw. -/
theorem malformed_rejected (env : Env) (today : BitVec 16 × BitVec 16) {b : List Byte} (hb : 227 ≤ b.length)
    (hm : Malformed b) : ∃ e, Reader.make env today (IStream.onFile b) = .throw e := by
  suffices h : Throws (readHeader env ⟨b, 0, false, false⟩ (Header.new today.1 today.2)) by
    obtain ⟨e, he⟩ := h
    refine ⟨e, ?_⟩
    unfold Reader.make
    show (readHeader env ⟨b, 0, false, false⟩ (Header.new today.1 today.2) >>= _) = _
    rw [he]; rfl
  rw [readHeader_eq env b 0 _ hb]
  refine Throws.set (setSig_ne _ _) fun h1 q1 => ?_
  refine Throws.set (setMajor_ne _ _) fun h2 q2 => ?_
  refine Throws.set (setMinor_ne _ _) fun h3 q3 => ?_
  refine Throws.set (setSys_ne _ _) fun h4 q4 => ?_
  refine Throws.set (setSoft_ne _ _) fun h5 q5 => ?_
  split
  · exact ⟨_, rfl⟩
  rename_i hoff
  refine Throws.bind (compressionOf_ne _) fun c q6 => ?_
  refine Throws.bind (formatOf_ne _) fun f q7 => ?_
  have s1 : slice b 0 4 = lit "LASF" ∧ h1.schema = (Header.new today.1 today.2).schema := by
    unfold Header.setFileSignature at q1
    have hl : (slice b 0 4).length = 4 := slice_length_of_le (by omega)
    split at q1
    · simp at q1
    · rename_i hh
      rw [List.take_of_length_le (by omega)] at hh
      injection q1 with q1 _
      exact ⟨by simpa using hh, by rw [← q1]⟩
  have s2 : fileNum b 24 1 = 1 ∧ h2.schema = h1.schema := by
    unfold Header.setVersionMajor at q2
    split at q2
    · simp at q2
    · rename_i hh
      injection q2 with q2 _
      rw [got_toNat (by norm_num) (by omega)] at hh
      exact ⟨by omega, by rw [← q2]⟩
  have s3 : fileNum b 25 1 ≤ 3 ∧ h3.schema = h2.schema := by
    unfold Header.setVersionMinor at q3
    split at q3
    · simp at q3
    · rename_i hh
      injection q3 with q3 _
      rw [got_toNat (by norm_num) (by omega)] at hh
      exact ⟨by omega, by rw [← q3]⟩
  have s4 : h4.schema = h3.schema := by
    unfold Header.setSystemId at q4
    split at q4
    · simp at q4
    · injection q4 with q4 _
      rw [← q4]
  have s5 : h5.schema = h4.schema := by
    unfold Header.setSoftwareId at q5
    split at q5
    · simp at q5
    · injection q5 with q5 _
      rw [← q5]
  have hsch : h5.schema = (Header.new today.1 today.2).schema := by rw [s5, s4, s3.2, s2.2, s1.2]
  refine Throws.set ?_ fun h6 q8 => ?_
  · show (h5.schema.setDataFormatId f).2 ≠ .ub
    rw [hsch]; exact newFormat_ne _ _ _
  · exfalso
    have hf := (format_std q7 today.1 today.2 (g := { h5 with
        doy := got 16 (slice b 90 2)
        year := got 16 (slice b 92 2)
        headerSize := got 16 (slice b 94 2)
        dataOffset := got 32 (slice b 96 4)
        recordsCount := got 32 (slice b 100 4)
        compressed := c }) hsch (by rw [q8]; rfl)).1
    have hlow := formatOf_tab _ f q7 hf
    rw [got_toNat (by norm_num) (by omega)] at hlow
    rw [got_toNat (by norm_num) (by omega), got_toNat (by norm_num) (by omega)] at hoff
    have hc := (compressionOf_tab (got 8 (slice b 104 1))).1
    rw [got_toNat (by norm_num) (by omega), q6] at hc
    have e0 : lit "LASF" = [0x4c, 0x41, 0x53, 0x46] := by decide +kernel
    rcases hm with h | h | h | h | h | h
    · exact h (by rw [s1.1, e0])
    · exact h s2.1
    · omega
    · exact hoff h
    · exact absurd (hc h) (by simp)
    · omega

/-- The hypothesis is met: a full file whose format byte says 9. -/
example : 227 ≤ (overlay (sampleFile fivePoints) 104 [9#8]).length ∧ Malformed (overlay (sampleFile fivePoints) 104 [9#8]) :=
  ⟨by decide +kernel, Or.inr (Or.inr (Or.inr (Or.inr (Or.inr (by decide +kernel)))))⟩

/-! Files shorter than the header block. -/

/-- While the header is read: the stream has failed, or stands at offset `p` of the file. -/
def HeadAt (b : List Byte) (p : Nat) (s : IStream) : Prop :=
  s.fail = true ∨ (s = ⟨b, p, false, false⟩ ∧ p ≤ b.length)

theorem HeadAt.read {b : List Byte} {p k : Nat} {s : IStream} (h : HeadAt b p s) (hf : s.fail = false) (hk : 0 < k) :
    HeadAt b (p + k) (s.read k).2 := by
  rcases h with h | ⟨rfl, hp⟩
  · rw [h] at hf; cases hf
  by_cases hl : p + k ≤ b.length
  · right
    rw [IStream.read_full rfl rfl hl]; exact ⟨rfl, hl⟩
  · left
    rw [IStream.read_short rfl rfl hk (by show b.length < p + k; omega)]

theorem HeadAt.throws_bytes {b : List Byte} {p k : Nat} {s : IStream} {c : Byte} {α : Type} {f : List Byte × IStream → Outcome α}
    (h : HeadAt b p s) (hk : 0 < k) (hn : ∀ v s', HeadAt b (p + k) s' → Throws (f (v, s'))) :
    Throws (s.readN (List.replicate k c) >>= f) := by
  unfold IStream.readN
  by_cases hf : s.fail = true
  · rw [if_pos hf]; exact ⟨_, rfl⟩
  · rw [if_neg hf]
    have := h.read (by simpa using hf) hk
    rw [List.length_replicate]
    exact hn _ _ this

theorem HeadAt.throws_scalar {b : List Byte} {p w k : Nat} {s : IStream} {α : Type} {f : BitVec w × IStream → Outcome α}
    (h : HeadAt b p s) (hk : 0 < k) (hn : ∀ v s', HeadAt b (p + k) s' → Throws (f (v, s'))) :
    Throws (HeaderReader.readScalar s w k >>= f) := by
  unfold HeaderReader.readScalar
  rw [bind_assoc']
  exact h.throws_bytes hk fun v s' hs => hn _ _ hs

theorem HeadAt.throws_end {b : List Byte} {p w k : Nat} {s : IStream} {α : Type} {f : BitVec w × IStream → Outcome α}
    (h : HeadAt b p s) (hb : b.length < p) : Throws (HeaderReader.readScalar s w k >>= f) := by
  rcases h with h | ⟨rfl, hp⟩
  · unfold HeaderReader.readScalar IStream.readN
    rw [if_pos h]; exact ⟨_, rfl⟩
  · omega

theorem HeadAt.throws_returns {b : List Byte} {α : Type} : ∀ (k i p : Nat) (s : IStream) (h : Header)
    (f : IStream × Header → Outcome α), HeadAt b p s → i + k ≤ h.byReturn.length →
    (∀ s' h', HeadAt b (p + 4 * k) s' → Throws (f (s', h'))) → Throws (readReturns k i s h >>= f) := by
  intro k
  induction k with
  | zero => intro i p s h f hs _ hn; exact hn _ _ hs
  | succ k ih =>
    intro i p s h f hs hl hn
    rw [readReturns, bind_assoc']
    refine hs.throws_scalar (by norm_num) fun v s' hs' => ?_
    dsimp only
    unfold Header.setByReturn
    rw [if_pos (by omega)]
    dsimp only
    refine ih (i + 1) (p + 4) s' _ f hs' (by simp; omega) ?_
    intro s'' h' hs''
    exact hn _ _ (by rw [show p + 4 * (k + 1) = p + 4 + 4 * k by omega]; exact hs'')

/-- C29, short files: a stream that ends before the last field of the header block makes the constructor throw. -/
theorem short_header_rejected (env : Env) (today : BitVec 16 × BitVec 16) {b : List Byte} (hb : b.length < 219) :
    ∃ e, Reader.make env today (IStream.onFile b) = .throw e := by
  suffices h : Throws (readHeader env ⟨b, 0, false, false⟩ (Header.new today.1 today.2)) by
    obtain ⟨e, he⟩ := h
    refine ⟨e, ?_⟩
    unfold Reader.make
    show (readHeader env ⟨b, 0, false, false⟩ (Header.new today.1 today.2) >>= _) = _
    rw [he]; rfl
  have hfr : ∀ (d y : BitVec 16), (Header.new d y).byReturn.length = 7 := fun _ _ => rfl
  unfold readHeader
  dsimp only
  have h0 : HeadAt b 0 ((⟨b, 0, false, false⟩ : IStream).seek 0) := Or.inr ⟨rfl, by omega⟩
  refine h0.throws_bytes (by norm_num) fun _ _ hs => ?_
  refine Throws.set (setSig_ne _ _) fun h1 q1 => ?_
  refine hs.throws_scalar (by norm_num) fun _ _ hs => ?_
  refine hs.throws_scalar (by norm_num) fun _ _ hs => ?_
  refine hs.throws_bytes (by norm_num) fun _ _ hs => ?_
  refine hs.throws_scalar (by norm_num) fun _ _ hs => ?_
  refine Throws.set (setMajor_ne _ _) fun h2 q2 => ?_
  refine hs.throws_scalar (by norm_num) fun _ _ hs => ?_
  refine Throws.set (setMinor_ne _ _) fun h3 q3 => ?_
  refine hs.throws_bytes (by norm_num) fun _ _ hs => ?_
  refine Throws.set (setSys_ne _ _) fun h4 q4 => ?_
  refine hs.throws_bytes (by norm_num) fun _ _ hs => ?_
  refine Throws.set (setSoft_ne _ _) fun h5 q5 => ?_
  refine hs.throws_scalar (by norm_num) fun _ _ hs => ?_
  refine hs.throws_scalar (by norm_num) fun _ _ hs => ?_
  refine hs.throws_scalar (by norm_num) fun _ _ hs => ?_
  refine hs.throws_scalar (by norm_num) fun _ _ hs => ?_
  dsimp only
  split
  · exact ⟨_, rfl⟩
  have s5 : h5.schema = (Header.new today.1 today.2).schema ∧ h5.byReturn.length = 7 := by
    unfold Header.setFileSignature at q1
    unfold Header.setVersionMajor at q2
    unfold Header.setVersionMinor at q3
    unfold Header.setSystemId at q4
    unfold Header.setSoftwareId at q5
    split at q1
    · simp at q1
    split at q2
    · simp at q2
    split at q3
    · simp at q3
    split at q4
    · simp at q4
    split at q5
    · simp at q5
    injection q1 with q1 _
    injection q2 with q2 _
    injection q3 with q3 _
    injection q4 with q4 _
    injection q5 with q5 _
    rw [← q5, ← q4, ← q3, ← q2, ← q1]
    exact ⟨rfl, rfl⟩
  refine hs.throws_scalar (by norm_num) fun _ _ hs => ?_
  refine hs.throws_scalar (by norm_num) fun _ _ hs => ?_
  refine Throws.bind (compressionOf_ne _) fun c q6 => ?_
  refine Throws.bind (formatOf_ne _) fun f q7 => ?_
  refine Throws.set ?_ fun h6 q8 => ?_
  · show (h5.schema.setDataFormatId f).2 ≠ .ub
    rw [s5.1]; exact newFormat_ne _ _ _
  have s6 : h6.byReturn.length = 7 := by
    unfold Header.setDataFormatId at q8
    injection q8 with q8 _
    rw [← q8]; exact s5.2
  refine hs.throws_scalar (by norm_num) fun _ _ hs => ?_
  refine hs.throws_scalar (by norm_num) fun _ _ hs => ?_
  refine HeadAt.throws_returns 5 0 _ _ _ _ hs (by show 0 + 5 ≤ h6.byReturn.length; omega) fun _ _ hs => ?_
  iterate 11
    refine HeadAt.throws_scalar (by assumption) (by norm_num) fun _ _ hs => ?_
  rename_i hlast
  exact HeadAt.throws_end hs (by omega)

/-- C29 is not met by streams of 219 to 226 bytes: they are accepted; the minimum Z is made up from the bytes that are
there and zeros. -/
theorem cut_header_accepted : ∃ r, Reader.make plainEnv (1, 2000)
      (IStream.onFile (overlay ((sampleFile fivePoints).take 219) 100 [0, 0, 0, 0])) = .ok r ∧
    r.hdr.min.z = 0 ∧ r.hdr.pointCount.toNat = 5 :=
  Outcome.exists_of_check (by decide +kernel)

/-- C29: a compressed file never yields a reader in a build without LASzip. -/
theorem compressed_rejected (env : Env) (today : BitVec 16 × BitVec 16) {b : List Byte} {r : Reader} 
    (hr : Reader.make env today (IStream.onFile b) = .ok r) : r.hdr.compressed = false := by
  unfold Reader.make at hr
  obtain ⟨⟨s, h⟩, e1, e⟩ := bind_eq_ok hr
  dsimp only at e
  split at e
  · cases e
  · rename_i hc
    simp only [Outcome.pure_eq, Outcome.ok.injEq] at e
    rw [← e]
    show h.compressed = false
    simpa using hc

/-! C47 -/

/-- C47, proved part: when the record length of the header is at least that of the point format, every attribute of
the current point can be read after any history of calls, and the attributes are those the standard's record layout
gives. -/
theorem delivered_point_safe_partial {env : Env} {today : BitVec 16 × BitVec 16} {b : List Byte} {r₀ : Reader} (hb : 227 ≤ b.length)
    (hr : Reader.make env today (IStream.onFile b) = .ok r₀) (hv : NoSchema env r₀.hdr.vlrs)
    (hl : formatSize r₀.hdr.schema.fmt ≤ fileNum b 105 2)
    (ops : List ReadOp) (hops : ∀ op ∈ ops, op.Benign) (bd : Build) :
    ∃ a, Point.observe bd ⟨(readRun r₀ ops).point, r₀.hdr.toP⟩ = .ok a := by
  have hstd := (open_file hb hr hv).std
  have hpos : 0 < formatSize r₀.hdr.schema.fmt := by cases r₀.hdr.schema.fmt <;> decide
  obtain ⟨hs, hlen⟩ := opened_length hb hr hv (by unfold fileNum at hl; omega)
  obtain ⟨h1, h2, h3⟩ := (make_made hr).on hs.pos hs.fits
  have ho := (readRun_ready ops ⟨h1, h3⟩ hops).on
  refine ⟨_, Point.observe_eq ⟨hstd, ?_⟩⟩
  show formatSize r₀.hdr.schema.fmt ≤ (readRun r₀ ops).point.length
  rw [ho.point, hlen]
  exact hl

/-- The hypotheses are met by the sample file. -/
example : ∃ r, Reader.make plainEnv (1, 2000) (IStream.onFile (sampleFile fivePoints)) = .ok r ∧
    formatSize r.hdr.schema.fmt ≤ fileNum (sampleFile fivePoints) 105 2 ∧ 227 ≤ (sampleFile fivePoints).length ∧
    r.hdr.vlrs.find? VLR.isSchema = none :=
  Outcome.exists_of_check (by decide +kernel)

/-- C47 refuted: the header says format 1 and records of 20 bytes. The file is accepted, its points are delivered, and
reading the GPS time of one touches memory behind the record. -/
theorem short_record_unsafe (bd : Build) : ∃ r, Reader.make plainEnv (1, 2000)
      (IStream.onFile (overlay (sampleFile fivePoints) 105 [20, 0])) = .ok r ∧
    r.readNext.2 = .ok true ∧ r.readNext.1.point.length = 20 ∧
    Point.getTime bd ⟨r.readNext.1.point, r.hdr.toP⟩ = .ub := by
  obtain ⟨r, h1, h2, h3, h4⟩ := Outcome.exists_of_check
    (x := Reader.make plainEnv (1, 2000) (IStream.onFile (overlay (sampleFile fivePoints) 105 [20, 0])))
    (P := fun r => r.readNext.2 = .ok true ∧ r.readNext.1.point.length = 20 ∧ r.hdr.schema.fmt = .f1) (by decide +kernel)
  refine ⟨r, h1, h2, h3, ?_⟩
  unfold Point.getTime
  have : (r.hdr.toP).fmt = .f1 := h4
  rw [if_neg (by rw [this]; decide)]
  unfold Point.getInt LibLAS.readAt
  rw [if_neg (by simp only [h3]; omega)]
  rfl

end LibLAS
