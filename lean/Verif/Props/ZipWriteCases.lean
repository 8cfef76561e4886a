import Verif.Props.ZipWrite
/-
C76: a codec that keeps the contract, concrete sessions, and what compressed writing does not do.
-/
namespace LibLAS
open Spec

theorem xorEncode_snoc (d : List Byte) : ∀ (rs : List (List Byte)) (prev : List Byte),
    xorEncode prev (rs ++ [d]) = xorEncode prev rs ++ xorBytes (rs.getLast?.getD prev) d := by
  intro rs
  induction rs with
  | nil => intro prev; simp [xorEncode]
  | cons r rs ih =>
    intro prev
    rw [List.cons_append, xorEncode, xorEncode, ih, List.append_assoc]
    cases rs with
    | nil => simp
    | cons a b => simp [List.getLast?_cons]

theorem xorEncode_length {len : Nat} : ∀ (rs : List (List Byte)) (prev : List Byte), (∀ r ∈ rs, r.length = len) → prev.length = len →
    (xorEncode prev rs).length = rs.length * len := by
  intro rs
  induction rs with
  | nil => intro prev _ _; simp [xorEncode]
  | cons r rs ih =>
    intro prev h hp
    rw [xorEncode, List.length_append, xorBytes_length (by rw [hp, h r (by simp)]), ih r (fun a ha => h a (by simp [ha])) (h r (by simp)),
      h r (by simp), List.length_cons, Nat.add_mul]
    omega

/-- The codec meets the contract of writing. -/
theorem xorZip_packs {len : Nat} (hlen : 0 < len) : Packs xorZip len := by
  refine ⟨fun off rs (u : List Byte) o => o.fail = false ∧ (∀ r ∈ rs, r.length = len) ∧ u = rs.getLast?.getD (List.replicate len 0#8) ∧
    o.pos = off + rs.length * len ∧ slice o.buf off (xorEncode (List.replicate len 0#8) rs).length = xorEncode (List.replicate len 0#8) rs, ?_, ?_, ?_, ?_, ?_⟩
  · intro o h
    exact ⟨_, _, rfl, ⟨h, by simp, rfl, by simp, by simp [xorEncode, slice]⟩, fun _ _ _ _ => rfl⟩
  · rintro off rs (u : List Byte) o d ⟨h1, h2, h3, h4, h5⟩ hd _
    have hd' : d.length = len := hd
    have hul : u.length = len := by
      rw [h3]
      cases e : rs.getLast? with
      | none => simp
      | some a => exact h2 a (List.mem_of_getLast? e)
    have hx : (xorBytes u d).length = len := by rw [xorBytes_length (by rw [hul, hd'])]; exact hd'
    have hel := xorEncode_length rs (List.replicate len 0#8) h2 (by simp)
    have hbuf : (o.write (xorBytes u d)).buf = overlay o.buf o.pos (xorBytes u d) := by simp [OStream.write, h1]
    refine ⟨d, o.write (xorBytes u d), rfl, ⟨by simp [OStream.write, h1], ?_, by simp, ?_, ?_⟩, ?_⟩
    · intro r hr
      rcases List.mem_append.1 hr with hr | hr
      · exact h2 r hr
      · rw [List.mem_singleton.1 hr]; exact hd'
    · simp only [OStream.write, h1, List.length_append, List.length_singleton, Nat.add_mul, h4, hx]
      simp only [Bool.false_eq_true, if_false]
      omega
    · rw [xorEncode_snoc, ← h3]
      refine slice_split ?_ ?_
      · rw [hbuf]
        by_cases h0 : xorEncode (List.replicate len 0#8) rs = []
        · rw [h0]; simp [slice]
        · rw [slice_overlay_before (by rw [h4, hel]) (slice_length_ge h5 h0), h5]
      · rw [hbuf, hel, ← h4, slice_overlay_in (Nat.le_refl _) (Nat.le_refl _), Nat.sub_self, slice_self]
    · intro p k hp hk
      rw [hbuf, slice_overlay_before (by omega) hk]
  · rintro off rs (u : List Byte) o p bs ⟨h1, h2, h3, h4, h5⟩ hp hl
    have hbuf : (((o.seek p).write bs).seek o.pos).buf = overlay o.buf p bs := by simp [OStream.seek, OStream.write, h1]
    refine ⟨by simp [OStream.seek, OStream.write, h1], h2, h3, by simp [OStream.seek, OStream.write, h1, h4], ?_⟩
    rw [hbuf, slice_overlay_after hp, h5]
  · rintro off rs u o ⟨h1, _⟩; exact h1
  · rintro off rs u o ⟨h1, h2, h3, h4, h5⟩
    refine ⟨fun _ _ _ _ => rfl, ?_⟩
    show Decodes xorZip len o.buf off rs
    by_cases h0 : rs = []
    · subst h0
      refine ⟨fun k u s => k = 0 ∧ s = ⟨o.buf, off, false, false⟩, _, off, rfl, ⟨rfl, rfl⟩, ?_, ?_, ?_⟩
      · intro k u s _ h; simp at h
      · intro k u s n _ h; simp at h
      · rintro u s ⟨_, h⟩; exact h
    · have hel := xorEncode_length rs (List.replicate len 0#8) h2 (by simp)
      have hne : xorEncode (List.replicate len 0#8) rs ≠ [] := by
        intro e
        rw [e] at hel
        have := List.length_pos_iff.2 h0
        have := Nat.mul_pos this hlen
        rw [List.length_nil] at hel; omega
      have hge := slice_length_ge h5 hne
      have := xorZip_decodes (len := len) (rs := rs) h2 (file := o.buf) (front := o.buf.take off)
        (back := o.buf.drop (off + (xorEncode (List.replicate len 0#8) rs).length)) (by
          conv_rhs => rw [← h5]
          unfold slice
          rw [List.length_take, List.length_drop, Nat.min_eq_left (by omega), ← List.drop_drop, List.append_assoc, List.take_append_drop, List.take_append_drop])
      rwa [List.length_take, Nat.min_eq_left (by omega)] at this

theorem xorZip_described {len : Nat} (h : 0 < len) (h' : len < 2 ^ 16) : Described xorZip len :=
  ⟨by intro e; have := congrArg List.length e; simp [xorZip] at this; omega, by simpa [xorZip] using h', by simp [xorZip]⟩

/-- The header of the example, marked compressed. -/
def zipHeader : Header := { sampleHeader with compressed := true }

theorem zipHeader_storable : StorableHeader zipHeader := { sampleHeader_storable with }

def zipPoints : List Point := fivePoints.map fun d => ⟨d, zipHeader.toP⟩

/-- The hypotheses of C76 are met: five points written compressed. -/
theorem zipHeader_makes : ∃ w, ZipWriter.make xorZip plainEnv (OStream.onFile []) zipHeader = .ok w ∧
    (w.config = show xorZip.Config from (28 : Nat)) ∧ zipHeader.headerSize.toNat + recordBytes w.hdr.vlrs + 4 < 2 ^ 31 ∧
    w.hdr.vlrs.find? VLR.isSchema = none :=
  Outcome.exists_of_check (by decide +kernel)

theorem compressed_round_trip_example (today : BitVec 16 × BitVec 16) (b : Build) :
    ∃ w w', ZipWriter.make xorZip plainEnv (OStream.onFile []) zipHeader = .ok w ∧ w.writePoints b zipPoints = .ok w' ∧
      ∃ r, ReadBack xorZip plainEnv today w'.close.buf zipHeader fivePoints r := by
  obtain ⟨w, e, hc, hsm, hns⟩ := zipHeader_makes
  obtain ⟨w', ew, r, hr⟩ := compressed_round_trip plainEnv today b zipHeader_storable rfl
    (by
      have : ∀ v ∈ zipHeader.vlrs, cstr v.userId ≠ lit "laszip encoded" := by decide +kernel
      intro v hv h; exact absurd h (this v hv)) e
    (by rw [hc]; exact xorZip_packs (by decide)) (by rw [hc]; exact xorZip_described (by decide) (by decide)) hsm
    (noSchema_none hns) zipPoints (by
      rw [hc]
      have : ∀ p ∈ zipPoints, p.data.length = 28 := by decide +kernel
      exact this) (by decide)
  refine ⟨w, w', e, ew, r, ?_⟩
  have : zipPoints.map Point.data = fivePoints := by decide +kernel
  rwa [this] at hr

/-! What it does not do. -/

/-- Open a compressing writer on a stream, write and close; the file left. -/
def zipSession (s : OStream) (h : Header) (ps : List Point) : Outcome (List Byte) := do
  let w ← ZipWriter.make xorZip plainEnv s h
  let w ← w.writePoints ⟨.little, false⟩ ps
  .ok w.close.buf

/-- The header found in a compressed file and what `ReadNextPoint` then reports and holds, so often. -/
def zipReadAll (n : Nat) (f : List Byte) : Outcome (Nat × List (Outcome Bool × List Byte)) :=
  match ZipReader.make xorZip plainEnv (1, 2000) (IStream.onFile f) with
  | .ok r => .ok (r.hdr.dataRecordLength, zipReports r (List.replicate n ZipReader.readNext))
  | .throw e => .throw e
  | .ub => .ub

example : (do let f ← zipSession (OStream.onFile []) zipHeader (zipPoints.take 2); zipReadAll 3 f) =
    .ok (28, [(.ok true, all28 1), (.ok true, all28 2), (.ok false, all28 2)]) := by
  decide +kernel

/-- C76 refuted for appending: opened on a file that has records the writer starts the compressor afresh behind them, and
what it packs is not what the reader finds there (this codec differs from one record to the next, as LASzip's models do). -/
theorem compressed_append_spoils : (do
      let f ← zipSession (OStream.onFile []) zipHeader (zipPoints.take 2)
      let r ← ZipReader.make xorZip plainEnv (1, 2000) (IStream.onFile f)
      let f ← zipSession (OStream.onFile f) r.hdr ((zipPoints.drop 3).take 1)
      zipReadAll 4 f) =
    .ok (28, [(.ok true, all28 1), (.ok true, all28 2), (.ok true, all28 6), (.ok false, all28 6)]) := by
  decide +kernel

/-- C76 refuted for a header that carries a description by LASzip for something else (as read from a file that was packed
that way): the records are packed as it says, but the file gets the usual description, and what is read is not what was
written. -/
theorem compressed_foreign_description : (do
      let h := { zipHeader with vlrs := [{ Zip.constructVLR xorZip (26 : Nat) with recordId := 22204 }] }
      let f ← zipSession (OStream.onFile []) h [⟨List.replicate 26 1#8, h.toP⟩, ⟨List.replicate 26 2#8, h.toP⟩]
      zipReadAll 1 f) =
    .ok (28, [(.ok true, List.replicate 26 1#8 ++ [3#8, 3#8])]) := by
  decide +kernel

/-- C76 refuted for dimensions of one's own: two bytes more than the point format has are not packed; the file says that
records have 30 bytes, and 28 are read. -/
theorem compressed_own_dimension_lost : (do
      let h := { zipHeader with schema := zipHeader.schema.addDimension { name := "Own", bitSize := 16, active := true } }
      let f ← zipSession (OStream.onFile []) h [⟨List.replicate 28 1#8 ++ [7#8, 7#8], h.toP⟩]
      zipReadAll 1 f) =
    .ok (30, [(.ok true, all28 1)]) := by
  decide +kernel

end LibLAS
