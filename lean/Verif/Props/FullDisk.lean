import Verif.Lemmas.FullDisk
import Batteries.Tactic.OpenPrivate
/-
C91. A disk that fills up while points are written.
-/
namespace LibLAS.FullDisk
open LibLAS Spec

theorem close_eq {room : Nat} {w : Writer} (hl : 111 ≤ w.ofs.buf.length) : close room w = w.close := by
  unfold close Writer.close Writer.updatePointCount
  simp only [ite_self]
  cases hf : w.ofs.fail with
  | true => simp [hf]
  | false =>
    have hs : w.ofs.seek 107 = { w.ofs with pos := 107 } := by unfold OStream.seek; rw [if_neg (by simp [hf])]
    simp only [hf, Bool.false_eq_true, if_false]
    rw [hs]
    unfold write
    rw [if_neg (by simp [hf]), if_pos]
    have : (put 4 w.count).length = 4 := put_length _ _
    rw [this]
    show 4 ≤ max room w.ofs.buf.length - 107
    omega

/-- What a session does, by the free space; `x` is what is left behind when it is too small. -/
theorem session_room {env : Env} {w w' : Writer} {old : List (List Byte)} (hw : Writing env w old) (room : Nat)
    (pts : List (List Byte)) (hp : ∀ p ∈ pts, p.length = w.hdr.dataRecordLength) (hwr : w.writePoints pts = .ok w') :
    (pts.length * w.hdr.dataRecordLength ≤ max room w.ofs.buf.length - w.ofs.pos →
      session room w pts = (.ok (), w'.close.buf)) ∧
    (max room w.ofs.buf.length - w.ofs.pos < pts.length * w.hdr.dataRecordLength →
      session room w pts =
        (if (max room w.ofs.buf.length - w.ofs.pos) / w.hdr.dataRecordLength + 1 < pts.length then .throw .runtimeError
          else .ok (),
         crashed w.ofs.buf (w'.ofs.log.drop w.ofs.log.length) ((max room w.ofs.buf.length - w.ofs.pos) / w.hdr.dataRecordLength)
          ((max room w.ofs.buf.length - w.ofs.pos) % w.hdr.dataRecordLength))) := by
  have hle : ∀ p ∈ pts, w.hdr.dataRecordLength ≤ p.length := fun p h => by rw [hp p h]
  obtain ⟨a1, a2⟩ := writePoints_room room pts w hw.recPos hw.good hle
  have hbl : 227 ≤ w.ofs.buf.length := by
    have := congrArg List.length hw.block
    rw [slice_length, headerBytes_length hw.readable.toSized hw.readable.returns] at this; omega
  obtain ⟨v', e1, e2, e3, e4, e5, e6, e7⟩ := writePoints_ok pts w hw.recPos hw.good hle
  rw [hwr] at e1; injection e1 with e1; subst e1
  constructor
  · intro h
    obtain ⟨v, b1, b2⟩ := a1 h
    rw [hwr] at b1; injection b1 with b1; subst b1
    unfold session
    rw [b2]
    simp only
    rw [close_eq]
    rw [e5]
    have := overlay_length_ge w.ofs.buf w.ofs.pos (cutTo w.hdr.dataRecordLength pts).flatten
    omega
  · intro h
    obtain ⟨v, b1, b2, b3⟩ := a2 h
    unfold session
    rw [b3]
    simp only
    congr 1
    have : close room v = v.ofs := by unfold close; rw [if_pos b1]
    rw [this, b2, e7, List.drop_left' rfl, crashed_writesAt, flatten_take _ hw.recPos _ (by
      intro p hq
      obtain ⟨q, hm, rfl⟩ := List.mem_map.1 hq
      rw [List.length_take, hp q hm, Nat.min_self])]

/-- C91, new file with enough space: as without a limit. `room` is the largest size the file can reach. -/
theorem enough_room (env : Env) {h : Header} {w w' : Writer} (hs : StorableHeader h)
    (hmk : Writer.make env (OStream.onFile []) h = .ok w)
    (hsmall : h.headerSize.toNat + recordBytes w.hdr.vlrs + 4 < 2 ^ 31)
    (hschema : NoSchema env w.hdr.vlrs) (h0 : 0 < h.dataRecordLength)
    (pts : List (List Byte)) (hp : ∀ p ∈ pts, p.length = h.dataRecordLength)
    (hwr : w.writePoints pts = .ok w') (room : Nat)
    (hroom : w.hdr.dataOffset.toNat + pts.length * h.dataRecordLength ≤ max room w.ofs.buf.length) :
    session room w pts = (.ok (), w'.close.buf) := by
  obtain ⟨pad, hf⟩ := new_file (StorableHeader.good hs) hs.size hmk hsmall
  have hw := hf.writing hs (Or.inl hschema) h0 hsmall
  have hl : w.hdr.dataRecordLength = h.dataRecordLength := by rw [hf.hdr]; rfl
  have hpos := hw.pos
  simp only [List.flatten_nil, List.length_nil, Nat.add_zero] at hpos
  exact (session_room hw room pts (by rw [hl]; exact hp) hwr).1 (by rw [hl, hpos]; omega)

/-- C91, new file on a disk too small for its points: `k` points fit. The file keeps the point count it had before
any point was written, the `k` points are in it, and the program is told (by `std::runtime_error`) exactly when at
least one more point follows the one that did not fit. -/
theorem full_disk (env : Env) (today : BitVec 16 × BitVec 16) {h : Header} {w w' : Writer} (hs : StorableHeader h)
    (hmk : Writer.make env (OStream.onFile []) h = .ok w)
    (hsmall : h.headerSize.toNat + recordBytes w.hdr.vlrs + 4 < 2 ^ 31)
    (hschema : NoSchema env w.hdr.vlrs) (h0 : 0 < h.dataRecordLength)
    (pts : List (List Byte)) (hp : ∀ p ∈ pts, p.length = h.dataRecordLength)
    (hwr : w.writePoints pts = .ok w') (room k : Nat) (hfile : w.ofs.buf.length ≤ room) (hk : k < pts.length)
    (hle : k = 0 ∨ w.hdr.dataOffset.toNat + k * h.dataRecordLength ≤ room)
    (hlt : room < w.hdr.dataOffset.toNat + (k + 1) * h.dataRecordLength) :
    ∃ x, session room w pts = (if k + 1 < pts.length then .throw .runtimeError else .ok (), x) ∧
      CrashSafe env today x h.pointCount.toNat w.hdr.dataOffset.toNat h.dataRecordLength (pts.take k) w'.close.buf := by
  obtain ⟨pad, hf⟩ := new_file (StorableHeader.good hs) hs.size hmk hsmall
  have hw := hf.writing hs (Or.inl hschema) h0 hsmall
  have hl : w.hdr.dataRecordLength = h.dataRecordLength := by rw [hf.hdr]; rfl
  have hpos := hw.pos
  simp only [List.flatten_nil, List.length_nil, Nat.add_zero] at hpos
  have hdiv : (max room w.ofs.buf.length - w.ofs.pos) / w.hdr.dataRecordLength = k := by
    rw [Nat.max_eq_left hfile, hpos, hl]
    apply Nat.div_eq_of_lt_le
    · rcases hle with rfl | hle
      · simp
      · omega
    · have := Nat.add_mul k 1 h.dataRecordLength
      omega
  have := (session_room hw room pts (by rw [hl]; exact hp) hwr).2 (by
    rw [← Nat.div_lt_iff_lt_mul hw.recPos, hdiv]; exact hk)
  rw [hdiv] at this
  exact ⟨_, this, crash_new_file env today hs hmk hsmall hschema h0 pts hp hwr k _⟩

open private produced_inv from Verif.Props.WriteRead

theorem append_writing {env : Env} {today : BitVec 16 × BitVec 16} {b : List Byte} {ps : List (List Byte)}
    (hpr : Produced env today b ps) {r : Reader} (hr : Reader.make env today (IStream.onFile b) = .ok r)
    {w : Writer} (hmk : Writer.make env (OStream.onFile b) r.hdr = .ok w) : Writing env w ps ∧ w.hdr = r.hdr := by
  obtain ⟨h, f1, f2, f3⟩ := produced_inv hpr
  obtain ⟨r', r1, r2, -⟩ := f1.read today
  rw [hr] at r1
  injection r1 with r1
  subst r1
  obtain ⟨v, w1, w2, -, -, -, w6, -⟩ := f1.append f2 f3 r2
  rw [hmk] at w1
  injection w1 with w1
  subst w1
  exact ⟨w2, w6⟩

/-- C91, append session on a disk too small for the new points: the old points and the `k` new ones that fit are there,
the file shows the old count, and the program is told exactly when at least one more point follows the one that did
not fit. -/
theorem full_disk_append {env : Env} {today : BitVec 16 × BitVec 16} {b : List Byte} {ps : List (List Byte)}
    (hpr : Produced env today b ps) {r : Reader} (hr : Reader.make env today (IStream.onFile b) = .ok r)
    {w w' : Writer} (hmk : Writer.make env (OStream.onFile b) r.hdr = .ok w)
    (pts : List (List Byte)) (hlen : ∀ p ∈ pts, p.length = r.hdr.dataRecordLength) (hwr : w.writePoints pts = .ok w')
    (room k : Nat) (hfile : w.ofs.buf.length ≤ room) (hk : k < pts.length)
    (hle : r.hdr.dataOffset.toNat + (ps.length + k) * r.hdr.dataRecordLength ≤ room)
    (hlt : room < r.hdr.dataOffset.toNat + (ps.length + k + 1) * r.hdr.dataRecordLength) :
    ∃ x, session room w pts = (if k + 1 < pts.length then .throw .runtimeError else .ok (), x) ∧
      CrashSafe env today x ps.length r.hdr.dataOffset.toNat r.hdr.dataRecordLength (ps ++ pts.take k) w'.close.buf := by
  obtain ⟨hw, hh⟩ := append_writing hpr hr hmk
  have hpos := hw.pos
  rw [flatten_length_const hw.len] at hpos
  rw [hh] at hpos
  have e1 := Nat.add_mul ps.length k r.hdr.dataRecordLength
  have e2 := Nat.add_mul (ps.length + k) 1 r.hdr.dataRecordLength
  have e3 := Nat.add_mul k 1 r.hdr.dataRecordLength
  have hdiv : (max room w.ofs.buf.length - w.ofs.pos) / w.hdr.dataRecordLength = k := by
    rw [Nat.max_eq_left hfile, hpos, hh]
    apply Nat.div_eq_of_lt_le <;> omega
  have := (session_room hw room pts (by rw [hh]; exact hlen) hwr).2 (by
    rw [← Nat.div_lt_iff_lt_mul hw.recPos, hdiv]; exact hk)
  rw [hdiv] at this
  exact ⟨_, this, crash_append hpr hr hmk pts hlen hwr k _⟩

/-- C91 as one would wish it (every loss is reported) fails for every non-empty list of points: there is a disk size
for which no call reports anything and the file left behind is one without points. -/
theorem loss_not_reported (env : Env) (today : BitVec 16 × BitVec 16) {h : Header} {w : Writer} (hs : StorableHeader h)
    (hmk : Writer.make env (OStream.onFile []) h = .ok w)
    (hsmall : h.headerSize.toNat + recordBytes w.hdr.vlrs + 4 < 2 ^ 31)
    (hschema : NoSchema env w.hdr.vlrs) (h0 : 0 < h.dataRecordLength) (hc : h.pointCount = 0) (hpad : w.hdr.padding = 0)
    (pts : List (List Byte)) (hp : ∀ p ∈ pts, p.length = h.dataRecordLength) (hne : pts ≠ []) :
    ∃ room, w.ofs.buf.length ≤ room ∧ ∃ x, session room w pts = (.ok (), x) ∧
      ∃ r, Reader.make env today (IStream.onFile x) = .ok r ∧ r.hdr.pointCount = 0 := by
  obtain ⟨pad, hf⟩ := new_file (StorableHeader.good hs) hs.size hmk hsmall
  have hw := hf.writing hs (Or.inl hschema) h0 hsmall
  have hl : w.hdr.dataRecordLength = h.dataRecordLength := by rw [hf.hdr]; rfl
  have hp0 : pad = 0 := by
    have : w.hdr.padding = BitVec.ofNat 32 pad := by conv_lhs => rw [hf.hdr]
    rw [hpad] at this
    have h2 := congrArg BitVec.toNat this
    rw [BitVec.toNat_ofNat, Nat.mod_eq_of_lt (by have := hf.pad_le; omega)] at h2
    simpa using h2.symm
  have ht := hf.noTail hp0
  obtain ⟨w', hwr, -⟩ := writePoints_ok pts w hw.recPos hw.good (by rw [hl]; exact fun p q => (hp p q).ge)
  have hn : 0 < pts.length := List.length_pos_iff.2 hne
  obtain ⟨n, hn⟩ : ∃ n, pts.length = n + 1 := ⟨pts.length - 1, by omega⟩
  have e1 := Nat.add_mul n 1 h.dataRecordLength
  obtain ⟨x, x1, x2⟩ := full_disk env today hs hmk hsmall hschema h0 pts hp hwr
    (w.hdr.dataOffset.toNat + n * h.dataRecordLength) n (by omega) (by omega) (Or.inr (by omega)) (by omega)
  rw [if_neg (by omega)] at x1
  refine ⟨_, by omega, x, x1, ?_⟩
  obtain ⟨r, r1, r2⟩ := x2.opens
  exact ⟨r, r1, BitVec.eq_of_toNat_eq (by rw [r2, hc])⟩

/-- A program for the examples: what it is told, the length of the file and the point count in it. -/
def outcome (room : Nat) (pts : List (List Byte)) : Outcome (Bool × Nat × List Byte) := do
  let w ← Writer.make plainEnv (OStream.onFile []) sampleHeader
  let (o, x) := session room w pts
  let told := match o with
    | .ok () => false
    | _ => true
  pure (told, x.length, slice x 107 4)

/-- The hypotheses above are met: the header block and the record of `sampleHeader` take 284 bytes, a point takes 28.
With 322 bytes one point and 10 bytes of the next fit: not reported for two points, reported for three. -/
example : ∃ o, outcome 322 [List.replicate 28 1#8, List.replicate 28 2#8] = .ok o ∧ o = (false, 322, [0, 0, 0, 0]) :=
  Outcome.exists_of_check (by decide +kernel)

example : ∃ o, outcome 322 [List.replicate 28 1#8, List.replicate 28 2#8, List.replicate 28 3#8] = .ok o ∧
    o = (true, 322, [0, 0, 0, 0]) :=
  Outcome.exists_of_check (by decide +kernel)

example : ∃ o, outcome 340 [List.replicate 28 1#8, List.replicate 28 2#8] = .ok o ∧ o = (false, 340, [2, 0, 0, 0]) :=
  Outcome.exists_of_check (by decide +kernel)

end LibLAS.FullDisk
