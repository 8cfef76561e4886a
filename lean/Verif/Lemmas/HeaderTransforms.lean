import Verif.Spec.HeaderTransforms
import Verif.Lemmas.ResetSim
/-
Readers with header-changing transforms against readers without transforms.
-/
namespace LibLAS.Moving
open LibLAS.Spec LibLAS.Reader

/-- The stream stands where the counter says, or all points have been read. -/
def Placed (r : Reader) (f : List Byte) (off len n : Nat) : Prop := r.At off len r.current ∨ n ≤ r.current

theorem readRecord_current (r : Reader) : r.readRecord.1.current = r.current := by
  unfold Reader.readRecord
  split
  · rfl
  split
  · rfl
  split
  · rfl
  · rfl

theorem readCounted_current (r : Reader) : r.current ≤ r.readCounted.1.current := by
  have h := readRecord_current r
  unfold Reader.readCounted
  rcases hr : r.readRecord with ⟨r1, o⟩
  rw [hr] at h
  rcases o with a | e | _
  · show r.current ≤ r1.current + 1
    have : r1.current = r.current := h
    omega
  · have h : r1.current = r.current := h
    cases e <;> exact Nat.le_of_eq h.symm
  · exact Nat.le_of_eq h.symm

/-- A read keeps the place, if the stream is where the counter says (with the counter above 0). -/
theorem readCounted_placed {r : Reader} {f : List Byte} {off len n : Nat} (hin : off + n * len ≤ f.length) (ho : r.On f off len n)
    (h0 : 0 < r.current) (hp : Placed r f off len n) : Placed r.readCounted.1 f off len n ∧ 0 < r.readCounted.1.current := by
  have hc := readCounted_current r
  refine ⟨?_, by omega⟩
  by_cases hn : n ≤ r.current
  · right; omega
  rcases hp with ⟨-, hp⟩ | hp
  · obtain ⟨a, b, c⟩ := hp (by omega)
    have hle : off + r.current * len + len ≤ f.length := by
      have : (r.current + 1) * len ≤ n * len := Nat.mul_le_mul_right _ (by omega)
      rw [Nat.succ_mul] at this; omega
    have hi : r.ifs = ⟨f, off + r.current * len, false, false⟩ := by
      have hb := ho.buf
      cases hr : r.ifs
      rw [hr] at a b c hb
      simp only at a b c hb
      rw [a, b, c, hb]
    left
    rw [Reader.readCounted_full ho hi hle]
    refine ⟨rfl, fun _ => ⟨?_, rfl, rfl⟩⟩
    show off + r.current * len + len = off + (r.current + 1) * len
    rw [Nat.succ_mul]; omega
  · omega

theorem skipLoop_placed {f : List Byte} {off len n : Nat} (hin : off + n * len ≤ f.length) (fuel : Nat) : ∀ {r : Reader},
    r.On f off len n → 0 < r.current → Placed r f off len n → Placed (skipLoop fuel r).1 f off len n := by
  induction fuel with
  | zero => intro r _ _ hp; exact hp
  | succ fuel ih =>
    intro r ho h0 hp
    unfold skipLoop
    split
    · exact hp
    have h1 := readCounted_placed hin ho h0 hp
    have h2 := (Reader.readCounted_inv ho.point).on ho
    rcases hr : r.readCounted with ⟨r1, o⟩
    rw [hr] at h1 h2
    rcases o with a | e | _
    · dsimp only
      split
      · exact h1.1
      · exact ih h2 h1.2 h1.1
    · exact h1.1
    · exact h1.1

/-- The state after any history, next to that of a reader without transforms. -/
structure Beside (b : Build) (f : List Byte) (h0 : LibLAS.Header) (fl : Option (List Byte → Bool)) (ts : List Transform)
    (m : MReader) (r : Reader) : Prop where
  same : m.r = { r with point := m.r.point }
  trans : m.ts = ts
  hdr : r.hdr = h0
  plain : r.xform = none
  filt : r.filter = fl
  on : r.On f h0.dataOffset.toNat h0.dataRecordLength h0.pointCount.toNat
  placed : Placed r f h0.dataOffset.toNat h0.dataRecordLength h0.pointCount.toNat
  hand : (m.other = none ∧ m.r.point.length = h0.dataRecordLength) ∨
    ∃ h, m.other = some h ∧ m.check = true ∧
      ∃ q, Point.setHeader b ⟨m.r.point, h⟩ h0.toP = .ok q ∧ q.data.length = h0.dataRecordLength

theorem Beside.settle {b : Build} {f : List Byte} {h0 : LibLAS.Header} {fl : Option (List Byte → Bool)} {ts : List Transform}
    {m : MReader} {r : Reader} (h : Beside b f h0 fl ts m r) : ∃ p, p.length = h0.dataRecordLength ∧
      m.settle b = .ok ⟨{ r with point := p }, none, m.check, ts⟩ := by
  obtain ⟨mr, mo, mc, mt⟩ := m
  have e1 := h.same
  have e0 := h.trans
  dsimp only at e1 e0
  subst e0
  rcases h.hand with ⟨e2, e3⟩ | ⟨g, e2, e3, q, e4, e5⟩
  · dsimp only at e2 e3
    subst e2
    refine ⟨mr.point, e3, ?_⟩
    unfold MReader.settle
    dsimp only
    rw [← e1]
    cases mc <;> rfl
  · dsimp only at e2 e3 e4
    subst e2 e3
    refine ⟨q.data, e5, ?_⟩
    unfold MReader.settle
    have e6 : mr.hdr = h0 := by rw [e1]; exact h.hdr
    dsimp only
    rw [if_pos rfl, e6, e4]
    simp only [Outcome.bind_ok]
    show Outcome.ok _ = _
    rw [e1]
    dsimp only
    rw [← e6, e1]

/-- How a read ends. -/
def ended (last : Bool) : Outcome Unit → Outcome Unit
  | .ok () => if last then .throw .outOfRange else .ok ()
  | o => o

/-- The transforms at the end of a read: the point they see has the header of the reader. -/
theorem finish_ok {h0 : LibLAS.Header} {ts : List Transform} {c : Bool} {r : Reader} (hh : r.hdr = h0) (last : Bool) :
    MReader.finish ⟨r, none, c, ts⟩ last =
      (⟨{ r with point := (transformPoint h0.toP ts ⟨r.point, none⟩).1.data },
        (transformPoint h0.toP ts ⟨r.point, none⟩).1.other, c, ts⟩, ended last (transformPoint h0.toP ts ⟨r.point, none⟩).2) := by
  unfold MReader.finish MReader.transform MReader.hand
  dsimp only
  rw [hh]
  rcases (transformPoint h0.toP ts ⟨r.point, none⟩) with ⟨p, o⟩
  dsimp only
  rcases o with a | e | _
  · cases last <;> rfl
  · rfl
  · rfl

/-- The point after the transforms. -/
theorem hand_ok {b : Build} {ok : List Byte → Prop} {h0 : LibLAS.Header} {ts : List Transform} {c : Bool} {d : List Byte}
    {fl : Bool} (hr : Returns b h0.toP h0.dataRecordLength fl ok ts) (ha : Announced h0.toP ok ts) (hc : (∃ t ∈ ts, t.modifies = true) → c = true)
    (hd : ok d) :
    ((transformPoint h0.toP ts ⟨d, none⟩).1.other = none ∧ (transformPoint h0.toP ts ⟨d, none⟩).1.data.length = h0.dataRecordLength) ∨
    ∃ h, (transformPoint h0.toP ts ⟨d, none⟩).1.other = some h ∧ c = true ∧
      ∃ q, Point.setHeader b ⟨(transformPoint h0.toP ts ⟨d, none⟩).1.data, h⟩ h0.toP = .ok q ∧ q.data.length = h0.dataRecordLength := by
  cases ho : (transformPoint h0.toP ts ⟨d, none⟩).1.other with
  | none => exact .inl ⟨rfl, hr.stay d hd ho⟩
  | some h => exact .inr ⟨h, rfl, hc (ha d hd (by rw [ho]; simp)), hr.back d hd h ho⟩

/-- One read. -/
theorem Beside.next {b : Build} {f : List Byte} {h0 : LibLAS.Header} {fl : Option (List Byte → Bool)} {ts : List Transform}
    {m : MReader} {r : Reader} (h : Beside b f h0 fl ts m r)
    (hin : h0.dataOffset.toNat + h0.pointCount.toNat * h0.dataRecordLength ≤ f.length)
    (hr : Returns b h0.toP h0.dataRecordLength fl.isSome (Candidate h0 fl.isSome f) ts) (ha : Announced h0.toP (Candidate h0 fl.isSome f) ts)
    (hc : (∃ t ∈ ts, t.modifies = true) → m.check = true) :
    (turn b m .next).2 = withTransforms h0.toP ts (report r .next) ∧
    Beside b f h0 fl ts (turn b m .next).1 (readStep r .next) ∧ (turn b m .next).1.check = m.check := by
  have ho := h.on
  have hsz : r.size = h0.pointCount.toNat := ho.size
  have hcur : m.r.current = r.current := by rw [h.same]
  have hstart : m.start = ⟨{ (if r.current = 0 then { r with ifs := r.ifs.clear.seek r.hdr.dataOffset.toNat } else r) with
      point := m.r.point }, m.other, m.check, m.ts⟩ := by
    unfold MReader.start
    rw [hcur]
    split
    · rw [h.same]
    · rw [← h.same]
  by_cases hn : h0.pointCount.toNat ≤ r.current
  · have e1 : m.readNext b = (m.start, .ok false) := by
      unfold MReader.readNext MReader.implReadNext
      have : m.start.r.current = r.current ∧ m.start.r.size = r.size := by
        rw [hstart]; dsimp only; split <;> exact ⟨rfl, rfl⟩
      rw [if_pos (by rw [this.1, this.2, hsz]; exact hn)]
      rfl
    have e2 : r.readNext = ((if r.current = 0 then { r with ifs := r.ifs.clear.seek r.hdr.dataOffset.toNat } else r), .ok false) := by
      unfold Reader.readNext Reader.implReadNext
      have : (if r.current = 0 then { r with ifs := r.ifs.clear.seek r.hdr.dataOffset.toNat } else r).current = r.current ∧
          (if r.current = 0 then { r with ifs := r.ifs.clear.seek r.hdr.dataOffset.toNat } else r).size = r.size := by
        split <;> exact ⟨rfl, rfl⟩
      dsimp only
      rw [if_pos (by rw [this.1, this.2, hsz]; exact hn)]
      rfl
    simp only [turn, report, readStep, e1, e2]
    refine ⟨rfl, ?_, by rw [hstart]⟩
    rw [hstart]
    split
    · exact ⟨rfl, h.trans, h.hdr, h.plain, h.filt,
        ⟨ho.buf, ho.dataOffset, ho.recordSize, ho.recordLength, ho.point, ho.size, ho.count, ho.pos⟩, .inr hn, h.hand⟩
    · exact ⟨rfl, h.trans, h.hdr, h.plain, h.filt, ho, h.placed, h.hand⟩
  · have hk : r.current < h0.pointCount.toNat := by omega
    have hat : r.At h0.dataOffset.toNat h0.dataRecordLength r.current := h.placed.resolve_right hn
    have hle : h0.dataOffset.toNat + r.current * h0.dataRecordLength + h0.dataRecordLength ≤ f.length := by
      have : (r.current + 1) * h0.dataRecordLength ≤ h0.pointCount.toNat * h0.dataRecordLength := Nat.mul_le_mul_right _ (by omega)
      rw [Nat.succ_mul] at this; omega
    have hfirst := Reader.implReadNext_first ho hat hk hle
    have hst := Reader.At.start ho hat
    rw [hst] at hstart
    dsimp only at hstart
    have hB : Beside b f h0 fl ts m.start
        { r with ifs := ⟨f, h0.dataOffset.toNat + r.current * h0.dataRecordLength, false, false⟩ } := by
      rw [hstart]
      exact ⟨rfl, h.trans, h.hdr, h.plain, h.filt,
        ⟨rfl, ho.dataOffset, ho.recordSize, ho.recordLength, ho.point, ho.size, ho.count, ho.pos⟩,
        .inl ⟨rfl, fun _ => ⟨rfl, rfl, rfl⟩⟩, h.hand⟩
    obtain ⟨p, hp, hset⟩ := hB.settle
    have hck : m.start.check = m.check := by rw [hstart]
    rw [hck] at hset
    generalize hr1 : ({ r with ifs := ⟨f, h0.dataOffset.toNat + r.current * h0.dataRecordLength + h0.dataRecordLength, false, false⟩, point := record f h0.dataOffset.toNat h0.dataRecordLength r.current, current := r.current + 1 } : Reader) = r1 at hfirst
    have hrc : Reader.readCounted { r with ifs := ⟨f, h0.dataOffset.toNat + r.current * h0.dataRecordLength, false, false⟩, point := p } = (r1, .ok ()) := by
      rw [Reader.readCounted_full (r := { r with ifs := ⟨f, h0.dataOffset.toNat + r.current * h0.dataRecordLength, false, false⟩, point := p }) (off := h0.dataOffset.toNat) (n := h0.pointCount.toNat)
        ⟨rfl, ho.dataOffset, ho.recordSize, ho.recordLength, hp, ho.size, ho.count, ho.pos⟩ rfl hle, ← hr1]
      rfl
    have e1 : m.implReadNext b = if r1.accepts then MReader.finish ⟨r1, none, m.check, ts⟩ false else MReader.afterReject ⟨r1, none, m.check, ts⟩ := by
      unfold MReader.implReadNext
      rw [if_neg (by rw [hstart]; show ¬ r.current ≥ r.size; omega), hset]
      dsimp only
      unfold MReader.readOn
      dsimp only
      rw [hrc]
    have hpt : r1.point.length = h0.dataRecordLength := by rw [← hr1]; exact slice_length_of_le hle
    have on1 : r1.On f h0.dataOffset.toNat h0.dataRecordLength h0.pointCount.toNat := by
      rw [← hr1]
      exact ⟨rfl, ho.dataOffset, ho.recordSize, ho.recordLength, slice_length_of_le hle, ho.size, ho.count, ho.pos⟩
    have pl1 : Placed r1 f h0.dataOffset.toNat h0.dataRecordLength h0.pointCount.toNat := by
      left
      rw [← hr1]
      refine ⟨rfl, fun _ => ⟨?_, rfl, rfl⟩⟩
      show h0.dataOffset.toNat + r.current * h0.dataRecordLength + h0.dataRecordLength = h0.dataOffset.toNat + (r.current + 1) * h0.dataRecordLength
      rw [Nat.succ_mul]; omega
    have hd1 : r1.hdr = h0 := by rw [← hr1]; exact h.hdr
    have pl : r1.xform = none := by rw [← hr1]; exact h.plain
    have ft : r1.filter = fl := by rw [← hr1]; exact h.filt
    have c1 : 0 < r1.current := by rw [← hr1]; exact Nat.succ_pos _
    have cand1 : Candidate h0 fl.isSome f r1.point :=
      ⟨hpt, fun _ => ⟨r.current, hk, by rw [← hr1]⟩⟩
    -- what remains of a read, for both readers
    have step : ∀ (r' : Reader) (last : Bool), r'.On f h0.dataOffset.toNat h0.dataRecordLength h0.pointCount.toNat →
        Placed r' f h0.dataOffset.toNat h0.dataRecordLength h0.pointCount.toNat → r'.hdr = h0 → r'.xform = none → r'.filter = fl →
        Candidate h0 fl.isSome f r'.point → (last = true → fl.isSome = true) → m.implReadNext b = MReader.finish ⟨r', none, m.check, ts⟩ last →
        r.implReadNext = (r'.transform, if last then .throw .outOfRange else .ok ()) →
        (turn b m .next).2 = withTransforms h0.toP ts (report r .next) ∧
        Beside b f h0 fl ts (turn b m .next).1 (readStep r .next) ∧ (turn b m .next).1.check = m.check := by
      intro r' last g1 g2 g3 g4 g5 g6 g0 g7 g8
      have htr : r'.transform = r' := by unfold Reader.transform; rw [g4]
      rw [htr] at g8
      rw [finish_ok g3] at g7
      have hh := hand_ok (c := m.check) hr ha hc g6
      cases last with
      | false =>
        have k2 : r.readNext = (r', .ok true) := by unfold Reader.readNext; rw [g8]; rfl
        have k1 : m.readNext b = MReader.catchRange (⟨{ r' with point := (transformPoint h0.toP ts ⟨r'.point, none⟩).1.data },
          (transformPoint h0.toP ts ⟨r'.point, none⟩).1.other, m.check, ts⟩,
          ended false (transformPoint h0.toP ts ⟨r'.point, none⟩).2) := by
          unfold MReader.readNext; rw [g7]
        revert hh k1
        rcases ho : (transformPoint h0.toP ts ⟨r'.point, none⟩) with ⟨q, o⟩
        intro hh k1
        simp only [turn, report, readStep, k1, k2, if_pos, withTransforms]
        rw [ho]
        rcases o with a | e | _
        · exact ⟨rfl, ⟨rfl, rfl, g3, g4, g5, g1, g2, hh⟩, rfl⟩
        · cases e <;> exact ⟨rfl, ⟨rfl, rfl, g3, g4, g5, g1, g2, hh⟩, rfl⟩
        · exact ⟨rfl, ⟨rfl, rfl, g3, g4, g5, g1, g2, hh⟩, rfl⟩
      | true =>
        have k1 : m.readNext b = (⟨{ r' with point := (transformPoint h0.toP ts ⟨r'.point, none⟩).1.data },
          (transformPoint h0.toP ts ⟨r'.point, none⟩).1.other, m.check, ts⟩, .ok false) := by
          unfold MReader.readNext; rw [g7, hr.succeed (g0 rfl) _ g6]; rfl
        have k2 : r.readNext = (r', .ok false) := by unfold Reader.readNext; rw [g8]; rfl
        simp only [turn, report, readStep, k1, k2, withTransforms]
        exact ⟨rfl, ⟨rfl, rfl, g3, g4, g5, g1, g2, hh⟩, trivial⟩
    -- a read that fails
    have fail : ∀ (r' : Reader) (o : Outcome Unit), r'.On f h0.dataOffset.toNat h0.dataRecordLength h0.pointCount.toNat →
        Placed r' f h0.dataOffset.toNat h0.dataRecordLength h0.pointCount.toNat → r'.hdr = h0 → r'.xform = none → r'.filter = fl →
        o ≠ .ok () → m.implReadNext b = (⟨r', none, m.check, ts⟩, o) → r.implReadNext = (r', o) →
        (turn b m .next).2 = withTransforms h0.toP ts (report r .next) ∧
        Beside b f h0 fl ts (turn b m .next).1 (readStep r .next) ∧ (turn b m .next).1.check = m.check := by
      intro r' o g1 g2 g3 g4 g5 g6 g7 g8
      have k1 : (m.readNext b).1 = ⟨r', none, m.check, ts⟩ ∧ (m.readNext b).2 = r.readNext.2 ∧ r.readNext.1 = r' ∧
          r.readNext.2 ≠ .ok true := by
        unfold MReader.readNext Reader.readNext
        rw [g7, g8]
        rcases o with a | e | _
        · exact absurd rfl g6
        · cases e <;> exact ⟨rfl, rfl, rfl, by intro hh; cases hh⟩
        · exact ⟨rfl, rfl, rfl, by intro hh; cases hh⟩
      obtain ⟨k1, k2, k3, k4⟩ := k1
      simp only [turn, report, readStep, k1, k2, k3, if_neg k4]
      exact ⟨rfl, ⟨rfl, rfl, g3, g4, g5, g1, g2, .inl ⟨rfl, g1.point⟩⟩, trivial⟩
    by_cases hacc : r1.accepts = true
    · rw [if_pos hacc] at e1
      refine step r1 false on1 pl1 hd1 pl ft cand1 (by intro hh; cases hh) e1 ?_
      rw [hfirst]
      unfold Reader.afterFirst
      rw [if_pos hacc]
      rfl
    · rw [if_neg hacc] at e1
      have hplain : r.implReadNext = r1.afterReject := by
        rw [hfirst]; unfold Reader.afterFirst; rw [if_neg hacc]
      have hsome : fl.isSome = true := by
        unfold Reader.accepts at hacc
        rw [ft] at hacc
        cases fl with
        | none => exact absurd rfl hacc
        | some g => rfl
      have i2 := Reader.readCounted_inv on1.point
      have on2 := i2.on on1
      have pl2 := readCounted_placed hin on1 c1 pl1
      rcases hr2 : r1.readCounted with ⟨r2, o2⟩
      rw [hr2] at i2 on2 pl2
      dsimp only at i2 on2 pl2
      have h2 : r2.hdr = h0 ∧ r2.xform = none ∧ r2.filter = fl :=
        ⟨i2.1.hdr.trans hd1, i2.1.xform.trans pl, i2.1.filter.trans ft⟩
      unfold MReader.afterReject at e1
      unfold Reader.afterReject at hplain
      dsimp only at e1
      rw [hr2] at e1 hplain
      rcases o2 with a | e | _
      · dsimp only at e1 hplain
        have i3 := Reader.skipLoop_inv (r2.ifs.buf.length + 3) r2 on2.point
        have on3 := i3.on on2
        have pl3 := skipLoop_placed hin (r2.ifs.buf.length + 3) on2 pl2.2 pl2.1
        rcases hr3 : r2.skip with ⟨r3, o3⟩
        have hr3' : skipLoop (r2.ifs.buf.length + 3) r2 = (r3, o3) := hr3
        rw [hr3'] at i3 on3 pl3
        dsimp only at i3 on3 pl3
        rw [hr3] at e1 hplain
        have h3 : r3.hdr = h0 ∧ r3.xform = none ∧ r3.filter = fl :=
          ⟨i3.1.hdr.trans h2.1, i3.1.xform.trans h2.2.1, i3.1.filter.trans h2.2.2⟩
        rcases o3 with last | e | _
        · refine step r3 last on3 pl3 h3.1 h3.2.1 h3.2.2 ⟨on3.point, fun hh => ?_⟩ (fun _ => hsome) e1 ?_
          · rw [hsome] at hh; cases hh
          · rw [hplain]
            cases last <;> rfl
        · exact fail r3 (.throw e) on3 pl3 h3.1 h3.2.1 h3.2.2 (by simp) e1 hplain
        · exact fail r3 .ub on3 pl3 h3.1 h3.2.1 h3.2.2 (by simp) e1 hplain
      · exact fail r2 (.throw e) on2 pl2.1 h2.1 h2.2.1 h2.2.2 (by simp) e1 hplain
      · exact fail r2 .ub on2 pl2.1 h2.1 h2.2.1 h2.2.2 (by simp) e1 hplain

/-- A seek. -/
theorem Beside.seek {b : Build} {f : List Byte} {h0 : LibLAS.Header} {fl : Option (List Byte → Bool)} {ts : List Transform}
    {m : MReader} {r : Reader} (h : Beside b f h0 fl ts m r) (n : Nat) :
    (turn b m (.seek n)).2 = withTransforms h0.toP ts (report r (.seek n)) ∧
    Beside b f h0 fl ts (turn b m (.seek n)).1 (readStep r (.seek n)) ∧ (turn b m (.seek n)).1.check = m.check := by
  have ho := h.on
  have key : ∀ p : List Byte, Reader.seek { r with point := p } n = ({ (r.seek n).1 with point := p }, (r.seek n).2) := by
    intro p
    unfold Reader.seek Reader.implSeek
    dsimp only
    by_cases h1 : r.size = n
    · rw [if_pos h1, if_pos h1]; rfl
    rw [if_neg h1, if_neg h1]
    by_cases h2 : r.size < n
    · rw [if_pos h2, if_pos h2]; rfl
    rw [if_neg h2, if_neg h2]; rfl
  have hm : m.r.seek n = ({ (r.seek n).1 with point := m.r.point }, (r.seek n).2) := by
    rw [h.same]; exact key _
  have hs := Reader.implSeek_inv (n := n) ho.point
  have hfst : (r.seek n).1 = (r.implSeek n).1 := by unfold Reader.seek; rw [catchRange_fst]
  rw [← hfst] at hs
  have hpl : Placed (r.seek n).1 f h0.dataOffset.toNat h0.dataRecordLength h0.pointCount.toNat := by
    by_cases hn : n < h0.pointCount.toNat
    · rw [Reader.seek_hit ho hn]
      exact .inl ⟨rfl, fun _ => ⟨rfl, rfl, rfl⟩⟩
    · rw [hfst]
      unfold Reader.implSeek
      by_cases h1 : r.size = n
      · rw [if_pos h1]; exact h.placed
      rw [if_neg h1, if_pos (by rw [ho.size] at h1 ⊢; omega)]
      exact h.placed
  simp only [turn, report, readStep, MReader.seek, hm]
  exact ⟨rfl, ⟨rfl, h.trans, hs.1.hdr.trans h.hdr, hs.1.xform.trans h.plain, hs.1.filter.trans h.filt, hs.on ho, hpl, h.hand⟩, trivial⟩

/-- A history. -/
theorem Beside.run {b : Build} {f : List Byte} {h0 : LibLAS.Header} {fl : Option (List Byte → Bool)} {ts : List Transform}
    (hin : h0.dataOffset.toNat + h0.pointCount.toNat * h0.dataRecordLength ≤ f.length)
    (hr : Returns b h0.toP h0.dataRecordLength fl.isSome (Candidate h0 fl.isSome f) ts)
    (ha : Announced h0.toP (Candidate h0 fl.isSome f) ts) (cs : List Turn) : ∀ {m : MReader} {r : Reader},
    Beside b f h0 fl ts m r → ((∃ t ∈ ts, t.modifies = true) → m.check = true) →
    turns b m cs = (reports r (cs.map Turn.plain)).map (withTransforms h0.toP ts) ∧
    Beside b f h0 fl ts (after b m cs) (readRun r (cs.map Turn.plain)) ∧ (after b m cs).check = m.check := by
  induction cs with
  | nil => intro m r h _; exact ⟨rfl, h, rfl⟩
  | cons c cs ih =>
    intro m r h hc
    have key : (turn b m c).2 = withTransforms h0.toP ts (report r c.plain) ∧
        Beside b f h0 fl ts (turn b m c).1 (readStep r c.plain) ∧ (turn b m c).1.check = m.check := by
      cases c with
      | next => exact h.next hin hr ha hc
      | seek n => exact h.seek n
    obtain ⟨k1, k2, k3⟩ := key
    obtain ⟨i1, i2, i3⟩ := ih k2 (by rw [k3]; exact hc)
    refine ⟨?_, i2, i3.trans k3⟩
    rw [turns, List.map_cons, reports, List.map_cons, k1, i1]

/-- Access by number. -/
theorem Beside.at {b : Build} {f : List Byte} {h0 : LibLAS.Header} {fl : Option (List Byte → Bool)} {ts : List Transform}
    {m : MReader} {r : Reader} (h : Beside b f h0 fl ts m r)
    (hin : h0.dataOffset.toNat + h0.pointCount.toNat * h0.dataRecordLength ≤ f.length) {i : Nat} (hi : i < h0.pointCount.toNat) :
    ∃ m', m.readAt b i = MReader.catchRange (m', (transformPoint h0.toP ts ⟨record f h0.dataOffset.toNat h0.dataRecordLength i, none⟩).2) ∧
      m'.hand = (transformPoint h0.toP ts ⟨record f h0.dataOffset.toNat h0.dataRecordLength i, none⟩).1 := by
  have ho := h.on
  have hle : h0.dataOffset.toNat + i * h0.dataRecordLength + h0.dataRecordLength ≤ f.length := by
    have : (i + 1) * h0.dataRecordLength ≤ h0.pointCount.toNat * h0.dataRecordLength := Nat.mul_le_mul_right _ (by omega)
    rw [Nat.succ_mul] at this; omega
  have hmh : m.r.hdr = h0 := by rw [h.same]; exact h.hdr
  have hms : m.r.size = h0.pointCount.toNat := by rw [h.same]; exact ho.size
  unfold MReader.readAt
  rw [if_neg (by rw [hmh]; omega)]
  unfold MReader.implReadAt
  rw [if_neg (by omega), if_neg (by omega)]
  dsimp only
  have hifs : m.r.ifs.clear.seek (i * m.r.hdr.dataRecordLength + m.r.hdr.dataOffset.toNat) =
      ⟨f, h0.dataOffset.toNat + i * h0.dataRecordLength, false, false⟩ := by
    rw [IStream.clear_seek, hmh, Nat.add_comm]
    have : m.r.ifs.buf = f := by rw [h.same]; exact ho.buf
    rw [this]
  have hB : Beside b f h0 fl ts { m with r := { m.r with ifs := m.r.ifs.clear.seek (i * m.r.hdr.dataRecordLength + m.r.hdr.dataOffset.toNat), current := i } }
      { r with ifs := ⟨f, h0.dataOffset.toNat + i * h0.dataRecordLength, false, false⟩, current := i } := by
    refine ⟨?_, h.trans, h.hdr, h.plain, h.filt, ⟨rfl, ho.dataOffset, ho.recordSize, ho.recordLength, ho.point, ho.size, ho.count, ho.pos⟩,
      .inl ⟨rfl, fun _ => ⟨rfl, rfl, rfl⟩⟩, h.hand⟩
    dsimp only
    rw [hifs, h.same]
  obtain ⟨p, hp, hset⟩ := hB.settle
  have hset' : MReader.settle b { m with r := { m.r with ifs := m.r.ifs.clear.seek (i * m.r.hdr.dataRecordLength + m.r.hdr.dataOffset.toNat) } } =
      .ok ⟨{ r with ifs := ⟨f, h0.dataOffset.toNat + i * h0.dataRecordLength, false, false⟩, point := p }, none, m.check, ts⟩ := by
    unfold MReader.settle at hset ⊢
    dsimp only at hset ⊢
    split at hset
    · rename_i hc
      rw [if_pos hc]
      cases hmo : m.other with
      | none =>
        rw [hmo] at hset
        dsimp only at hset ⊢
        injection hset with hset
        injection hset with a1 a2 a3 a4
        injection a1 with b1 b2 b3 b4 b5 b6 b7 b8
        rw [b1, b2, b3, b5, b6, b7, b8, a4]
        congr 2
        rw [h.same]
      | some g =>
        rw [hmo] at hset
        dsimp only at hset ⊢
        obtain ⟨q, q1, q2⟩ := bind_eq_ok hset
        rw [q1]
        simp only [Outcome.bind_ok]
        injection q2 with q2
        injection q2 with a1 a2 a3 a4
        injection a1 with b1 b2 b3 b4 b5 b6 b7 b8
        show Outcome.ok _ = _
        rw [b1, b2, b3, b5, b6, b7, b8, a4]
        congr 2
        rw [h.same]
    · rename_i hc
      rw [if_neg hc]
      injection hset with hset
      injection hset with a1 a2 a3 a4
      injection a1 with b1 b2 b3 b4 b5 b6 b7 b8
      rw [b1, b2, b3, b5, b6, b7, b8, a4, a2]
      congr 2
      rw [h.same]
  rw [hset']
  dsimp only
  unfold MReader.readHere
  dsimp only
  rw [Reader.readRecord_full (r := { r with ifs := ⟨f, h0.dataOffset.toNat + i * h0.dataRecordLength, false, false⟩, point := p }) (off := h0.dataOffset.toNat) (n := h0.pointCount.toNat)
    ⟨rfl, ho.dataOffset, ho.recordSize, ho.recordLength, hp, ho.size, ho.count, ho.pos⟩ rfl hle]
  dsimp only
  rw [finish_ok (h0 := h0) (r := { r with ifs := ⟨f, h0.dataOffset.toNat + i * h0.dataRecordLength + h0.dataRecordLength, false, false⟩, point := slice f (h0.dataOffset.toNat + i * h0.dataRecordLength) h0.dataRecordLength }) h.hdr]
  have hend : ∀ o : Outcome Unit, ended false o = o := by
    intro o; rcases o with a | e | _ <;> rfl
  rw [hend]
  exact ⟨_, rfl, rfl⟩

end LibLAS.Moving
