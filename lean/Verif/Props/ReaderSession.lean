import Verif.Lemmas.ReaderSession
/-
C98: giving an open reader another header.
-/
namespace LibLAS
open Spec HeaderReader Point

private theorem ready_of {env : Env} {b : List Byte} {f : PointFormat} {l : List VLR} {g : Header} {o : OpenReader} {k : Nat}
    (h : o.Kept env b f l g k) :
    o.r.Ready b (got 32 (slice b 96 4)).toNat (got 16 (slice b 105 2)).toNat (got 32 (slice b 107 4)).toNat := by
  have hr := h.reread.ready
  have ho := hr.on
  exact ⟨⟨ho.buf, by rw [h.agree.offset]; exact ho.dataOffset, ho.recordSize, by rw [h.agree.length]; exact ho.recordLength,
    ho.point, ho.size, by rw [h.agree.count]; exact ho.count, ho.pos⟩, hr.keeps⟩

/-- C98: a header given to a reader just opened that says the same about where the points are (whatever its scale, version,
records or reference) is accepted, is the header the caller sees from then on, and every sequence of calls gives the records it
gives without it. -/
theorem given_header_points {env : Env} {today : BitVec 16 × BitVec 16} {b : List Byte} {r₀ : Reader} (bld : Build)
    (hb : 227 ≤ b.length) (hr : Reader.make env today (IStream.onFile b) = .ok r₀) (hv : NoSchema env r₀.hdr.vlrs)
    (hl : 0 < r₀.hdr.dataRecordLength)
    (hin : r₀.hdr.dataOffset.toNat + r₀.hdr.pointCount.toNat * r₀.hdr.dataRecordLength ≤ b.length)
    {h : Header} (hh : SamePointPlace r₀.hdr h) :
    ∃ o, OpenReader.setHeader bld (.opened r₀) h = .ok o ∧ o.r.hdr = h ∧
      ∀ ops : List ReadOp, (∀ c ∈ ops, c.Benign) → reports o.r ops = reports r₀ ops := by
  obtain ⟨f, hB, hJ⟩ := OpenReader.opened_kept hb hr hv hl
  have hop := open_file hb hr hv
  have hz : byteSum r₀.point = 0 := by
    rw [← blank_iff]
    intro x hx
    rw [hop.point] at hx
    exact (List.mem_replicate.1 hx).2
  have e : OpenReader.setHeader bld (.opened r₀) h =
      .ok ⟨{ r₀ with hdr := h, point := List.replicate h.dataRecordLength 0#8 }, r₀.hdr, true⟩ := by
    unfold OpenReader.setHeader OpenReader.movePoint OpenReader.opened
    rw [if_neg (by simp)]
    dsimp only
    unfold Point.setHeader
    rw [if_pos hz]
    rfl
  refine ⟨_, e, rfl, fun ops hops => ?_⟩
  have hready := ready_of hJ
  have hin' : (got 32 (slice b 96 4)).toNat + (got 32 (slice b 107 4)).toNat * (got 16 (slice b 105 2)).toNat ≤ b.length := by
    rw [← hop.dataOffset, ← hop.pointCount, ← hop.recordLength]; exact hin
  refine reports_point (h := h) hin' ops hready hh.agree (k := 0) ⟨hop.current, fun h => absurd rfl h⟩ ?_ hops
  rw [List.length_replicate, hh.length, hop.recordLength]

/-- C98, in the course of reading: after any history in which headers for the same place were given, such a header (if the
point in hand can be expressed with it) changes nothing in what is read after a seek. -/
theorem given_header_later {env : Env} {today : BitVec 16 × BitVec 16} {b : List Byte} {r₀ : Reader} (bld : Build)
    (hb : 227 ≤ b.length) (hr : Reader.make env today (IStream.onFile b) = .ok r₀) (hv : NoSchema env r₀.hdr.vlrs)
    (hl : 0 < r₀.hdr.dataRecordLength) (hfin : FiniteScaling r₀.hdr)
    (hin : r₀.hdr.dataOffset.toNat + r₀.hdr.pointCount.toNat * r₀.hdr.dataRecordLength ≤ b.length)
    (cs : List HeaderCall) (hcs : ∀ c ∈ cs, c.Benign r₀.hdr) {o o' : OpenReader}
    (ho : headerRun env bld (.opened r₀) cs = .ok o) {h : Header} (hh : SamePointPlace r₀.hdr h) (e : o.setHeader bld h = .ok o')
    {i : Nat} (hi : i < r₀.hdr.pointCount.toNat) (ops : List ReadOp) (hops : ∀ c ∈ ops, c.Benign) :
    o'.r.hdr = h ∧ reports o'.r (.seek i :: ops) = reports o.r (.seek i :: ops) := by
  obtain ⟨f, hB, hJ⟩ := OpenReader.opened_kept hb hr hv hl
  have hop := open_file hb hr hv
  obtain ⟨k, hk⟩ := headerRun_kept bld hB cs hJ hfin.same hcs ho
  obtain ⟨hk', e2, e3, -⟩ := hk.setHeader bld hh e
  refine ⟨by rw [e2], ?_⟩
  have hrd := ready_of hk
  have hrd' := ready_of hk'
  have hi' : i < (got 32 (slice b 107 4)).toNat := by rw [← hop.pointCount]; exact hi
  have hin' : (got 32 (slice b 96 4)).toNat + (got 32 (slice b 107 4)).toNat * (got 16 (slice b 105 2)).toNat ≤ b.length := by
    rw [← hop.dataOffset, ← hop.pointCount, ← hop.recordLength]; exact hin
  have s1 := Reader.seek_hit hrd.on hi'
  have s2 := Reader.seek_hit hrd'.on hi'
  show ((o'.r.seek i).2, none) :: reports (o'.r.seek i).1 ops = ((o.r.seek i).2, none) :: reports (o.r.seek i).1 ops
  rw [s1, s2]
  dsimp only
  congr 1
  have hon := hrd.on
  have := reports_point (h := h) hin' ops
    (r := { o.r with ifs := ⟨b, (got 32 (slice b 96 4)).toNat + i * (got 16 (slice b 105 2)).toNat, false, false⟩, current := i })
    (k := i) (p := o'.r.point)
    ⟨⟨rfl, hon.dataOffset, hon.recordSize, hon.recordLength, hon.point, hon.size, hon.count, hon.pos⟩, hrd.keeps⟩
    ((hk.agree.symm'.trans' hk.place.symm').trans' hh.agree) ⟨rfl, fun _ => ⟨rfl, rfl, rfl⟩⟩ (by rw [e3]; exact hon.point) hops
  rw [← this]
  congr 1
  rw [e2]

/-- C98 (a part that fails what callers expect): after any history in which a header was given since the file was opened or
reset, if the point in hand has a byte that is not zero, giving another header and resetting the reader are undefined: the
point's header is read after it was destroyed. -/
theorem header_change_undefined {env : Env} {today : BitVec 16 × BitVec 16} {b : List Byte} {r₀ : Reader} (bld : Build)
    (hb : 227 ≤ b.length) (hr : Reader.make env today (IStream.onFile b) = .ok r₀) (hv : NoSchema env r₀.hdr.vlrs)
    (hl : 0 < r₀.hdr.dataRecordLength) (hfin : FiniteScaling r₀.hdr)
    (cs : List HeaderCall) (hcs : ∀ c ∈ cs, c.Benign r₀.hdr) {o : OpenReader}
    (ho : headerRun env bld (.opened r₀) cs = .ok o) (hg : o.given = true) (hne : ¬Blank o.r) :
    (∀ h, o.setHeader bld h = .ub) ∧ o.reset env bld = .ub := by
  obtain ⟨f, hB, hJ⟩ := OpenReader.opened_kept hb hr hv hl
  obtain ⟨k, hk⟩ := headerRun_kept bld hB cs hJ hfin.same hcs ho
  refine ⟨fun h => ?_, (hk.reset bld hB (hJ.scaling hk hfin.same)).1 hg hne⟩
  unfold OpenReader.setHeader OpenReader.movePoint
  rw [if_pos ⟨hg, fun hh => hne ((blank_iff _).2 hh)⟩]
  rfl

/-- Such a history exists for every file whose first point has a byte that is not zero: a header, one point. -/
theorem header_then_reset_undefined {env : Env} {today : BitVec 16 × BitVec 16} {b : List Byte} {r₀ : Reader} (bld : Build)
    (hb : 227 ≤ b.length) (hr : Reader.make env today (IStream.onFile b) = .ok r₀) (hv : NoSchema env r₀.hdr.vlrs)
    (hl : 0 < r₀.hdr.dataRecordLength) (hfin : FiniteScaling r₀.hdr)
    (hin : r₀.hdr.dataOffset.toNat + r₀.hdr.pointCount.toNat * r₀.hdr.dataRecordLength ≤ b.length)
    (hn : 0 < r₀.hdr.pointCount.toNat)
    (hp : ∃ x ∈ record b r₀.hdr.dataOffset.toNat r₀.hdr.dataRecordLength 0, x ≠ 0#8)
    {h : Header} (hh : SamePointPlace r₀.hdr h) (g : Header) :
    headerRun env bld (.opened r₀) [.setHeader h, .op .next, .reset] = .ub ∧
    headerRun env bld (.opened r₀) [.setHeader h, .op .next, .setHeader g] = .ub := by
  obtain ⟨o, e1, e2, e3⟩ := given_header_points bld hb hr hv hl hin hh
  have hop := open_file hb hr hv
  obtain ⟨o1, o2, o3⟩ := hop.on hl
  have hnext := Reader.readNext_hit o1 o2 hn (by
    have : 1 * r₀.hdr.dataRecordLength ≤ r₀.hdr.pointCount.toNat * r₀.hdr.dataRecordLength := Nat.mul_le_mul_right _ hn
    omega) (by unfold Reader.accepts; rw [hop.filter])
  have hrep := e3 [.next] (by intro c hc; simp at hc; subst hc; trivial)
  simp only [reports, report, List.cons.injEq, and_true, Prod.mk.injEq] at hrep
  rw [hnext] at hrep
  simp only [if_pos] at hrep
  have hpt : o.r.readNext.1.point = record b r₀.hdr.dataOffset.toNat r₀.hdr.dataRecordLength 0 := by
    have h1 := hrep.1
    have h2 := hrep.2
    rw [if_pos h1] at h2
    injection h2 with h2
    rw [h2]
    show r₀.xf _ = _
    unfold Reader.xf
    rw [hop.xform]
  have hrun : headerRun env bld (.opened r₀) [.setHeader h, .op .next] = .ok { o with r := o.r.readNext.1 } := by
    show (match OpenReader.setHeader bld (.opened r₀) h with | .ok o => _ | .throw e => _ | .ub => _) = _
    rw [e1]
    rfl
  have hg : o.given = true := by
    unfold OpenReader.setHeader at e1
    obtain ⟨_, -, e1⟩ := bind_eq_ok e1
    cases e1
    rfl
  have hund := header_change_undefined bld hb hr hv hl hfin [.setHeader h, .op .next] (by
    intro c hc
    simp only [List.mem_cons, List.not_mem_nil, or_false] at hc
    rcases hc with rfl | rfl
    · exact hh
    · trivial) hrun hg (by
      intro hbl
      obtain ⟨x, hx, hne⟩ := hp
      exact hne (hbl x (by show x ∈ o.r.readNext.1.point; rw [hpt]; exact hx)))
  constructor
  · show (match OpenReader.setHeader bld (.opened r₀) h with | .ok o => _ | .throw e => _ | .ub => _) = _
    rw [e1]
    show (match OpenReader.reset env bld { o with r := o.r.readNext.1 } with | .ok o => _ | .throw e => _ | .ub => _) = _
    rw [hund.2]
  · show (match OpenReader.setHeader bld (.opened r₀) h with | .ok o => _ | .throw e => _ | .ub => _) = _
    rw [e1]
    show (match OpenReader.setHeader bld { o with r := o.r.readNext.1 } g with | .ok o => _ | .throw e => _ | .ub => _) = _
    rw [hund.1 g]

/-- C98: otherwise (no header given since, or the point in hand all zeros) a reset succeeds and undoes the header given: what
points take from the header is that of the file, and every sequence of calls gives what it gives on a reader just opened. -/
theorem reset_undoes_header {env : Env} {today : BitVec 16 × BitVec 16} {b : List Byte} {r₀ : Reader} (bld : Build)
    (hb : 227 ≤ b.length) (hr : Reader.make env today (IStream.onFile b) = .ok r₀) (hv : NoSchema env r₀.hdr.vlrs)
    (hl : 0 < r₀.hdr.dataRecordLength) (hfin : FiniteScaling r₀.hdr)
    (hin : r₀.hdr.dataOffset.toNat + r₀.hdr.pointCount.toNat * r₀.hdr.dataRecordLength ≤ b.length)
    (cs : List HeaderCall) (hcs : ∀ c ∈ cs, c.Benign r₀.hdr) {o : OpenReader}
    (ho : headerRun env bld (.opened r₀) cs = .ok o) (hz : o.given = true → Blank o.r) :
    ∃ o', o.reset env bld = .ok o' ∧ o'.r.hdr.toP = r₀.hdr.toP ∧
      ∀ ops : List ReadOp, (∀ c ∈ ops, c.Benign) →
        reports o'.r ops = reports { r₀ with filter := o.r.filter, xform := o.r.xform } ops := by
  obtain ⟨f, hB, hJ⟩ := OpenReader.opened_kept hb hr hv hl
  have hop := open_file hb hr hv
  obtain ⟨k, hk⟩ := headerRun_kept bld hB cs hJ hfin.same hcs ho
  obtain ⟨o', e, hk', g1, g2, g3, g4, g5⟩ := (hk.reset bld hB (hJ.scaling hk hfin.same)).2 hz
  have hJ0 : Reread env b f r₀.hdr.vlrs 0 r₀ := hJ.reread
  have hJ2 : Reread env b f r₀.hdr.vlrs (k + 1) o'.r := by
    have := hk'.reread
    rw [← hk'.same g1] at this
    exact this
  refine ⟨o', e, ?_, fun ops hops => ?_⟩
  · have hlen : o'.r.hdr.dataRecordLength = r₀.hdr.dataRecordLength := by
      show o'.r.hdr.schema.dataRecordLength = r₀.hdr.schema.dataRecordLength; rw [hJ2.len, hJ0.len]
    have hsc : o'.r.hdr.scale = r₀.hdr.scale ∧ o'.r.hdr.offset = r₀.hdr.offset := by
      rw [hJ2.hdr, hJ0.hdr]; exact ⟨rfl, rfl⟩
    unfold Header.toP
    rw [hlen, hJ2.fmt, hJ0.fmt, hJ2.named.1, hJ2.named.2, hJ0.named.1, hJ0.named.2, hsc.1, hsc.2]
  · have ho0 := hJ0.ready.on
    have hr0 : Reader.Ready { r₀ with filter := o'.r.filter, xform := o'.r.xform } b _ _ _ :=
      ⟨⟨ho0.buf, ho0.dataOffset, ho0.recordSize, ho0.recordLength, ho0.point, ho0.size, ho0.count, ho0.pos⟩, hJ2.ready.keeps⟩
    have hin' : (got 32 (slice b 96 4)).toNat + (got 32 (slice b 107 4)).toNat * (got 16 (slice b 105 2)).toNat ≤ b.length := by
      rw [← hop.dataOffset, ← hop.pointCount, ← hop.recordLength]; exact hin
    have hag : HAgree r₀.hdr o'.r.hdr := by
      have := hk'.place.trans' hk'.agree
      exact this
    have := reports_point (h := o'.r.hdr) hin' ops (r := { r₀ with filter := o'.r.filter, xform := o'.r.xform }) (k := 0)
      (p := o'.r.point) hr0 hag ⟨hop.current, fun h => absurd rfl h⟩ hJ2.ready.on.point hops
    rw [← g4, ← g5, ← this]
    congr 1
    have e : o'.r = ⟨o'.r.ifs, o'.r.hdr, o'.r.size, o'.r.current, o'.r.recordSize, o'.r.point, o'.r.filter, o'.r.xform⟩ := rfl
    rw [e]
    congr 1
    · rw [g2, hop.ifs]
    · rw [hJ2.ready.on.size]; exact ho0.size.symm
    · rw [g3]; exact hop.current.symm
    · rw [hJ2.ready.on.recordSize]; exact ho0.recordSize.symm

/-- A header given to a reader just opened is accepted whatever it is; the point takes its length. -/
private theorem setHeader_opened {env : Env} {today : BitVec 16 × BitVec 16} {b : List Byte} {r₀ : Reader} (bld : Build)
    (hb : 227 ≤ b.length) (hr : Reader.make env today (IStream.onFile b) = .ok r₀) (hv : NoSchema env r₀.hdr.vlrs) (h : Header) :
    OpenReader.setHeader bld (.opened r₀) h =
      .ok ⟨{ r₀ with hdr := h, point := List.replicate h.dataRecordLength 0#8 }, r₀.hdr, true⟩ := by
  have hop := open_file hb hr hv
  have hz : byteSum r₀.point = 0 := by
    rw [← blank_iff]
    intro x hx
    rw [hop.point] at hx
    exact (List.mem_replicate.1 hx).2
  unfold OpenReader.setHeader OpenReader.movePoint OpenReader.opened
  rw [if_neg (by simp)]
  dsimp only
  unfold Point.setHeader
  rw [if_pos hz]
  rfl

/-- C98: the number of points a given header states bounds only access by number: reading from the start, seeking, filters and
transforms give what they give without it, however few or many points it states. -/
theorem given_count_sequential {env : Env} {today : BitVec 16 × BitVec 16} {b : List Byte} {r₀ : Reader} (bld : Build)
    (hb : 227 ≤ b.length) (hr : Reader.make env today (IStream.onFile b) = .ok r₀) (hv : NoSchema env r₀.hdr.vlrs)
    (hl : 0 < r₀.hdr.dataRecordLength) {h : Header} (ho : h.dataOffset = r₀.hdr.dataOffset)
    (hlen : h.dataRecordLength = r₀.hdr.dataRecordLength) :
    ∃ o, OpenReader.setHeader bld (.opened r₀) h = .ok o ∧ o.r.hdr = h ∧
      ∀ ops : List ReadOp, (∀ c ∈ ops, c.Benign) → (∀ n, ReadOp.at n ∉ ops) → reports o.r ops = reports r₀ ops := by
  obtain ⟨f, hB, hJ⟩ := OpenReader.opened_kept hb hr hv hl
  have hop := open_file hb hr hv
  refine ⟨_, setHeader_opened bld hb hr hv h, rfl, fun ops hops hat => ?_⟩
  have e : ({ r₀ with hdr := h, point := List.replicate h.dataRecordLength 0#8 } : Reader) = { r₀ with hdr := h } := by
    rw [hlen, hop.recordLength, ← hop.point]
  show reports { r₀ with hdr := h, point := List.replicate h.dataRecordLength 0#8 } ops = _
  rw [e]
  exact Reader.reports_sequential ops (ready_of hJ) ho hlen hops hat

/-- C98: access by number with a header stating another number of points: the points of the file below both numbers, refusal from
the header's number on, and below that number but past the end of the file `false` for the first and an error for the others. -/
theorem given_count_random {env : Env} {today : BitVec 16 × BitVec 16} {b : List Byte} {r₀ : Reader} (bld : Build)
    (hb : 227 ≤ b.length) (hr : Reader.make env today (IStream.onFile b) = .ok r₀) (hv : NoSchema env r₀.hdr.vlrs)
    (hl : 0 < r₀.hdr.dataRecordLength)
    (hin : r₀.hdr.dataOffset.toNat + r₀.hdr.pointCount.toNat * r₀.hdr.dataRecordLength ≤ b.length)
    {h : Header} (ho : h.dataOffset = r₀.hdr.dataOffset) (hlen : h.dataRecordLength = r₀.hdr.dataRecordLength) :
    ∃ o, OpenReader.setHeader bld (.opened r₀) h = .ok o ∧ ∀ i : Nat, report o.r (.at i) =
      if h.pointCount.toNat ≤ i then (.throw .outOfRange, none)
      else if i < r₀.hdr.pointCount.toNat then
        (.ok true, some (record b r₀.hdr.dataOffset.toNat r₀.hdr.dataRecordLength i))
      else if i = r₀.hdr.pointCount.toNat then (.ok false, none)
      else (.throw .runtimeError, none) := by
  obtain ⟨f, hB, hJ⟩ := OpenReader.opened_kept hb hr hv hl
  have hop := open_file hb hr hv
  obtain ⟨o1, o2, o3⟩ := hop.on hl
  refine ⟨_, setHeader_opened bld hb hr hv h, fun i => ?_⟩
  have e : ({ r₀ with hdr := h, point := List.replicate h.dataRecordLength 0#8 } : Reader) = { r₀ with hdr := h } := by
    rw [hlen, hop.recordLength, ← hop.point]
  show report { r₀ with hdr := h, point := List.replicate h.dataRecordLength 0#8 } (.at i) = _
  rw [e]
  have hi := Reader.implReadAt_place (r := r₀) ho hlen i
  have hsz := o1.size
  by_cases c1 : h.pointCount.toNat ≤ i
  · rw [if_pos c1]
    simp only [report, Reader.readAt, if_pos c1]
    rfl
  rw [if_neg c1]
  by_cases c2 : i < r₀.hdr.pointCount.toNat
  · rw [if_pos c2]
    have hit := Reader.readAt_hit o1 c2 (by
      have : (i + 1) * r₀.hdr.dataRecordLength ≤ r₀.hdr.pointCount.toNat * r₀.hdr.dataRecordLength := Nat.mul_le_mul_right _ c2
      omega)
    unfold Reader.readAt at hit
    rw [if_neg (by omega)] at hit
    have : Reader.readAt { r₀ with hdr := h } i = Reader.W h (Reader.catchRange (r₀.implReadAt i)) := by
      unfold Reader.readAt
      rw [if_neg c1, hi, Reader.catchRange_W]
    simp only [report]
    rw [this, hit]
    show (Outcome.ok true, _) = _
    simp only [Reader.W, if_pos]
    congr 2
    show r₀.xf _ = _
    unfold Reader.xf
    rw [hop.xform]
  rw [if_neg c2]
  by_cases c3 : i = r₀.hdr.pointCount.toNat
  · rw [if_pos c3]
    have : Reader.readAt { r₀ with hdr := h } i = ({ r₀ with hdr := h }, .ok false) := by
      unfold Reader.readAt Reader.implReadAt
      rw [if_neg c1]
      dsimp only
      rw [if_pos (by rw [hsz, c3])]
      rfl
    simp only [report, this]
    rfl
  · rw [if_neg c3]
    have : Reader.readAt { r₀ with hdr := h } i = ({ r₀ with hdr := h }, .throw .runtimeError) := by
      unfold Reader.readAt Reader.implReadAt
      rw [if_neg c1]
      dsimp only
      rw [if_neg (by omega), if_pos (by omega)]
      rfl
    simp only [report, this]
    rfl

/-- C98 (a part that fails what callers expect): a header with shorter records is accepted, and the next read is undefined: a
record of the file is read into a point too short for it. -/
theorem shorter_header_undefined {env : Env} {today : BitVec 16 × BitVec 16} {b : List Byte} {r₀ : Reader} (bld : Build)
    (hb : 227 ≤ b.length) (hr : Reader.make env today (IStream.onFile b) = .ok r₀) (hv : NoSchema env r₀.hdr.vlrs)
    (hn : 0 < r₀.hdr.pointCount.toNat) {h : Header}
    (hlt : h.dataRecordLength < r₀.hdr.dataRecordLength) :
    ∃ o, OpenReader.setHeader bld (.opened r₀) h = .ok o ∧ o.r.readNext.2 = .ub := by
  have hop := open_file hb hr hv
  obtain ⟨o1, o2, o3⟩ := hop.on (by omega)
  refine ⟨_, setHeader_opened bld hb hr hv h, ?_⟩
  have hub : ∀ r : Reader, r.point.length = h.dataRecordLength → r.recordSize = r₀.hdr.dataRecordLength → r.ifs.fail = false →
      r.readRecord.2 = .ub := by
    intro r p1 p2 p3
    unfold Reader.readRecord
    split
    · rfl
    rw [if_neg (by simp [p3]), if_pos (by omega)]
  unfold Reader.readNext Reader.implReadNext
  dsimp only
  rw [if_pos hop.current]
  dsimp only
  rw [if_neg (by rw [hop.current, o1.size]; omega)]
  unfold Reader.readCounted
  have := hub { r₀ with hdr := h, point := List.replicate h.dataRecordLength 0#8, ifs := r₀.ifs.clear.seek h.dataOffset.toNat }
    (by simp) o1.recordSize rfl
  revert this
  generalize Reader.readRecord { r₀ with hdr := h, point := List.replicate h.dataRecordLength 0#8, ifs := r₀.ifs.clear.seek h.dataOffset.toNat } = x
  rcases x with ⟨r1, o⟩
  intro this
  dsimp only at this
  subst this
  rfl

/-! Examples: a file of five points of 28 bytes, the bytes of point `i` all `i + 1`. -/

/-- The file opened, and a history in which the headers given are those of the file, changed. -/
def openedWith (change : Header → List HeaderCall) : Outcome (Reader × OpenReader) := do
  let r ← Reader.make plainEnv (1, 2000) (IStream.onFile (sampleFile fivePoints))
  let o ← headerRun plainEnv ⟨.little, false⟩ (.opened r) (change r.hdr)
  .ok (r, o)

/-- Another scale (a half for all coordinates). -/
def otherScale (h : Header) : Header := { h with scale := ⟨0x3FE0000000000000#64, 0x3FE0000000000000#64, 0x3FE0000000000000#64⟩ }

/-- Another point format. -/
def withFormat (h : Header) (f : PointFormat) : Header :=
  { h with schema := match Schema.make f with | .ok s => s | _ => h.schema }

/-- The hypotheses of `given_header_points` are met, the scale given differs, and reading is as the theorem says. -/
example : ∃ x, openedWith (fun h => [.setHeader (otherScale h)]) = .ok x ∧ x.2.r.hdr.scale ≠ x.1.hdr.scale ∧
    x.1.hdr.pointCount = 5 ∧ x.2.r.hdr.pointCount = 5 ∧ x.2.r.hdr.dataOffset = x.1.hdr.dataOffset ∧
    x.2.r.hdr.dataRecordLength = 28 ∧ x.1.hdr.dataRecordLength = 28 ∧ x.1.hdr.vlrs.find? VLR.isSchema = none ∧
    x.1.hdr.dataOffset.toNat + 5 * 28 ≤ (sampleFile fivePoints).length ∧
    reports x.2.r [.next, .at 3] = [(.ok true, some (List.replicate 28 1#8)), (.ok true, some (List.replicate 28 4#8))] :=
  Outcome.exists_of_check (by decide +kernel)

/-- The same for `given_header_later`: the header comes after a point was read; the point in hand is changed to it, later ones
are those of the file. -/
example : ∃ x, openedWith (fun h => [.op .next, .setHeader (otherScale h)]) = .ok x ∧
    x.2.r.point ≠ List.replicate 28 1#8 ∧ x.2.r.point.length = 28 ∧
    reports x.2.r [.seek 0, .next] = [(.ok true, none), (.ok true, some (List.replicate 28 1#8))] :=
  Outcome.exists_of_check (by decide +kernel)

/-- The hypotheses of `header_change_undefined` are met by a header and a read, those of `reset_undoes_header` by a header
alone. -/
example : ∃ x, openedWith (fun h => [.setHeader (otherScale h), .op .next]) = .ok x ∧ x.2.given = true ∧
    (x.2.r.point.all fun y => y = 0#8) = false :=
  Outcome.exists_of_check (by decide +kernel)

example : ∃ x, openedWith (fun h => [.setHeader (otherScale h), .reset, .op .next]) = .ok x ∧ x.2.given = false ∧
    x.2.r.hdr.scale = x.1.hdr.scale ∧ x.2.r.point = List.replicate 28 1#8 :=
  Outcome.exists_of_check (by decide +kernel)

/-- The hypotheses of `given_count_sequential` and `given_count_random`, with a header that states two points. -/
example : ∃ x, openedWith (fun h => [.setHeader { h with pointCount := 2 }]) = .ok x ∧
    reports x.2.r [.at 1, .at 2, .next, .next, .next] =
      [(.ok true, some (List.replicate 28 2#8)), (.throw .outOfRange, none), (.ok true, some (List.replicate 28 1#8)),
       (.ok true, some (List.replicate 28 2#8)), (.ok true, some (List.replicate 28 3#8))] :=
  Outcome.exists_of_check (by decide +kernel)

/-- The hypotheses of `shorter_header_undefined`: the header of format 0 (20 bytes) for this file. -/
example : ∃ r, Reader.make plainEnv (1, 2000) (IStream.onFile (sampleFile fivePoints)) = .ok r ∧ 0 < r.hdr.pointCount.toNat ∧
    (withFormat r.hdr .f0).dataRecordLength < r.hdr.dataRecordLength :=
  Outcome.exists_of_check (by decide +kernel)

/-- C98 refuted for headers with longer records (format 3, 34 bytes): reading in order still gives the points of the file
(followed by six zeros), access by number reads from the wrong place. -/
theorem longer_header_misreads : ∃ x, openedWith (fun h => [.setHeader (withFormat h .f3)]) = .ok x ∧
    x.2.r.hdr.dataRecordLength = 34 ∧
    reports x.2.r [.next, .next] = [(.ok true, some (List.replicate 28 1#8 ++ List.replicate 6 0#8)),
      (.ok true, some (List.replicate 28 2#8 ++ List.replicate 6 0#8))] ∧
    reports x.2.r [.at 1] = [(.ok true, some (List.replicate 22 2#8 ++ List.replicate 6 3#8 ++ List.replicate 6 0#8))] :=
  Outcome.exists_of_check (by decide +kernel)

end LibLAS
