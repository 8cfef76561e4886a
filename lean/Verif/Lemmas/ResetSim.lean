import Verif.Spec.Reset
import Verif.Lemmas.ReadOps
namespace LibLAS
open Spec

/-- Two headers that agree on what reading uses. -/
structure HAgree (h h' : Header) : Prop where
  count : h'.pointCount = h.pointCount
  offset : h'.dataOffset = h.dataOffset
  length : h'.dataRecordLength = h.dataRecordLength

namespace Reader

/-- The result with another header. -/
def W {α : Type} (h : Header) (x : Reader × Outcome α) : Reader × Outcome α := ({ x.1 with hdr := h }, x.2)

theorem readRecord_W (h : Header) (r : Reader) : readRecord { r with hdr := h } = W h r.readRecord := by
  unfold readRecord
  dsimp only
  by_cases h1 : r.point = []
  · rw [if_pos h1, if_pos h1]; rfl
  rw [if_neg h1, if_neg h1]
  by_cases h2 : r.ifs.fail = true
  · rw [if_pos h2, if_pos h2]; rfl
  rw [if_neg h2, if_neg h2]
  by_cases h3 : r.point.length < r.recordSize
  · rw [if_pos h3, if_pos h3]; rfl
  rw [if_neg h3, if_neg h3]; rfl

theorem readCounted_W (h : Header) (r : Reader) : readCounted { r with hdr := h } = W h r.readCounted := by
  unfold readCounted
  rw [readRecord_W]
  rcases r.readRecord with ⟨r1, o⟩
  rcases o with a | e | _
  · rfl
  · cases e <;> rfl
  · rfl

theorem skipLoop_W (h : Header) (n : Nat) : ∀ r : Reader, skipLoop n { r with hdr := h } = W h (skipLoop n r) := by
  induction n with
  | zero => intro r; rfl
  | succ n ih =>
    intro r
    unfold skipLoop
    have ea : accepts { r with hdr := h } = accepts r := rfl
    rw [ea, readCounted_W]
    by_cases h1 : r.accepts = true
    · rw [if_pos h1, if_pos h1]; rfl
    rw [if_neg h1, if_neg h1]
    rcases r.readCounted with ⟨r1, o⟩
    rcases o with a | e | _
    · show (if r1.current = r1.size then (({ r1 with hdr := h } : Reader), Outcome.ok true) else skipLoop n { r1 with hdr := h }) =
        W h (if r1.current = r1.size then (r1, .ok true) else skipLoop n r1)
      by_cases h2 : r1.current = r1.size
      · rw [if_pos h2, if_pos h2]; rfl
      · rw [if_neg h2, if_neg h2]; exact ih r1
    · rfl
    · rfl

theorem transform_W (h : Header) (r : Reader) : transform { r with hdr := h } = { r.transform with hdr := h } := by
  rw [transform_eq, transform_eq]; rfl

theorem afterReject_W (h : Header) (r : Reader) : afterReject { r with hdr := h } = W h r.afterReject := by
  unfold afterReject
  rw [readCounted_W]
  rcases r.readCounted with ⟨r1, o⟩
  rcases o with a | e | _
  · simp only [W]
    have : skip { r1 with hdr := h } = W h (skip r1) := skipLoop_W h _ r1
    rw [this]
    rcases r1.skip with ⟨r2, o2⟩
    rcases o2 with l | e | _
    · simp only [W, transform_W]
      cases l <;> rfl
    · rfl
    · rfl
  · rfl
  · rfl

theorem implReadNext_W {h : Header} {r : Reader} (ha : HAgree r.hdr h) : implReadNext { r with hdr := h } = W h r.implReadNext := by
  unfold implReadNext
  dsimp only
  have e0 : (if r.current = 0 then ({ r with hdr := h, ifs := r.ifs.clear.seek h.dataOffset.toNat } : Reader) else { r with hdr := h }) =
      { (if r.current = 0 then { r with ifs := r.ifs.clear.seek r.hdr.dataOffset.toNat } else r) with hdr := h } := by
    rw [ha.offset]; split <;> rfl
  rw [show (if r.current = 0 then ({ ifs := r.ifs.clear.seek h.dataOffset.toNat, hdr := h, size := r.size, current := r.current, recordSize := r.recordSize, point := r.point, filter := r.filter, xform := r.xform } : Reader) else { ifs := r.ifs, hdr := h, size := r.size, current := r.current, recordSize := r.recordSize, point := r.point, filter := r.filter, xform := r.xform }) = _ from e0]
  generalize (if r.current = 0 then { r with ifs := r.ifs.clear.seek r.hdr.dataOffset.toNat } else r) = r0
  by_cases h1 : r0.current ≥ r0.size
  · rw [if_pos (show r0.current ≥ r0.size from h1), if_pos h1]; rfl
  rw [if_neg (show ¬ r0.current ≥ r0.size from h1), if_neg h1, readCounted_W]
  rcases r0.readCounted with ⟨r1, o⟩
  rcases o with a | e | _
  · show (if r1.accepts = true then ((transform { r1 with hdr := h } : Reader), Outcome.ok ()) else afterReject { r1 with hdr := h }) =
      W h (if r1.accepts = true then (r1.transform, .ok ()) else r1.afterReject)
    by_cases h2 : r1.accepts = true
    · rw [if_pos h2, if_pos h2, transform_W]; rfl
    · rw [if_neg h2, if_neg h2, afterReject_W]
  · rfl
  · rfl

theorem catchRange_W (h : Header) (x : Reader × Outcome Unit) : catchRange (W h x) = W h (catchRange x) := by
  rcases x with ⟨r, o⟩
  rcases o with a | e | _
  · rfl
  · cases e <;> rfl
  · rfl

theorem readNext_W {h : Header} {r : Reader} (ha : HAgree r.hdr h) : readNext { r with hdr := h } = W h r.readNext := by
  unfold readNext
  rw [implReadNext_W ha, catchRange_W]

theorem implReadAt_W {h : Header} {r : Reader} (ha : HAgree r.hdr h) (n : Nat) :
    implReadAt { r with hdr := h } n = W h (r.implReadAt n) := by
  unfold implReadAt
  dsimp only
  by_cases h1 : r.size = n
  · rw [if_pos h1, if_pos h1]; rfl
  rw [if_neg h1, if_neg h1]
  by_cases h2 : r.size < n
  · rw [if_pos h2, if_pos h2]; rfl
  rw [if_neg h2, if_neg h2, ha.length, ha.offset]
  rw [show ({ ifs := r.ifs.clear.seek (n * r.hdr.dataRecordLength + r.hdr.dataOffset.toNat), hdr := h, size := r.size, current := r.current, recordSize := r.recordSize, point := r.point, filter := r.filter, xform := r.xform } : Reader) =
    { ({ r with ifs := r.ifs.clear.seek (n * r.hdr.dataRecordLength + r.hdr.dataOffset.toNat) } : Reader) with hdr := h } from rfl,
    readRecord_W]
  rcases readRecord { r with ifs := r.ifs.clear.seek (n * r.hdr.dataRecordLength + r.hdr.dataOffset.toNat) } with ⟨r1, o⟩
  rcases o with a | e | _
  · simp only [W, transform_W]
  · rfl
  · rfl

theorem readAt_W {h : Header} {r : Reader} (ha : HAgree r.hdr h) (n : Nat) :
    readAt { r with hdr := h } n = W h (r.readAt n) := by
  unfold readAt
  dsimp only
  rw [ha.count]
  by_cases h1 : r.hdr.pointCount.toNat ≤ n
  · rw [if_pos h1, if_pos h1]; rfl
  · rw [if_neg h1, if_neg h1, implReadAt_W ha, catchRange_W]

theorem seek_W {h : Header} {r : Reader} (ha : HAgree r.hdr h) (n : Nat) :
    seek { r with hdr := h } n = W h (r.seek n) := by
  have : implSeek { r with hdr := h } n = W h (r.implSeek n) := by
    unfold implSeek
    dsimp only
    by_cases h1 : r.size = n
    · rw [if_pos h1, if_pos h1]; rfl
    rw [if_neg h1, if_neg h1]
    by_cases h2 : r.size < n
    · rw [if_pos h2, if_pos h2]; rfl
    rw [if_neg h2, if_neg h2, ha.length, ha.offset]; rfl
  unfold seek
  rw [this, catchRange_W]

theorem readStep_hdr {r : Reader} {len : Nat} (hp : r.point.length = len) (hk : r.Keeps len) (o : ReadOp) : (readStep r o).hdr = r.hdr := by
  cases o with
  | next =>
    show r.readNext.1.hdr = _
    unfold Reader.readNext; rw [catchRange_fst]; exact (implReadNext_inv hp hk).1.hdr
  | «at» n =>
    show (r.readAt n).1.hdr = _
    unfold Reader.readAt
    split
    · rfl
    · rw [catchRange_fst]; exact (implReadAt_inv hp hk).1.hdr
  | seek n =>
    show (r.seek n).1.hdr = _
    unfold Reader.seek; rw [catchRange_fst]; exact (implSeek_inv hp).1.hdr
  | filters fs => rfl
  | transforms ts => rfl

theorem readStep_W {h : Header} {r : Reader} (ha : HAgree r.hdr h) (o : ReadOp) :
    readStep { r with hdr := h } o = { readStep r o with hdr := h } ∧ report { r with hdr := h } o = report r o := by
  cases o with
  | next => simp only [readStep, report, readNext_W ha, W, and_self]
  | «at» n => simp only [readStep, report, readAt_W ha, W, and_self]
  | seek n => simp only [readStep, report, seek_W ha, W, and_self]
  | filters fs => exact ⟨rfl, rfl⟩
  | transforms ts => exact ⟨rfl, rfl⟩

/-- Readers that differ in nothing reading looks at behave alike. -/
theorem reports_W {f : List Byte} {off len n : Nat} {h : Header} (ops : List ReadOp) : ∀ {r : Reader}, r.Ready f off len n →
    HAgree r.hdr h → (∀ o ∈ ops, o.Benign) → reports { r with hdr := h } ops = reports r ops := by
  induction ops with
  | nil => intro r _ _ _; rfl
  | cons o ops ih =>
    intro r hr ha hb
    obtain ⟨e1, e2⟩ := readStep_W ha o
    rw [reports, reports, e1, e2]
    congr 1
    have hh := readStep_hdr hr.on.point hr.keeps o
    exact ih (readStep_ready hr (hb o List.mem_cons_self)) (by rw [hh]; exact ha) fun o' ho => hb o' (List.mem_cons_of_mem _ ho)

end Reader

/-- `ReadNextPoint` after the first record has been read. -/
def Reader.afterFirst (r : Reader) : Reader × Outcome Unit := if r.accepts then (r.transform, .ok ()) else r.afterReject

theorem Reader.afterFirst_W (h : Header) (r : Reader) : Reader.afterFirst { r with hdr := h } = W h r.afterFirst := by
  unfold Reader.afterFirst
  have ea : accepts { r with hdr := h } = accepts r := rfl
  rw [ea]
  by_cases h1 : r.accepts = true
  · rw [if_pos h1, if_pos h1, transform_W]; rfl
  · rw [if_neg h1, if_neg h1, afterReject_W]

theorem Reader.implReadNext_first {r : Reader} {f : List Byte} {off len n k : Nat} (ho : r.On f off len n) (ha : r.At off len k)
    (hk : k < n) (hin : off + k * len + len ≤ f.length) :
    r.implReadNext = Reader.afterFirst { r with ifs := ⟨f, off + k * len + len, false, false⟩, point := record f off len k, current := r.current + 1 } := by
  unfold Reader.implReadNext
  rw [Reader.At.start ho ha]
  dsimp only
  rw [if_neg (by rw [ho.size, ha.1]; omega)]
  have hon : Reader.On { r with ifs := ⟨f, off + k * len, false, false⟩ } f off len n :=
    ⟨rfl, ho.dataOffset, ho.recordSize, ho.recordLength, ho.point, ho.size, ho.count, ho.pos⟩
  rw [Reader.readCounted_full hon rfl hin]
  rfl

theorem Reader.implReadNext_end {r : Reader} {f : List Byte} {off len n k : Nat} (ho : r.On f off len n) (ha : r.At off len k)
    (hk : n ≤ k) : r.implReadNext = ({ r with ifs := ⟨f, off + k * len, false, false⟩ }, .throw .outOfRange) := by
  unfold Reader.implReadNext
  rw [Reader.At.start ho ha]
  dsimp only
  rw [if_pos (by rw [ho.size, ha.1]; omega)]

/-- Readers that differ only in their headers and in the point left over, neither having read since its last seek or
reset. -/
theorem reports_point {f : List Byte} {off len n : Nat} {h : Header} (hin : off + n * len ≤ f.length) (ops : List ReadOp) :
    ∀ {r : Reader} {k : Nat} {p : List Byte}, r.Ready f off len n → HAgree r.hdr h → r.At off len k → p.length = len →
      (∀ o ∈ ops, o.Benign) → reports { r with hdr := h, point := p } ops = reports r ops := by
  induction ops with
  | nil => intro r k p _ _ _ _ _; rfl
  | cons o ops ih =>
    intro r k p hr ha hat hp hb
    have ho := hr.on
    have hb' : ∀ o ∈ ops, o.Benign := fun o' ho => hb o' (List.mem_cons_of_mem _ ho)
    have hnext := readStep_ready hr (hb o List.mem_cons_self)
    have hhdr := Reader.readStep_hdr ho.point hr.keeps o
    have ho' : Reader.On { r with hdr := h, point := p } f off len n :=
      ⟨ho.buf, by show h.dataOffset.toNat = _; rw [ha.offset]; exact ho.dataOffset, ho.recordSize,
        by show h.dataRecordLength = _; rw [ha.length]; exact ho.recordLength, hp, ho.size,
        by show h.pointCount.toNat = _; rw [ha.count]; exact ho.count, ho.pos⟩
    have hat' : Reader.At { r with hdr := h, point := p } off len k := hat
    have hle : ∀ j, j < n → off + j * len + len ≤ f.length := by
      intro j hj
      have : (j + 1) * len ≤ n * len := Nat.mul_le_mul_right _ hj
      rw [Nat.succ_mul] at this; omega
    have key : (readStep { r with hdr := h, point := p } o = { readStep r o with hdr := h } ∧
          report { r with hdr := h, point := p } o = report r o) ∨
        (readStep { r with hdr := h, point := p } o = { readStep r o with hdr := h, point := p } ∧
          (∃ j, (readStep r o).At off len j) ∧ report { r with hdr := h, point := p } o = report r o) := by
      cases o with
      | next =>
        by_cases hk : k < n
        · left
          have e1 := Reader.implReadNext_first ho hat hk (hle k hk)
          have e2 := Reader.implReadNext_first ho' hat' hk (hle k hk)
          have e3 : Reader.implReadNext { r with hdr := h, point := p } = Reader.W h r.implReadNext := by
            rw [e1, e2]
            exact Reader.afterFirst_W h { r with ifs := ⟨f, off + k * len + len, false, false⟩, point := record f off len k, current := r.current + 1 }
          have e4 : Reader.readNext { r with hdr := h, point := p } = Reader.W h r.readNext := by
            unfold Reader.readNext; rw [e3, Reader.catchRange_W]
          simp only [readStep, report, e4, Reader.W, and_self]
        · right
          have e1 := Reader.implReadNext_end ho hat (by omega)
          have e2 := Reader.implReadNext_end ho' hat' (by omega)
          have f1 : r.readNext = ({ r with ifs := ⟨f, off + k * len, false, false⟩ }, .ok false) := by
            unfold Reader.readNext; rw [e1]; rfl
          have f2 : Reader.readNext { r with hdr := h, point := p } =
              ({ r with hdr := h, point := p, ifs := ⟨f, off + k * len, false, false⟩ }, .ok false) := by
            unfold Reader.readNext; rw [e2]; rfl
          simp only [readStep, report, f1, f2]
          exact ⟨trivial, ⟨k, hat.1, fun _ => ⟨rfl, rfl, rfl⟩⟩, rfl⟩
      | «at» i =>
        by_cases hi : i < n
        · left
          have hin' : off + (i + 1) * len ≤ f.length := by have := hle i hi; rw [Nat.succ_mul]; omega
          simp only [readStep, report, Reader.readAt_hit ho hi hin', Reader.readAt_hit ho' hi hin']
          exact ⟨rfl, rfl⟩
        · right
          have e1 : r.readAt i = (r, .throw .outOfRange) := by
            unfold Reader.readAt; rw [if_pos (by rw [ho.count]; omega)]
          have e2 : Reader.readAt { r with hdr := h, point := p } i = ({ r with hdr := h, point := p }, .throw .outOfRange) := by
            unfold Reader.readAt; rw [if_pos (by rw [ho'.count]; omega)]
          simp only [readStep, report, e1, e2]
          exact ⟨trivial, ⟨k, hat⟩, rfl⟩
      | seek i =>
        right
        by_cases hi : i < n
        · simp only [readStep, report, Reader.seek_hit ho hi, Reader.seek_hit ho' hi]
          exact ⟨trivial, ⟨i, rfl, fun _ => ⟨rfl, rfl, rfl⟩⟩, trivial⟩
        · have e : ∀ x : Reader, x.size = n → x.seek i = (x, if i = n then .ok false else .throw .runtimeError) := by
            intro x hx
            unfold Reader.seek Reader.implSeek
            by_cases h1 : i = n
            · rw [if_pos (by omega), if_pos h1]; rfl
            · rw [if_neg (by omega), if_pos (by omega), if_neg h1]; rfl
          simp only [readStep, report, e r ho.size, e { r with hdr := h, point := p } ho.size]
          exact ⟨trivial, ⟨k, hat⟩, trivial⟩
      | filters fs => right; exact ⟨rfl, ⟨k, hat⟩, rfl⟩
      | transforms ts => right; exact ⟨rfl, ⟨k, hat⟩, rfl⟩
    rw [reports, reports]
    rcases key with ⟨e1, e2⟩ | ⟨e1, ⟨j, e3⟩, e2⟩
    · rw [e1, e2, Reader.reports_W ops hnext (by rw [hhdr]; exact ha) hb']
    · rw [e1, e2, ih hnext (by rw [hhdr]; exact ha) e3 hp hb']

end LibLAS
