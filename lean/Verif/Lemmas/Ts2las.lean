import Verif.Model.Ts2las
import Verif.Spec.Ts2las
import Verif.Lemmas.Txt2lasPasses
import Verif.Lemmas.TextCoord
import Verif.Lemmas.Stream
/-
ts2las: reading a header and the shots behind it.
-/
namespace LibLAS
open Spec Spec.TerraScan Point

/-- The stream is good and these bytes are still to come. -/
structure IStream.Ahead (s : IStream) (bs : List Byte) : Prop where
  eof : s.eof = false
  fail : s.fail = false
  bytes : s.buf.drop s.pos = bs

theorem IStream.Ahead.readN {s : IStream} {old bs rest : List Byte} (h : s.Ahead (bs ++ rest)) (hl : bs.length = old.length) :
    ∃ s', s.readN old = .ok (bs, s') ∧ s'.Ahead rest := by
  obtain ⟨h1, h2, h3⟩ := h
  refine ⟨{ s with pos := s.pos + old.length }, ?_, h1, h2, ?_⟩
  · unfold IStream.readN IStream.read
    have : (s.buf.drop s.pos).take old.length = bs := by rw [h3, ← hl, List.take_left]
    simp only [h1, h2, Bool.or_self, Bool.false_eq_true, if_false, this, hl, if_true, List.drop_length, List.append_nil]
  · show s.buf.drop (s.pos + old.length) = rest
    rw [← List.drop_drop, h3, ← hl, List.drop_left]

theorem got_leBytes (n : Nat) (v : BitVec (8 * n)) : got (8 * n) (leBytes n v) = v := by
  show memValue .little (8 * n) (leBytes n v) = v
  rw [memValue_little]
  exact ofNat_leNat_leBytes n v

namespace Ts2las

theorem got4 (v : BitVec 32) : got 32 (leBytes 4 v) = v := got_leBytes 4 v
theorem got8 (v : BitVec 64) : got 64 (leBytes 8 v) = v := got_leBytes 8 v
theorem got2 (v : BitVec 16) : got 16 (leBytes 2 v) = v := got_leBytes 2 v
theorem got1 (v : BitVec 8) : got 8 [v] = v := by
  have := got_leBytes 1 v
  have e : leBytes 1 v = [v] := by simp [leBytes]
  rwa [e] at this

/-- A field in the middle of an object. -/
theorem part_mid {a b c : List Byte} {i n : Nat} (h1 : a.length = i) (h2 : b.length = n) : part (a ++ (b ++ c)) i n = b := by
  unfold part
  rw [← h1, List.drop_left, ← h2, List.take_left]

/-- A field behind a byte. -/
theorem part_succ (x : Byte) (l : List Byte) (i n : Nat) : part (x :: l) (i + 1) n = part l i n := rfl

theorem part_head {b c : List Byte} {n : Nat} (h2 : b.length = n) : part (b ++ c) 0 n = b := part_mid (a := []) rfl h2

theorem part_skip {a c : List Byte} {i j n : Nat} (h : a.length = j) (hi : j ≤ i) : part (a ++ c) i n = part c (i - j) n := by
  unfold part
  rw [List.drop_append, List.drop_eq_nil_of_le (by omega), h, List.nil_append]

/-- The header of the program made from the header in the file. -/
def hdrOf (f : Survey) (n : Nat) : ScanHdr :=
  ⟨f.version, 970401, lit "CXYZ", BitVec.ofNat 32 n, f.units, f.origin, f.time, f.color⟩

theorem surveyBytes_length (f : Survey) (n : Nat) : (surveyBytes f n).length = 56 := by
  simp [surveyBytes, lit]

theorem ofBytes_header (f : Survey) (n : Nat) : ScanHdr.ofBytes (surveyBytes f n) = hdrOf f n := by
  have l4 : (lit "CXYZ").length = 4 := by decide
  unfold ScanHdr.ofBytes surveyBytes hdrOf
  simp only [List.append_assoc]
  simp (disch := first | (simp only [leBytes_length, l4]; done) | omega | decide) only [part_skip (j := 4) (a := leBytes 4 _), part_skip (j := 8) (a := leBytes 8 _),
    part_skip (j := 4) (a := lit "CXYZ"), Nat.reduceSub]
  have e : part (leBytes 4 f.color) 0 4 = leBytes 4 f.color := by
    have := part_head (b := leBytes 4 f.color) (c := []) (leBytes_length 4 _)
    rwa [List.append_nil] at this
  rw [part_head (leBytes_length 4 _), part_head (leBytes_length 4 _), part_head l4, part_head (leBytes_length 4 _),
    part_head (leBytes_length 4 _), part_head (leBytes_length 8 _), part_head (leBytes_length 8 _), part_head (leBytes_length 8 _),
    part_head (leBytes_length 4 _), e]
  simp only [got4, got8]

theorem readHeader_ok {f : Survey} (hk : known f.version) (n : Nat) (rest : List Byte) :
    ∃ s, readHeader (IStream.onFile (surveyBytes f n ++ rest)) = .ok (true, hdrOf f n, s) ∧ s.Ahead rest := by
  obtain ⟨s, e, hs⟩ := IStream.Ahead.readN (s := IStream.onFile (surveyBytes f n ++ rest)) (old := List.replicate 56 0#8)
    (bs := surveyBytes f n) (rest := rest) ⟨rfl, rfl, rfl⟩ (by rw [surveyBytes_length, List.length_replicate])
  refine ⟨s, ?_, hs⟩
  unfold readHeader
  rw [e]
  simp only [ofBytes_header]
  have e1 : (hdrOf f n).version = f.version := rfl
  rw [if_neg (by simp [hdrOf]), if_neg (by simp [hdrOf]), e1]
  split
  · rfl
  split
  · rfl
  split
  · rfl
  split
  · rfl
  rename_i h1 h2 h3 h4
  rcases hk with h | h | h | ⟨h, h'⟩
  · exact absurd h h1
  · exact absurd h h2
  · exact absurd h h3
  · have : f.version.toInt ≠ 20020715 := by
      intro hh
      apply h4
      apply BitVec.eq_of_toInt_eq
      rw [hh]; decide
    have : decide (f.version.toInt > 20020715) = true := decide_eq_true (by omega)
    have h2 : decide (f.version.toInt < 20051231) = true := decide_eq_true h'
    rw [this, h2]; rfl

/-- What the program keeps of a shot. -/
def pntOf (s : Shot) : ScanPnt := ⟨s.x, s.y, s.z, s.code, s.echo, s.intensity⟩

/-- The bytes of a shot without time and colour. -/
def coreBytes (f : Survey) (s : Shot) : List Byte :=
  if f.version = 20020715 then
    leBytes 4 s.x ++ leBytes 4 s.y ++ leBytes 4 s.z ++ [s.code, s.echo, s.flag, s.mark] ++ leBytes 2 s.line ++ leBytes 2 s.intensity
  else
    [s.code] ++ leBytes 1 s.line ++ leBytes 2 (BitVec.ofNat 16 (2 ^ 14 * s.echo.toNat + s.intensity.toNat)) ++
      leBytes 4 s.x ++ leBytes 4 s.y ++ leBytes 4 s.z

theorem coreBytes_length (f : Survey) (n : Nat) (s : Shot) : (coreBytes f s).length = pointSize (hdrOf f n) := by
  unfold coreBytes pointSize
  have e1 : (hdrOf f n).version = f.version := rfl
  rw [e1]
  split <;> simp

theorem echo_bits {e : BitVec 8} {i : BitVec 16} (he : e.toNat < 4) (hi : i.toNat < 2 ^ 14) :
    (BitVec.ofNat 16 (2 ^ 14 * e.toNat + i.toNat) >>> 14).setWidth 8 = e ∧ BitVec.ofNat 16 (2 ^ 14 * e.toNat + i.toNat) &&& 0x3FFF = i := by
  constructor
  · apply BitVec.eq_of_toNat_eq
    rw [BitVec.toNat_setWidth, BitVec.toNat_ushiftRight, BitVec.toNat_ofNat, Nat.shiftRight_eq_div_pow]
    omega
  · apply BitVec.eq_of_toNat_eq
    rw [BitVec.toNat_and, BitVec.toNat_ofNat]
    have : (0x3FFF : BitVec 16).toNat = 2 ^ 14 - 1 := by decide
    rw [this, Nat.and_two_pow_sub_one_eq_mod]
    omega

theorem nextPoint_ok {f : Survey} {n : Nat} {sh : Shot} (hf : Fits f sh) {s : IStream} {rest old : List Byte}
    (hs : s.Ahead (coreBytes f sh ++ rest)) (ho : old.length = pointSize (hdrOf f n)) :
    ∃ s', nextPoint (hdrOf f n) s old = .ok (pntOf sh, coreBytes f sh, s') ∧ s'.Ahead rest := by
  obtain ⟨s', e, h'⟩ := hs.readN (old := old) (by rw [coreBytes_length f n, ho])
  refine ⟨s', ?_, h'⟩
  unfold nextPoint
  rw [e, Outcome.bind_ok]
  have e1 : (hdrOf f n).version = f.version := rfl
  rw [e1]
  show Outcome.ok _ = .ok _
  congr 2
  split
  · rename_i hv
    unfold ScanPnt.ofBytes coreBytes pntOf
    rw [if_pos hv]
    simp only [List.append_assoc, List.cons_append, List.nil_append]
    simp (disch := first | (simp only [leBytes_length]; done) | omega) only [part_skip (j := 4) (a := leBytes 4 _),
      part_skip (j := 2) (a := leBytes 2 _), Nat.reduceSub]
    have k1 : ∀ (l : List Byte), part (sh.code :: sh.echo :: sh.flag :: sh.mark :: l) 0 1 = [sh.code] := fun _ => rfl
    have k2 : ∀ (l : List Byte), part (sh.code :: sh.echo :: sh.flag :: sh.mark :: l) 1 1 = [sh.echo] := fun _ => rfl
    have k3 : part (sh.code :: sh.echo :: sh.flag :: sh.mark :: (leBytes 2 sh.line ++ leBytes 2 sh.intensity)) 6 2 = leBytes 2 sh.intensity := by
      have := part_mid (a := sh.code :: sh.echo :: sh.flag :: sh.mark :: leBytes 2 sh.line) (b := leBytes 2 sh.intensity) (c := []) (i := 6) (n := 2)
        (by simp) (leBytes_length _ _)
      simpa using this
    rw [part_head (leBytes_length 4 _), part_head (leBytes_length 4 _), part_head (leBytes_length 4 _), k1, k2, k3]
    simp only [got4, got2, got1]
  · rename_i hv
    obtain ⟨he, hi⟩ := hf.resolve_left hv
    obtain ⟨b1, b2⟩ := echo_bits he hi
    unfold ScanPnt.ofRow coreBytes pntOf
    rw [if_neg hv]
    obtain ⟨c, e2⟩ : ∃ c, leBytes 1 sh.line = [c] := ⟨_, rfl⟩
    rw [e2]
    simp only [List.append_assoc, List.cons_append, List.nil_append]
    generalize hw : BitVec.ofNat 16 (2 ^ 14 * sh.echo.toNat + sh.intensity.toNat) = w at *
    have k1 : ∀ (c d : Byte) (l : List Byte), part (c :: d :: l) 0 1 = [c] := fun _ _ _ => rfl
    have k2 : ∀ (c d : Byte) (l : List Byte) (i m : Nat), part (c :: d :: l) (i + 2) m = part l i m := fun _ _ _ _ _ => rfl
    rw [k1, k2 _ _ _ 0 2, k2 _ _ _ 2 4, k2 _ _ _ 6 4, k2 _ _ _ 10 4]
    simp (disch := first | (simp only [leBytes_length]; done) | omega) only [part_skip (j := 4) (a := leBytes 4 _),
      part_skip (j := 2) (a := leBytes 2 _), Nat.reduceSub]
    have e3 : part (leBytes 4 sh.z) 0 4 = leBytes 4 sh.z := by
      have := part_head (b := leBytes 4 sh.z) (c := []) (leBytes_length 4 _)
      rwa [List.append_nil] at this
    rw [part_head (leBytes_length 2 _), part_head (leBytes_length 4 _), part_head (leBytes_length 4 _), e3]
    simp only [got4, got2, got1, b1, b2]

/-- A setter call with what it does. -/
structure Set1 (b : Build) (p p' : Point) (op : SetOp) : Prop where
  wf : p'.WF
  hdr : p'.hdr = p.hdr
  len : p'.data.length = p.data.length
  view : ∀ a, observe b p = .ok a → observe b p' = .ok (apply a op)

theorem set1 {b : Build} {p : Point} (hw : p.WF) (op : SetOp) (hop : supported p.hdr.fmt op = true) :
    ∃ p', exec b p op = .ok p' ∧ Set1 b p p' op := by
  obtain ⟨p', a, h1, h2, h3, h4, h5, h6, -⟩ := set_then_get b p op hw hop
  refine ⟨p', h1, h4, h5, h6, ?_⟩
  intro a' ha'
  rw [h2] at ha'
  injection ha' with ha'
  rw [h3, ha']

/-- A point that belongs to the header and has these attributes. -/
structure Has (b : Build) (ph : PHeader) (p : Point) (a : Attrs) : Prop where
  wf : p.WF
  hdr : p.hdr = ph
  len : p.data.length = ph.recLen
  view : observe b p = .ok a

theorem Has.set {b : Build} {ph : PHeader} {p : Point} {a : Attrs} (h : Has b ph p a) (op : SetOp) (hop : supported ph.fmt op = true) :
    ∃ p', exec b p op = .ok p' ∧ Has b ph p' (apply a op) := by
  obtain ⟨p', e, k⟩ := set1 (b := b) h.wf op (by rw [h.hdr]; exact hop)
  exact ⟨p', e, k.wf, by rw [k.hdr, h.hdr], by rw [k.len, h.len], k.view a h.view⟩

theorem new_has (b : Build) {ph : PHeader} (hs : ph.fmt.std = true) (hl : ph.recLen = formatSize ph.fmt) :
    Has b ph (Point.new ph) Txt2las.zeroAttrs := by
  have hw : (Point.new ph).WF := ⟨hs, by simp [Point.new, hl]⟩
  refine ⟨hw, rfl, by simp [Point.new], ?_⟩
  rw [observe_eq hw]
  show Outcome.ok (view b ph.fmt (List.replicate ph.recLen 0#8)) = _
  rw [hl, Txt2las.zero_view b hs]

theorem startPoint_ok (b : Build) {ph : PHeader} (hs : ph.fmt.std = true) (hl : ph.recLen = formatSize ph.fmt) (q : ScanPnt) :
    ∃ p, startPoint b ph q = .ok p ∧ Has b ph p { Txt2las.zeroAttrs with rawX := q.x, rawY := q.y, rawZ := q.z, classification := ⟨q.code⟩, intensity := q.intensity } := by
  obtain ⟨p1, e1, k1⟩ := (new_has b hs hl).set (.rawX q.x) rfl
  obtain ⟨p2, e2, k2⟩ := k1.set (.rawY q.y) rfl
  obtain ⟨p3, e3, k3⟩ := k2.set (.rawZ q.z) rfl
  obtain ⟨p4, e4, k4⟩ := k3.set (.classification ⟨q.code⟩) rfl
  obtain ⟨p5, e5, k5⟩ := k4.set (.intensity q.intensity) rfl
  simp only [exec] at e1 e2 e3 e4 e5
  refine ⟨p5, ?_, k5⟩
  unfold startPoint
  rw [e1, Outcome.bind_ok, e2, Outcome.bind_ok, e3, Outcome.bind_ok, e4, Outcome.bind_ok, e5]

/-- The bytes of the time of a shot. -/
def timeBytes (f : Survey) (s : Shot) : List Byte := if f.time ≠ 0 then leBytes 4 s.time else []
/-- The bytes of the colour of a shot. -/
def colorBytes (f : Survey) (s : Shot) : List Byte :=
  if f.color ≠ 0 then [s.color.1, s.color.2.1, s.color.2.2.1, s.color.2.2.2] else []

theorem shotBytes_eq (f : Survey) (s : Shot) : shotBytes f s = coreBytes f s ++ timeBytes f s ++ colorBytes f s := rfl

/-- The time stored. -/
def timeOf (t : BitVec 32) : BitVec 64 := (Fl.mul (.fin t.toNat) (Fl.ofRat (1 / 5000))).toBits

/-- The point with the time of a shot. -/
def withTime (b : Build) (f : Survey) (sh : Shot) (p : Point) : Outcome Point :=
  if f.time ≠ 0 then p.setTime b (timeOf sh.time) else .ok p

/-- The point with the colour of a shot. -/
def withColor (b : Build) (f : Survey) (sh : Shot) (p : Point) : Outcome Point :=
  if f.color ≠ 0 then p.setColor b ⟨sh.color.1.setWidth 16, sh.color.2.2.1.setWidth 16, sh.color.2.1.setWidth 16⟩ else .ok p

/-- The point made of a shot. -/
def pointOf (b : Build) (ph : PHeader) (f : Survey) (sh : Shot) : Outcome Point := do
  let p ← startPoint b ph (pntOf sh)
  let p ← withTime b f sh p
  let p ← withColor b f sh p
  setEcho sh.echo p

theorem readTime_ok {b : Build} {f : Survey} {n : Nat} {sh : Shot} {ph : PHeader} {p : Point} {a : Attrs} (hp : Has b ph p a)
    (hf : f.time ≠ 0 → hasTime ph.fmt = true) {s : IStream} {rest : List Byte} (hs : s.Ahead (timeBytes f sh ++ rest)) :
    ∃ p' s', readTime b (hdrOf f n) s p = .ok (p', s') ∧ withTime b f sh p = .ok p' ∧ s'.Ahead rest ∧
      Has b ph p' (if f.time ≠ 0 then { a with time := timeOf sh.time } else a) := by
  unfold readTime
  have e1 : (hdrOf f n).time = f.time := rfl
  rw [e1]
  unfold timeBytes at hs
  by_cases ht : f.time ≠ 0
  · rw [if_pos ht] at hs ⊢
    obtain ⟨s', e, h'⟩ := hs.readN (old := [0xFF, 0xFF, 0xFF, 0xFF]) (by rw [leBytes_length]; rfl)
    obtain ⟨p', e2, k⟩ := hp.set (.time (timeOf sh.time)) (hf ht)
    refine ⟨p', s', ?_, by unfold withTime; rw [if_pos ht]; exact e2, h', ?_⟩
    · rw [e, Outcome.bind_ok]
      simp only [got4]
      simp only [exec, timeOf] at e2
      rw [e2]; rfl
    · rw [if_pos ht]; exact k
  · rw [if_neg ht] at hs ⊢
    exact ⟨p, s, rfl, by unfold withTime; rw [if_neg ht], hs, by rw [if_neg ht]; exact hp⟩

theorem readColor_ok {b : Build} {f : Survey} {n : Nat} {sh : Shot} {ph : PHeader} {p : Point} {a : Attrs} (hp : Has b ph p a)
    (hf : f.color ≠ 0 → hasColor ph.fmt = true) {s : IStream} {rest : List Byte} (hs : s.Ahead (colorBytes f sh ++ rest)) :
    ∃ p' s', readColor b (hdrOf f n) s p = .ok (p', s') ∧ withColor b f sh p = .ok p' ∧ s'.Ahead rest ∧
      Has b ph p' (if f.color ≠ 0 then { a with color := ⟨sh.color.1.setWidth 16, sh.color.2.2.1.setWidth 16, sh.color.2.1.setWidth 16⟩ } else a) := by
  unfold readColor
  have e1 : (hdrOf f n).color = f.color := rfl
  rw [e1]
  unfold colorBytes at hs
  by_cases ht : f.color ≠ 0
  · rw [if_pos ht] at hs ⊢
    obtain ⟨s1, e1, h1⟩ := IStream.Ahead.readN (bs := [sh.color.1]) (old := [0#8]) hs rfl
    obtain ⟨s2, e2, h2⟩ := IStream.Ahead.readN (bs := [sh.color.2.1]) (old := [0#8]) h1 rfl
    obtain ⟨s3, e3, h3⟩ := IStream.Ahead.readN (bs := [sh.color.2.2.1]) (old := [0#8]) h2 rfl
    obtain ⟨s4, e4, h4⟩ := IStream.Ahead.readN (bs := [sh.color.2.2.2]) (old := [0#8]) h3 rfl
    obtain ⟨p', e5, k⟩ := hp.set (.color ⟨sh.color.1.setWidth 16, sh.color.2.2.1.setWidth 16, sh.color.2.1.setWidth 16⟩) (hf ht)
    refine ⟨p', s4, ?_, by unfold withColor; rw [if_pos ht]; exact e5, h4, ?_⟩
    · rw [e1, Outcome.bind_ok]
      simp only
      rw [e2, Outcome.bind_ok]
      simp only
      rw [e3, Outcome.bind_ok]
      simp only
      rw [e4, Outcome.bind_ok]
      simp only [got1, Color.setGreen, Color.setBlue, Color.setRed]
      simp only [exec] at e5
      rw [e5]; rfl
    · rw [if_pos ht]; exact k
  · rw [if_neg ht] at hs ⊢
    exact ⟨p, s, rfl, by unfold withColor; rw [if_neg ht], hs, by rw [if_neg ht]; exact hp⟩

theorem setEcho_ok {b : Build} {ph : PHeader} {p : Point} {a : Attrs} (hp : Has b ph p a) (h0 : a.numberOfReturns = 0) (echo : BitVec 8) :
    ∃ p', setEcho echo p = .ok p' ∧ Has b ph p' { a with returnNumber := (returns echo).1, numberOfReturns := (returns echo).2 } := by
  unfold setEcho
  by_cases e0 : echo = 0
  · subst e0
    rw [if_pos rfl]
    obtain ⟨p1, e1, k1⟩ := hp.set (.numberOfReturns 1) rfl
    obtain ⟨p2, e2, k2⟩ := k1.set (.returnNumber 1) rfl
    simp only [exec] at e1 e2
    exact ⟨p2, by rw [e1, Outcome.bind_ok, e2], k2⟩
  rw [if_neg e0]
  by_cases e1 : echo = 1
  · subst e1
    rw [if_pos rfl]
    obtain ⟨p1, e1, k1⟩ := hp.set (.returnNumber 1) rfl
    simp only [exec] at e1
    refine ⟨p1, e1, ?_⟩
    have : apply a (.returnNumber 1) = { a with returnNumber := (returns 1).1, numberOfReturns := (returns 1).2 } := by
      show ({ a with returnNumber := _ } : Attrs) = _
      have r1 : returns 1 = (1, 0) := rfl
      rw [r1, ← h0]
      rfl
    rw [← this]; exact k1
  rw [if_neg e1]
  by_cases e3 : echo = 3
  · subst e3
    rw [if_pos rfl]
    obtain ⟨p1, e1, k1⟩ := hp.set (.returnNumber 2) rfl
    obtain ⟨p2, e2, k2⟩ := k1.set (.numberOfReturns 2) rfl
    simp only [exec] at e1 e2
    exact ⟨p2, by rw [e1, Outcome.bind_ok, e2], k2⟩
  rw [if_neg e3]
  obtain ⟨p1, f1, k1⟩ := hp.set (.returnNumber 2) rfl
  obtain ⟨p2, f2, k2⟩ := k1.set (.numberOfReturns 3) rfl
  simp only [exec] at f1 f2
  have hr : returns echo = (2, 3) := by
    unfold returns
    split
    · rename_i h; exact absurd (BitVec.eq_of_toNat_eq h) e0
    · rename_i h; exact absurd (BitVec.eq_of_toNat_eq h) e1
    · rename_i h; exact absurd (BitVec.eq_of_toNat_eq h) e3
    · rfl
  rw [hr]
  exact ⟨p2, by rw [f1, Outcome.bind_ok, f2], k2⟩

/-- The attributes of the point made of a shot. -/
def attrsOf (f : Survey) (s : Shot) : Attrs where
  rawX := s.x
  rawY := s.y
  rawZ := s.z
  intensity := s.intensity
  returnNumber := (returns s.echo).1
  numberOfReturns := (returns s.echo).2
  scanDirection := 0
  edge := 0
  classification := ⟨s.code⟩
  scanAngle := 0
  userData := 0
  sourceId := 0
  time := if f.time ≠ 0 then timeOf s.time else 0
  color := if f.color ≠ 0 then ⟨s.color.1.setWidth 16, s.color.2.2.1.setWidth 16, s.color.2.1.setWidth 16⟩ else ⟨0, 0, 0⟩

theorem writePoint_hdr {w w' : Writer} {d : List Byte} (h : w.writePoint d = .ok w') : w'.hdr = w.hdr := by
  unfold Writer.writePoint at h
  split at h
  · cases h
  split at h
  · cases h
  split at h
  · cases h
  · injection h with h; rw [← h]

theorem loop_ok {b : Build} {f : Survey} {n : Nat} {ph : PHeader} (hs : ph.fmt.std = true) (hl : ph.recLen = formatSize ph.fmt)
    (ht : f.time ≠ 0 → hasTime ph.fmt = true) (hc : f.color ≠ 0 → hasColor ph.fmt = true) (rest : List Byte) :
    ∀ (shots : List Shot), (∀ sh ∈ shots, TerraScan.Fits f sh) → ∀ (s : IStream) (old : List Byte),
      s.Ahead ((shots.map (shotBytes f)).flatten ++ rest) → old.length = pointSize (hdrOf f n) →
    ∃ ds s3 old3, List.Forall₂ (fun sh d => d.length = ph.recLen ∧ observe b ⟨d, ph⟩ = .ok (attrsOf f sh) ∧ pointOf b ph f sh = .ok ⟨d, ph⟩) shots ds ∧
      s3.Ahead rest ∧ old3 = ((shots.getLast?).map (coreBytes f)).getD old ∧
      ∀ (w w' : Writer), w.hdr.toP = ph → w.writePoints ds = .ok w' →
        ∀ m, loop b (hdrOf f n) (shots.length + m) w s old = loop b (hdrOf f n) m w' s3 old3 := by
  intro shots
  induction shots with
  | nil =>
    intro _ s old hA ho
    refine ⟨[], s, old, .nil, hA, rfl, ?_⟩
    intro w w' _ hw m
    injection hw with hw
    rw [hw, List.length_nil, Nat.zero_add]
  | cons sh shots ih =>
    intro hfit s old hA ho
    obtain ⟨p1, e1, k1⟩ := startPoint_ok b hs hl (pntOf sh)
    rw [List.map_cons, List.flatten_cons, shotBytes_eq] at hA
    simp only [List.append_assoc] at hA
    obtain ⟨s1, n1, a1⟩ := nextPoint_ok (n := n) (hfit sh List.mem_cons_self) hA ho
    obtain ⟨p2, s2, n2, m2, a2, k2⟩ := readTime_ok (n := n) k1 ht a1
    obtain ⟨p3, s3, n3, m3, a3, k3⟩ := readColor_ok (n := n) k2 hc a2
    obtain ⟨p4, n4, k4⟩ := setEcho_ok k3 (by
      by_cases h : f.time ≠ 0 <;> by_cases h' : f.color ≠ 0
      · rw [if_pos h', if_pos h]; rfl
      · rw [if_neg h', if_pos h]; rfl
      · rw [if_pos h', if_neg h]; rfl
      · rw [if_neg h', if_neg h]; rfl) sh.echo
    have k5 : Has b ph p4 (attrsOf f sh) := by
      unfold attrsOf
      by_cases h : f.time ≠ 0 <;> by_cases h' : f.color ≠ 0
      · rw [if_pos h', if_pos h] at k4 ⊢; exact k4
      · rw [if_neg h', if_pos h] at k4 ⊢; exact k4
      · rw [if_pos h', if_neg h] at k4 ⊢; exact k4
      · rw [if_neg h', if_neg h] at k4 ⊢; exact k4
    obtain ⟨ds, s4, old4, h1, b1, b2, h2⟩ := ih (fun x hx => hfit x (List.mem_cons_of_mem _ hx)) s3 (coreBytes f sh) a3 (coreBytes_length f n sh)
    refine ⟨p4.data :: ds, s4, old4, .cons ⟨k5.len, ?_, ?_⟩ h1, b1, ?_, ?_⟩
    · rw [← k5.view, ← k5.hdr]
    · unfold pointOf
      rw [e1, Outcome.bind_ok, m2, Outcome.bind_ok, m3, Outcome.bind_ok, n4, ← k5.hdr]
    · rw [b2]
      cases shots with
      | nil => rfl
      | cons x l => rfl
    · intro w w' hw e m
      rw [List.length_cons, Nat.add_right_comm]
      unfold Writer.writePoints at e
      obtain ⟨w1, f1, f2⟩ := bind_eq_ok e
      conv_lhs => rw [loop]
      rw [n1, Outcome.bind_ok]
      simp only
      rw [hw, e1, Outcome.bind_ok, n2, Outcome.bind_ok]
      simp only
      rw [n3, Outcome.bind_ok]
      simp only
      have e0 : (pntOf sh).echo = sh.echo := rfl
      have e9 : tryWrite w p4 = .ok w1 := by unfold tryWrite; rw [f1]
      rw [e0, n4, Outcome.bind_ok, e9, Outcome.bind_ok]
      exact h2 w1 w' (by rw [writePoint_hdr f1, hw]) f2 m

end Ts2las
end LibLAS
