import Verif.Model.IndexQuery
import Verif.Lemmas.IndexTemp
/-
The variable records of an index are those of a list of groups of cells.
-/
namespace LibLAS.Index
open Spec

theorem poke_at {d a b c bs : List Byte} {pos : Nat} (h : d = a ++ (b ++ c)) (h1 : a.length = pos) (h2 : b.length = bs.length) :
    poke d pos bs = .ok (a ++ (bs ++ c)) := by
  subst h
  unfold poke
  have : ¬ pos + bs.length > (a ++ (b ++ c)).length := by simp; omega
  simp only [if_neg this]
  unfold writeAt
  rw [if_pos (by simp; omega)]
  subst h1
  simp [← h2]

/-- Some consecutive cells with what is written in front of them. -/
structure Grp where
  first : Nat × Nat
  last : Nat × Nat
  cells : List ((Nat × Nat) × Cell)
  deriving DecidableEq

namespace Grp

def body (g : Grp) : List Byte := g.cells.flatMap fun e => cellBytes e.1.1 e.1.2 e.2
def size (g : Grp) : Nat := 24 + g.body.length
def points (g : Grp) : Nat := (g.cells.map fun e => e.2.numPoints).sum
def frame (f l : Nat × Nat) (size points : Nat) : List Byte :=
  put32 f.1 ++ (put32 f.2 ++ (put32 l.1 ++ (put32 l.2 ++ (put32 size ++ put32 points))))
def bytes (g : Grp) : List Byte := frame g.first g.last g.size (g.points % 2 ^ 32) ++ g.body

theorem frame_length (f l : Nat × Nat) (s p : Nat) : (frame f l s p).length = 24 := by simp [frame, put32_length]
theorem bytes_length (g : Grp) : g.bytes.length = g.size := by simp [bytes, frame_length, size]

end Grp

/-- How cells are put together into records. -/
structure Grouping where
  done : List Grp
  cur : Option Grp

namespace Grouping

def entryLen (e : (Nat × Nat) × Cell) : Nat := (cellBytes e.1.1 e.1.2 e.2).length

def flush (s : List Grp × Grp) (e : (Nat × Nat) × Cell) : List Grp × Grp :=
  if s.2.cells ≠ [] ∧ entryLen e + s.2.size > maxVLR then (s.1 ++ [s.2], ⟨e.1, e.1, []⟩) else s

def add (s : List Grp × Grp) (e : (Nat × Nat) × Cell) : Grouping :=
  if entryLen e + s.2.size ≤ maxVLR then ⟨s.1, some ⟨s.2.first, e.1, s.2.cells ++ [e]⟩⟩
  else ⟨s.1 ++ [⟨s.2.first, s.2.last, [e]⟩], none⟩

def step (s : Grouping) (e : (Nat × Nat) × Cell) : Grouping :=
  let cur := s.cur.getD ⟨e.1, e.1, []⟩
  if e.2.numPoints = 0 then ⟨s.done, some cur⟩ else add (flush (s.done, cur) e) e

def finish (s : Grouping) : List Grp :=
  match s.cur with
  | none => s.done
  | some g => if g.cells = [] then s.done else s.done ++ [g]

def start : Grouping := ⟨[], none⟩

end Grouping

/-- The groups of a list of cells. -/
def groups (cs : List ((Nat × Nat) × Cell)) : List Grp := (cs.foldl Grouping.step Grouping.start).finish

/-- A record of the index. -/
def Plain (v : VLR) : Prop :=
  v.userId = cellRecord.userId ∧ v.recordId = 43#16 ∧ v.description = cellRecord.description ∧ v.reserved = cellRecord.reserved ∧
    v.data.length ≤ maxVLR ∧ v.recordSize.toNat ≤ v.data.length

/-- The records `vs` hold the group `g`. -/
structure Holds (g : Grp) (vs : List VLR) : Prop where
  plain : ∀ v ∈ vs, Plain v
  exact : g.size ≤ maxVLR → ∀ v ∈ vs, v.recordSize.toNat = v.data.length
  data : ∃ v rs b0 cs pad, vs = v :: rs ∧ recordBytesOf v = some b0 ∧ List.Forall₂ (fun v c => recordBytesOf v = some c ∧ c ≠ []) rs cs ∧
    b0 ++ cs.flatten = g.bytes ++ pad ∧ (rs ≠ [] → pad = []) ∧ 24 ≤ b0.length ∧ (g.size ≤ maxVLR → rs = [])

/-- The state of the output for a group that is not finished. -/
structure Cur (o : Out) (g : Grp) : Prop where
  first : o.first = false
  ready : o.ready = decide (g.cells ≠ [])
  size : o.size = g.size
  points : o.points = g.points % 2 ^ 32
  fits : g.size ≤ maxVLR
  data : ∃ t, o.data = g.bytes ++ t ∧ o.data.length = maxVLR

theorem split4 {d : List Byte} {n : Nat} (h : 4 + n ≤ d.length) : ∃ a t, d = a ++ t ∧ a.length = 4 ∧ n ≤ t.length :=
  ⟨d.take 4, d.drop 4, by simp, by simp; omega, by simp; omega⟩

theorem frame_split {d : List Byte} (h : 24 ≤ d.length) : ∃ a b c e f k t, d = a ++ (b ++ (c ++ (e ++ (f ++ (k ++ t))))) ∧
    a.length = 4 ∧ b.length = 4 ∧ c.length = 4 ∧ e.length = 4 ∧ f.length = 4 ∧ k.length = 4 := by
  obtain ⟨a, d, rfl, ha, h⟩ := split4 (n := 20) h
  obtain ⟨b, d, rfl, hb, h⟩ := split4 (n := 16) h
  obtain ⟨c, d, rfl, hc, h⟩ := split4 (n := 12) h
  obtain ⟨e, d, rfl, he, h⟩ := split4 (n := 8) h
  obtain ⟨f, d, rfl, hf, h⟩ := split4 (n := 4) h
  obtain ⟨k, d, rfl, hk, h⟩ := split4 (n := 0) h
  exact ⟨a, b, c, e, f, k, d, rfl, ha, hb, hc, he, hf, hk⟩

theorem resize_length (b : List Byte) (n : Nat) : (resize b n).length = n := by
  unfold resize; simp; omega

theorem poke0 {a r bs : List Byte} (ha : a.length = 4) (h : bs.length = 4) : poke (a ++ r) 0 bs = .ok (bs ++ r) :=
  poke_at (a := []) (b := a) (c := r) (by simp) rfl (by omega)
theorem poke4 {a b r bs : List Byte} (ha : a.length = 4) (hb : b.length = 4) (h : bs.length = 4) :
    poke (a ++ (b ++ r)) 4 bs = .ok (a ++ (bs ++ r)) := poke_at rfl ha (by omega)
theorem poke8 {a b c r bs : List Byte} (ha : a.length = 4) (hb : b.length = 4) (hc : c.length = 4) (h : bs.length = 4) :
    poke (a ++ (b ++ (c ++ r))) 8 bs = .ok (a ++ (b ++ (bs ++ r))) := by
  rw [poke_at (a := a ++ b) (b := c) (c := r) (by simp) (by simp; omega) (by omega)]; simp
theorem poke12 {a b c d r bs : List Byte} (ha : a.length = 4) (hb : b.length = 4) (hc : c.length = 4) (hd : d.length = 4)
    (h : bs.length = 4) : poke (a ++ (b ++ (c ++ (d ++ r)))) 12 bs = .ok (a ++ (b ++ (c ++ (bs ++ r)))) := by
  rw [poke_at (a := a ++ b ++ c) (b := d) (c := r) (by simp) (by simp; omega) (by omega)]; simp
theorem poke16 {a b c d e r bs : List Byte} (ha : a.length = 4) (hb : b.length = 4) (hc : c.length = 4) (hd : d.length = 4)
    (he : e.length = 4) (h : bs.length = 4) :
    poke (a ++ (b ++ (c ++ (d ++ (e ++ r))))) 16 bs = .ok (a ++ (b ++ (c ++ (d ++ (bs ++ r))))) := by
  rw [poke_at (a := a ++ b ++ c ++ d) (b := e) (c := r) (by simp) (by simp; omega) (by omega)]; simp
theorem poke20 {a b c d e f r bs : List Byte} (ha : a.length = 4) (hb : b.length = 4) (hc : c.length = 4) (hd : d.length = 4)
    (he : e.length = 4) (hf : f.length = 4) (h : bs.length = 4) :
    poke (a ++ (b ++ (c ++ (d ++ (e ++ (f ++ r)))))) 20 bs = .ok (a ++ (b ++ (c ++ (d ++ (e ++ (bs ++ r)))))) := by
  rw [poke_at (a := a ++ b ++ c ++ d ++ e) (b := f) (c := r) (by simp) (by simp; omega) (by omega)]; simp

theorem init_ok (o : Out) (x y : Nat) : ∃ o', o.init x y = .ok o' ∧ Cur o' ⟨(x, y), (x, y), []⟩ ∧ o'.vlrs = o.vlrs := by
  obtain ⟨a, b, c, e, f, k, t, hd, ha, hb, hc, he, hf, hk⟩ := frame_split (d := resize o.data maxVLR) (by rw [resize_length]; decide)
  have hl := resize_length o.data maxVLR
  rw [hd] at hl
  have hp := put32_length
  unfold Out.init
  simp only [hd, poke0 ha (hp _), poke4 (hp _) hb (hp _), poke8 (hp _) (hp _) hc (hp _), poke12 (hp _) (hp _) (hp _) he (hp _),
    poke16 (hp _) (hp _) (hp _) (hp _) hf (hp _), poke20 (hp _) (hp _) (hp _) (hp _) (hp _) hk (hp _), Outcome.bind_ok]
  refine ⟨_, rfl, ⟨rfl, rfl, rfl, rfl, by simp [Grp.size, Grp.body, maxVLR], t, ?_, ?_⟩, rfl⟩
  · simp [Grp.bytes, Grp.frame, Grp.body, Grp.size, Grp.points]
  · simp [put32_length] at hl ⊢; omega

theorem points_snoc (f l : Nat × Nat) (cs : List ((Nat × Nat) × Cell)) (e : (Nat × Nat) × Cell) :
    (Grp.mk f l (cs ++ [e])).points = (Grp.mk f l cs).points + e.2.numPoints := by simp [Grp.points]
theorem body_snoc (f l f' l' : Nat × Nat) (cs : List ((Nat × Nat) × Cell)) (e : (Nat × Nat) × Cell) :
    (Grp.mk f l (cs ++ [e])).body = (Grp.mk f' l' cs).body ++ cellBytes e.1.1 e.1.2 e.2 := by simp [Grp.body]

/-- The state of the output after the number of points has been raised for the next cell. -/
structure Raised (o : Out) (g : Grp) (n : Nat) : Prop where
  first : o.first = false
  ready : o.ready = decide (g.cells ≠ [])
  size : o.size = g.size
  points : o.points = (g.points + n) % 2 ^ 32
  fits : g.size ≤ maxVLR
  data : ∃ t, o.data = g.bytes ++ t ∧ o.data.length = maxVLR

theorem append_ok {o : Out} {g : Grp} (e : (Nat × Nat) × Cell) (h : Raised o g e.2.numPoints)
    (hf : Grouping.entryLen e + g.size ≤ maxVLR) :
    ∃ o', o.append e.1.1 e.1.2 (cellBytes e.1.1 e.1.2 e.2) = .ok o' ∧ Cur o' ⟨g.first, e.1, g.cells ++ [e]⟩ ∧ o'.vlrs = o.vlrs := by
  obtain ⟨t, hd, hl⟩ := h.data
  have hp := put32_length
  have hlen : (cellBytes e.1.1 e.1.2 e.2).length = Grouping.entryLen e := rfl
  have hb := g.bytes_length
  rw [hd] at hl
  have hsz : (Grp.mk g.first e.1 (g.cells ++ [e])).size = g.size + Grouping.entryLen e := by
    unfold Grp.size
    rw [body_snoc _ _ g.first g.last, List.length_append, hlen]
    show 24 + (g.body.length + _) = _
    omega
  generalize hbs : cellBytes e.1.1 e.1.2 e.2 = bs at *
  have hd' : o.data = put32 g.first.1 ++ (put32 g.first.2 ++ (put32 g.last.1 ++ (put32 g.last.2 ++ (put32 g.size ++
      (put32 (g.points % 2 ^ 32) ++ (g.body ++ t)))))) := by
    rw [hd]; simp [Grp.bytes, Grp.frame]
  unfold Out.append
  simp only [hd', poke8 (hp _) (hp _) (hp _) (hp _), poke12 (hp _) (hp _) (hp _) (hp _) (hp _),
    poke16 (hp _) (hp _) (hp _) (hp _) (hp _) (hp _), poke20 (hp _) (hp _) (hp _) (hp _) (hp _) (hp _) (hp _), Outcome.bind_ok]
  have ht : bs.length ≤ t.length := by simp at hl; omega
  rw [poke_at (a := put32 g.first.1 ++ (put32 g.first.2 ++ (put32 e.1.1 ++ (put32 e.1.2 ++ (put32 (o.size + bs.length) ++
      (put32 o.points ++ g.body)))))) (b := t.take bs.length) (c := t.drop bs.length) (bs := bs)
      (by simp) (by simp [hp, h.size, Grp.size]; omega) (by simp; omega)]
  refine ⟨_, rfl, ⟨h.first, by simp, ?_, ?_, ?_, t.drop bs.length, ?_, ?_⟩, rfl⟩
  · show o.size + bs.length = _
    rw [hsz, h.size, hlen]
  · show o.points = _
    rw [h.points, points_snoc]; rfl
  · rw [hsz]; omega
  · show put32 g.first.1 ++ _ ++ _ = _
    unfold Grp.bytes Grp.frame
    rw [hsz, points_snoc, body_snoc _ _ g.first g.last, hbs, h.points, h.size, hlen]
    simp only [List.append_assoc]; rfl
  · show (put32 g.first.1 ++ _ ++ _).length = _
    have hb' : g.bytes.length = 24 + g.body.length := hb
    simp only [List.length_append] at hl
    simp [hp]
    omega

/-- What a record of a length and data gives. -/
def mkRecord (d : List Byte) (n : Nat) : VLR :=
  { cellRecord with
    recordSize := BitVec.ofNat 16 n
    data := d }

theorem emit_vlrs (o : Out) (d : List Byte) (n : Nat) : (o.emit d n).vlrs = o.vlrs ++ [mkRecord d n] := rfl

theorem record_plain {d : List Byte} {n : Nat} (h1 : d.length ≤ maxVLR) (h2 : n ≤ d.length) : Plain (mkRecord d n) := by
  refine ⟨rfl, rfl, rfl, rfl, h1, ?_⟩
  show (BitVec.ofNat 16 n).toNat ≤ _
  rw [BitVec.toNat_ofNat]
  exact (Nat.mod_le _ _).trans h2

theorem record_size {d : List Byte} {n : Nat} (h : n ≤ maxVLR) : (mkRecord d n).recordSize.toNat = n := by
  show (BitVec.ofNat 16 n).toNat = _
  rw [BitVec.toNat_ofNat]
  exact Nat.mod_eq_of_lt (by unfold maxVLR at h; omega)

theorem record_bytes {d : List Byte} {n : Nat} (h1 : d.length ≤ maxVLR) (h2 : n ≤ d.length) :
    recordBytesOf (mkRecord d n) = some (d.take n) := by
  unfold recordBytesOf
  rw [record_size (h2.trans h1)]
  exact if_pos h2

/-- A single record with the bytes of a group and perhaps some more. -/
theorem holds_single {g : Grp} {pad : List Byte} (h : (g.bytes ++ pad).length ≤ maxVLR) :
    Holds g [mkRecord (g.bytes ++ pad) (g.bytes ++ pad).length] := by
  refine ⟨?_, ?_, ?_⟩
  · simp only [List.mem_singleton]; rintro v rfl
    exact record_plain h le_rfl
  · intro _; simp only [List.mem_singleton]; rintro v rfl
    exact record_size h
  · refine ⟨_, [], g.bytes ++ pad, [], pad, rfl, ?_, .nil, by simp, by simp, ?_, fun _ => rfl⟩
    · rw [record_bytes h le_rfl, List.take_length]
    · rw [List.length_append, g.bytes_length]; unfold Grp.size; omega

theorem resize_take {a t : List Byte} {n : Nat} (h : a.length = n) : resize (a ++ t) n = a := by
  subst h; unfold resize; simp

theorem flush_ok {done : List Grp} {o : Out} {g : Grp} (e : (Nat × Nat) × Cell) (h : Raised o g e.2.numPoints) (hn : e.2.numPoints < 2 ^ 32) :
    ∃ o' g' add, o.flush e.1.1 e.1.2 e.2.numPoints (cellBytes e.1.1 e.1.2 e.2) = .ok o' ∧ Raised o' g' e.2.numPoints ∧
      o'.vlrs = o.vlrs ++ add ∧
      ((Grouping.flush (done, g) e = (done, g') ∧ add = []) ∨ (Grouping.flush (done, g) e = (done ++ [g], g') ∧ Holds g add)) ∧
      (g'.cells = [] ∨ Grouping.entryLen e + g'.size ≤ maxVLR) := by
  have hr := h.ready
  have hsz := h.size
  unfold Out.flush Grouping.flush
  have hlen : (cellBytes e.1.1 e.1.2 e.2).length = Grouping.entryLen e := rfl
  rw [hlen]
  by_cases hc : g.cells ≠ [] ∧ Grouping.entryLen e + g.size > maxVLR
  · rw [if_pos (by rw [hr, hsz]; simpa using hc)]
    obtain ⟨t, hd, hl⟩ := h.data
    rw [hd, hsz, resize_take g.bytes_length]
    obtain ⟨o1, h1, c1, v1⟩ := init_ok (({ o with data := g.bytes, size := g.size }).emit g.bytes g.size) e.1.1 e.1.2
    rw [h1]
    refine ⟨_, ⟨e.1, e.1, []⟩, [mkRecord g.bytes g.size], rfl, ⟨c1.first, c1.ready, c1.size, ?_, c1.fits, c1.data⟩, ?_,
      Or.inr ⟨by simp only [if_pos hc], ?_⟩, Or.inl rfl⟩
    · show e.2.numPoints = (0 + e.2.numPoints) % 2 ^ 32
      rw [Nat.zero_add, Nat.mod_eq_of_lt hn]
    · show o1.vlrs = _
      rw [v1]; rfl
    · have := holds_single (g := g) (pad := []) (by rw [List.append_nil, g.bytes_length]; exact h.fits)
      rwa [List.append_nil, g.bytes_length] at this
  · rw [if_neg (by rw [hr, hsz]; simpa using hc)]
    refine ⟨o, g, [], rfl, h, by simp, Or.inl ⟨by simp only [if_neg hc], rfl⟩, ?_⟩
    by_cases h0 : g.cells = []
    · exact Or.inl h0
    · right; by_contra h1; exact hc ⟨h0, by omega⟩

theorem rest_ok : ∀ (fuel : Nat) (bs : List Byte) (o : Out), bs.length ≤ fuel → o.data.length = maxVLR →
    ∃ o' add cs, Out.rest fuel o bs = .ok o' ∧ o'.vlrs = o.vlrs ++ add ∧
      List.Forall₂ (fun v c => recordBytesOf v = some c ∧ c ≠ []) add cs ∧ cs.flatten = bs ∧ ∀ v ∈ add, Plain v := by
  intro fuel
  induction fuel with
  | zero =>
    intro bs o h hd
    have : bs = [] := List.eq_nil_of_length_eq_zero (by omega)
    subst this
    exact ⟨o, [], [], rfl, by simp, .nil, rfl, by simp⟩
  | succ fuel ih =>
    intro bs o h hd
    cases bs with
    | nil => exact ⟨o, [], [], rfl, by simp, .nil, rfl, by simp⟩
    | cons b bs =>
      have hn : 0 < min (b :: bs).length maxVLR := by unfold maxVLR; simp
      have hn2 : min (b :: bs).length maxVLR ≤ (b :: bs).length := min_le_left _ _
      have hn3 : min (b :: bs).length maxVLR ≤ maxVLR := min_le_right _ _
      show ∃ o' add cs, (poke o.data 0 ((b :: bs).take (min (b :: bs).length maxVLR)) >>= fun d =>
        Out.rest fuel ({ o with data := d }.emit d (min (b :: bs).length maxVLR)) ((b :: bs).drop (min (b :: bs).length maxVLR))) = .ok o' ∧ _
      generalize min (b :: bs).length maxVLR = n at *
      generalize b :: bs = l at *
      have hlt : (l.take n).length = n := by simp; omega
      rw [poke_at (pos := 0) (bs := l.take n) (a := []) (b := o.data.take n) (c := o.data.drop n) (by simp) rfl (by simp; omega)]
      simp only [Outcome.bind_ok, List.nil_append]
      have hdl : (l.take n ++ o.data.drop n).length = maxVLR := by simp; omega
      obtain ⟨o', add, cs, h1, h2, h3, h4, h5⟩ := ih (l.drop n) ({ o with data := l.take n ++ o.data.drop n }.emit (l.take n ++ o.data.drop n) n)
        (by simp; omega) hdl
      refine ⟨o', mkRecord (l.take n ++ o.data.drop n) n :: add, l.take n :: cs, h1, ?_, .cons ⟨?_, ?_⟩ h3, ?_, ?_⟩
      · rw [h2]; simp [Out.emit, mkRecord]
      · rw [record_bytes (by omega) (by omega), List.take_left' hlt]
      · intro h0; rw [h0] at hlt; simp at hlt; omega
      · rw [List.flatten_cons, h4, List.take_append_drop]
      · intro v hv
        rcases List.mem_cons.1 hv with rfl | hv
        · exact record_plain (by omega) (by omega)
        · exact h5 v hv

theorem long_ok {o : Out} {g : Grp} (e : (Nat × Nat) × Cell) (h : Raised o g e.2.numPoints) (h0 : g.cells = [])
    (hf : maxVLR < Grouping.entryLen e + g.size) :
    ∃ o' add, o.long (cellBytes e.1.1 e.1.2 e.2) = .ok o' ∧ o'.first = true ∧ o'.ready = false ∧ o'.vlrs = o.vlrs ++ add ∧
      Holds ⟨g.first, g.last, [e]⟩ add := by
  obtain ⟨t, hd, hl⟩ := h.data
  have hp := put32_length
  have hlen : (cellBytes e.1.1 e.1.2 e.2).length = Grouping.entryLen e := rfl
  have hbody : g.body = [] := by unfold Grp.body; rw [h0]; rfl
  have hg : g.size = 24 := by unfold Grp.size; rw [hbody]; rfl
  have hgp : g.points = 0 := by unfold Grp.points; rw [h0]; rfl
  have hos : o.size = 24 := by rw [h.size, hg]
  have hop : o.points = e.2.numPoints % 2 ^ 32 := by rw [h.points, hgp, Nat.zero_add]
  generalize hbs : cellBytes e.1.1 e.1.2 e.2 = bs at *
  have hd' : o.data = put32 g.first.1 ++ (put32 g.first.2 ++ (put32 g.last.1 ++ (put32 g.last.2 ++ (put32 g.size ++
      (put32 (g.points % 2 ^ 32) ++ t))))) := by
    rw [hd]; simp [Grp.bytes, Grp.frame, hbody]
  have ht : t.length = maxVLR - 24 := by
    rw [hd'] at hl
    simp [hp] at hl; omega
  rw [hg] at hf
  unfold Out.long
  rw [if_neg (by simpa using hl)]
  simp only [hd', hos, hop, poke16 (hp _) (hp _) (hp _) (hp _) (hp _) (hp _), poke20 (hp _) (hp _) (hp _) (hp _) (hp _) (hp _) (hp _), Outcome.bind_ok]
  have hmx : maxVLR = 65535 := rfl
  have htake : (bs.take (maxVLR - 24)).length = maxVLR - 24 := by simp; omega
  rw [poke_at (a := put32 g.first.1 ++ (put32 g.first.2 ++ (put32 g.last.1 ++ (put32 g.last.2 ++ (put32 (24 + bs.length) ++
      (put32 (e.2.numPoints % 2 ^ 32)))))))
      (b := t) (c := []) (bs := bs.take (maxVLR - 24)) (by simp) (by simp [hp]) (by omega)]
  simp only [Outcome.bind_ok]
  set G : Grp := ⟨g.first, g.last, [e]⟩ with hG
  have hGb : G.body = bs := by simp [hG, Grp.body, hbs]
  have hGs : G.size = 24 + bs.length := by unfold Grp.size; rw [hGb]
  have hGf : put32 g.first.1 ++ (put32 g.first.2 ++ (put32 g.last.1 ++ (put32 g.last.2 ++ (put32 (24 + bs.length) ++
      (put32 (e.2.numPoints % 2 ^ 32)))))) = Grp.frame G.first G.last G.size (G.points % 2 ^ 32) := by
    unfold Grp.frame
    rw [hGs]
    simp [hG, Grp.points]
  rw [hGf, List.append_nil]
  set F := Grp.frame G.first G.last G.size (G.points % 2 ^ 32) with hF
  have hFl : F.length = 24 := Grp.frame_length _ _ _ _
  have hbl : (F ++ bs.take (maxVLR - 24)).length = maxVLR := by rw [List.length_append, htake, hFl]; omega
  obtain ⟨o', add, cs, r1, r2, r3, r4, r5⟩ := rest_ok bs.length (bs.drop (maxVLR - 24))
    ({ o with data := F ++ bs.take (maxVLR - 24), size := 24 + bs.length, points := e.2.numPoints % 2 ^ 32 }.emit
      (F ++ bs.take (maxVLR - 24)) maxVLR) (by simp) hbl
  rw [r1]
  refine ⟨_, mkRecord (F ++ bs.take (maxVLR - 24)) maxVLR :: add, rfl, rfl, rfl, ?_, ?_, ?_, ?_⟩
  · show o'.vlrs = _
    rw [r2]; simp [Out.emit, mkRecord]
  · intro v hv
    rcases List.mem_cons.1 hv with rfl | hv
    · exact record_plain (by omega) (by omega)
    · exact r5 v hv
  · intro hx; omega
  · refine ⟨_, add, F ++ bs.take (maxVLR - 24), cs, [], rfl, ?_, r3, ?_, fun _ => rfl, by omega, fun hx => by omega⟩
    · rw [record_bytes (by omega) (by omega), List.take_of_length_le (by omega)]
    · rw [r4, List.append_nil]
      unfold Grp.bytes
      rw [← hF, hGb, List.append_assoc, List.take_append_drop]

/-- The records written so far hold the groups so far, and the current record holds the current group. -/
structure OutInv (o : Out) (s : Grouping) : Prop where
  recs : ∃ vss, o.vlrs = vss.flatten ∧ List.Forall₂ Holds s.done vss
  cur : match s.cur with
    | none => o.first = true ∧ o.ready = false
    | some g => Cur o g

theorem recs_snoc {o o' : Out} {done : List Grp} {g : Grp} {add : List VLR} (h : ∃ vss, o.vlrs = vss.flatten ∧ List.Forall₂ Holds done vss)
    (hv : o'.vlrs = o.vlrs ++ add) (hg : Holds g add) : ∃ vss, o'.vlrs = vss.flatten ∧ List.Forall₂ Holds (done ++ [g]) vss := by
  obtain ⟨vss, h1, h2⟩ := h
  refine ⟨vss ++ [add], by rw [hv, h1]; simp, ?_⟩
  exact List.rel_append h2 (.cons hg .nil)

theorem cell_ok {o : Out} {s : Grouping} (h : OutInv o s) (e : (Nat × Nat) × Cell) (hn : e.2.numPoints < 2 ^ 32) :
    ∃ o', o.cell e.1.1 e.1.2 e.2 = .ok o' ∧ OutInv o' (s.step e) := by
  have hinit : ∃ o1, o.begin e.1.1 e.1.2 = .ok o1 ∧ Cur o1 (s.cur.getD ⟨e.1, e.1, []⟩) ∧ o1.vlrs = o.vlrs := by
    have hc := h.cur
    unfold Out.begin
    cases hs : s.cur with
    | none =>
      rw [hs] at hc
      rw [if_pos hc.1]
      obtain ⟨o1, a1, a2, a3⟩ := init_ok o e.1.1 e.1.2
      exact ⟨o1, a1, a2, a3⟩
    | some g =>
      rw [hs] at hc
      have hc : Cur o g := hc
      rw [if_neg (by rw [hc.first]; simp)]
      exact ⟨o, rfl, hc, rfl⟩
  obtain ⟨o1, a1, a2, a3⟩ := hinit
  unfold Out.cell Grouping.step
  rw [a1]
  simp only [Outcome.bind_ok]
  generalize s.cur.getD ⟨e.1, e.1, []⟩ = g at *
  have hrec : ∃ vss, o1.vlrs = vss.flatten ∧ List.Forall₂ Holds s.done vss := by rw [a3]; exact h.recs
  by_cases h0 : e.2.numPoints = 0
  · rw [if_neg (by simpa using h0), if_pos h0]
    exact ⟨o1, rfl, hrec, a2⟩
  · rw [if_pos h0, if_neg h0]
    have hraise : Raised { o1 with points := (o1.points + e.2.numPoints) % 2 ^ 32 } g e.2.numPoints :=
      ⟨a2.first, a2.ready, a2.size, by show (o1.points + _) % _ = _; rw [a2.points]; omega, a2.fits, a2.data⟩
    obtain ⟨o2, g2, add, b1, b2, b3, b4, b5⟩ := flush_ok (done := s.done) e hraise hn
    rw [b1]
    simp only [Outcome.bind_ok]
    have hfl : ∃ d2, Grouping.flush (s.done, g) e = (d2, g2) ∧ ∃ vss, o2.vlrs = vss.flatten ∧ List.Forall₂ Holds d2 vss := by
      rcases b4 with ⟨c1, c2⟩ | ⟨c1, c2⟩
      · refine ⟨_, c1, ?_⟩
        rw [b3, c2, List.append_nil]
        exact hrec
      · exact ⟨_, c1, recs_snoc (o := o1) hrec b3 c2⟩
    obtain ⟨d2, f1, f2⟩ := hfl
    rw [f1]
    unfold Grouping.add
    have hsz : o2.size = g2.size := b2.size
    have hlen : (cellBytes e.1.1 e.1.2 e.2).length = Grouping.entryLen e := rfl
    rw [hlen, hsz]
    by_cases hfit : Grouping.entryLen e + g2.size ≤ maxVLR
    · rw [if_pos hfit]
      simp only [if_pos hfit]
      obtain ⟨o3, c1, c2, c3⟩ := append_ok e b2 hfit
      exact ⟨o3, c1, by rw [c3]; exact f2, c2⟩
    · rw [if_neg hfit]
      simp only [if_neg hfit]
      obtain ⟨o3, add', c1, c2, c3, c4, c5⟩ := long_ok e b2 (b5.resolve_right hfit) (by omega)
      exact ⟨o3, c1, recs_snoc f2 c4 c5, c2, c3⟩

theorem cells_ok (cs : List ((Nat × Nat) × Cell)) : ∀ {o : Out} {s : Grouping}, OutInv o s → (∀ e ∈ cs, e.2.numPoints < 2 ^ 32) →
    ∃ o', o.cells cs = .ok o' ∧ OutInv o' (cs.foldl Grouping.step s) := by
  induction cs with
  | nil => intro o s h _; exact ⟨o, rfl, h⟩
  | cons e cs ih =>
    intro o s h hn
    obtain ⟨o1, h1, h2⟩ := cell_ok h e (hn e (by simp))
    obtain ⟨o2, h3, h4⟩ := ih h2 fun e he => hn e (by simp [he])
    exact ⟨o2, by show (o.cell _ _ _ >>= fun o => o.cells cs) = _; rw [h1]; exact h3, h4⟩

theorem finish_ok {o : Out} {s : Grouping} (h : OutInv o s) : ∃ vss, o.finish.vlrs = vss.flatten ∧ List.Forall₂ Holds s.finish vss := by
  have hc := h.cur
  unfold Out.finish Grouping.finish
  cases hs : s.cur with
  | none =>
    rw [hs] at hc
    rw [if_neg (by rw [hc.2]; simp)]
    exact h.recs
  | some g =>
    rw [hs] at hc
    have hc : Cur o g := hc
    by_cases h0 : g.cells = []
    · rw [if_neg (by rw [hc.ready]; simp [h0])]
      simp only [if_pos h0]
      exact h.recs
    · rw [if_pos (by rw [hc.ready]; simp [h0])]
      simp only [if_neg h0]
      obtain ⟨t, hd, hl⟩ := hc.data
      have hb := g.bytes_length
      rw [hc.size]
      refine recs_snoc h.recs (emit_vlrs _ _ _) ?_
      by_cases hp : g.size % 4 ≠ 0 ∧ g.size + g.size % 4 ≤ maxVLR
      · simp only [if_pos hp]
        rw [hd, List.take_left' hb]
        have hx : (g.bytes ++ List.replicate (g.size % 4) 0#8).length = g.size + g.size % 4 := by simp [hb]
        rw [resize_take hx]
        have := holds_single (g := g) (pad := List.replicate (g.size % 4) 0#8) (by rw [hx]; exact hp.2)
        rwa [hx] at this
      · simp only [if_neg hp]
        rw [hd, resize_take hb]
        have := holds_single (g := g) (pad := []) (by rw [List.append_nil, hb]; exact hc.fits)
        rwa [List.append_nil, hb] at this

/-- The data records of an index hold its groups. -/
theorem output_groups {cs : List ((Nat × Nat) × Cell)} (hn : ∀ e ∈ cs, e.2.numPoints < 2 ^ 32) :
    ∃ vss, outputIndex cs = .ok vss.flatten ∧ List.Forall₂ Holds (groups cs) vss := by
  have h0 : OutInv Out.start Grouping.start := ⟨⟨[], rfl, .nil⟩, rfl, rfl⟩
  obtain ⟨o, h1, h2⟩ := cells_ok cs h0 hn
  obtain ⟨vss, h3, h4⟩ := finish_ok h2
  refine ⟨vss, ?_, h4⟩
  unfold outputIndex
  rw [h1]
  show Outcome.ok o.finish.vlrs = _
  rw [h3]

/-- The groups hold the cells with points, in order. -/
theorem groups_cells (cs : List ((Nat × Nat) × Cell)) : (groups cs).flatMap Grp.cells = cs.filter fun e => decide (e.2.numPoints ≠ 0) := by
  have step : ∀ (s : Grouping) (e : (Nat × Nat) × Cell), (s.step e).finish.flatMap Grp.cells =
      s.finish.flatMap Grp.cells ++ if e.2.numPoints = 0 then [] else [e] := by
    intro s e
    have hfin : ∀ (d : List Grp) (g : Grp), (Grouping.mk d (some g)).finish.flatMap Grp.cells = d.flatMap Grp.cells ++ g.cells := by
      intro d g
      unfold Grouping.finish
      simp only
      split
      · rename_i h; rw [h, List.append_nil]
      · simp
    have hcur : s.finish.flatMap Grp.cells = s.done.flatMap Grp.cells ++ (s.cur.getD ⟨e.1, e.1, []⟩).cells := by
      cases hs : s.cur with
      | none => unfold Grouping.finish; rw [hs]; simp
      | some g =>
        have := hfin s.done g
        rw [← hs] at this
        rw [show s = ⟨s.done, s.cur⟩ from rfl, this, hs]; rfl
    rw [hcur]
    unfold Grouping.step
    generalize s.cur.getD ⟨e.1, e.1, []⟩ = g
    simp only
    split
    · rw [hfin]; simp
    · have hfl : ∀ d, (Grouping.flush (d, g) e).1.flatMap Grp.cells ++ (Grouping.flush (d, g) e).2.cells = d.flatMap Grp.cells ++ g.cells ∧
          ((Grouping.flush (d, g) e).2.cells ≠ [] → Grouping.entryLen e + (Grouping.flush (d, g) e).2.size ≤ maxVLR) := by
        intro d
        unfold Grouping.flush
        simp only
        split
        · simp
        · rename_i h
          refine ⟨by simp, fun h1 => ?_⟩
          by_contra h2
          exact h ⟨h1, by simp only [] at h2 ⊢; omega⟩
      obtain ⟨k1, k2⟩ := hfl s.done
      rw [← k1]
      generalize Grouping.flush (s.done, g) e = r at *
      unfold Grouping.add
      split
      · rw [hfin]; simp
      · rename_i h
        have : r.2.cells = [] := by by_contra h1; exact h (k2 h1)
        simp [Grouping.finish, this]
  have all : ∀ (cs : List ((Nat × Nat) × Cell)) (s : Grouping), (cs.foldl Grouping.step s).finish.flatMap Grp.cells =
      s.finish.flatMap Grp.cells ++ cs.filter fun e => decide (e.2.numPoints ≠ 0) := by
    intro cs
    induction cs with
    | nil => intro s; simp
    | cons e cs ih =>
      intro s
      rw [List.foldl_cons, ih, step]
      by_cases h : e.2.numPoints = 0
      · simp [h]
      · simp [h]
  have := all cs Grouping.start
  unfold groups
  rw [this]
  rfl

end LibLAS.Index
