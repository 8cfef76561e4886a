import Verif.Model.Las2col
import Verif.Spec.Las2col
import Verif.Props.Las2pg
import Verif.Props.Las2colThreads
/-
C83: the column files of las2col.
-/
namespace LibLAS.Las2col
open Spec Spec.Dump Point
open Las2pg (mem accepted passes)

theorem mem_length {w : Nat} (n : Nat) (v : BitVec w) : (mem n v).length = n := leBytes_length n v

theorem leNat_mem {w : Nat} (n : Nat) (v : BitVec w) : leNat (mem n v) = v.toNat % 256 ^ n := leNat_leBytes n v

theorem codeCol_eq (x y : BitVec 32) (fx fy : Int) :
    Morton.codeCol x y fx fy = Morton.encode (BitVec.ofInt 32 (x.toInt + fx)) (BitVec.ofInt 32 (y.toInt + fy)) := by
  have wrap : ∀ r f : Int, BitVec.ofInt 32 (r + (BitVec.ofInt 32 f).toNat) = BitVec.ofInt 32 (r + f) := by
    intro r f
    rw [BitVec.ofInt_add, BitVec.ofInt_add]
    congr 1
    apply BitVec.eq_of_toNat_eq
    simp
    omega
  rw [Morton.codeCol, wrap, wrap]

theorem size_width {c : Char} (hc : c ∈ letters) : size c = width c := by
  revert c; decide

theorem toInt32_whole {x : Fl} {t : Int} (h : Whole x t) (h0 : -(2 ^ 31) ≤ t) (h1 : t < 2 ^ 31) : Fl.toInt32 x = .ok (BitVec.ofInt 32 t) := by
  obtain ⟨q, rfl, -⟩ := id h
  rw [Fl.toInt32, Las2pg.cut_whole h, if_pos (by constructor <;> omega)]

theorem angle (v : Byte) : (leNat (mem 1 v) : Int) = v.toInt % 256 ^ (mem 1 v).length := by
  rw [leNat_mem, mem_length]
  revert v
  decide

theorem element_ok (b : Build) {fx fy : Int} {index : BitVec 32} {row : Nat} {h : PHeader} {p : List Byte} (hw : (⟨p, h⟩ : Point).WF)
    (hox : Proper h.offset.x) (hoy : Proper h.offset.y) (hoz : Proper h.offset.z) {c : Char} (hc : c ∈ letters)
    (hM : index.toNat = row) (hfit : Fits b h p c) :
    ∃ v bs, element b fx fy index ⟨p, h⟩ c = .ok bs ∧ ColValue b h p fx fy row c v ∧ Little v bs ∧ bs.length = width c := by
  have ho := observe_eq (b := b) hw
  generalize view b (Point.hdr ⟨p, h⟩).fmt (Point.data ⟨p, h⟩) = a at ho
  obtain ⟨e1, e2, e3, e4, ⟨v5, e5, h5⟩, ⟨v6, e6, h6⟩, ⟨v7, e7, h7⟩, ⟨v8, e8, h8⟩, e9, e10, e11, e12, e13, e14⟩ :=
    Point.observe_inv ho
  have ex : getX b ⟨p, h⟩ = .ok (scaled a.rawX h.scale.x h.offset.x) := by unfold getX; rw [e1]; rfl
  have ey : getY b ⟨p, h⟩ = .ok (scaled a.rawY h.scale.y h.offset.y) := by unfold getY; rw [e2]; rfl
  have ez : getZ b ⟨p, h⟩ = .ok (scaled a.rawZ h.scale.z h.offset.z) := by unfold getZ; rw [e3]; rfl
  have val : ∀ {c v}, means a (scaled a.rawX h.scale.x h.offset.x) (scaled a.rawY h.scale.y h.offset.y) (scaled a.rawZ h.scale.z h.offset.z) fx fy row c =
      some v → Value b h p fx fy row c v := fun hv => ⟨a, _, _, _, ho, ex, ey, ez, hv⟩
  have real : ∀ x : Fl, Proper x → Little (.real x) (mem 8 x.toBits) := by
    intro x hx
    show Fl.ofBits (BitVec.ofNat 64 (leNat (mem 8 x.toBits))) = x
    rw [leNat_mem, Nat.mod_eq_of_lt (show x.toBits.toNat < 256 ^ 8 from x.toBits.isLt), BitVec.ofNat_toNat, BitVec.setWidth_eq, bits_proper hx]
  have nat : ∀ {w : Nat} (k : Nat) (v : BitVec w) (n : Nat), v.toNat = n → Little (.int n) (mem k v) := by
    intro w k v n hn
    show (leNat (mem k v) : Int) = _
    rw [leNat_mem, mem_length, hn]
    push_cast; rfl
  have cut : ∀ (t : Int), -(2 ^ 31) ≤ t → t < 2 ^ 31 → Little (.int t) (mem 4 (BitVec.ofInt 32 t)) := by
    intro t h0 h1
    show (leNat (mem 4 (BitVec.ofInt 32 t)) : Int) = _
    rw [leNat_mem, mem_length, BitVec.toNat_ofInt]
    omega
  simp only [letters, alphabet, List.mem_append, List.mem_cons, List.not_mem_nil, or_false] at hc
  rcases hc with (rfl | rfl | rfl) | rfl | rfl | rfl | rfl | rfl | rfl | rfl | rfl | rfl | rfl | rfl | rfl | rfl | rfl | rfl | rfl | rfl | rfl
  · obtain ⟨t, ⟨x, t', hx, hwh, ht⟩, h0, h1⟩ := hfit (by simp)
    cases ht
    exact ⟨_, _, by rw [element, hx, Outcome.bind_ok, toInt32_whole hwh h0 h1]; rfl, ⟨x, t, hx, hwh, rfl⟩, cut t h0 h1, mem_length _ _⟩
  · obtain ⟨t, ⟨x, t', hx, hwh, ht⟩, h0, h1⟩ := hfit (by simp)
    cases ht
    exact ⟨_, _, by rw [element, hx, Outcome.bind_ok, toInt32_whole hwh h0 h1]; rfl, ⟨x, t, hx, hwh, rfl⟩, cut t h0 h1, mem_length _ _⟩
  · obtain ⟨t, ⟨x, t', hx, hwh, ht⟩, h0, h1⟩ := hfit (by simp)
    cases ht
    exact ⟨_, _, by rw [element, hx, Outcome.bind_ok, toInt32_whole hwh h0 h1]; rfl, ⟨x, t, hx, hwh, rfl⟩, cut t h0 h1, mem_length _ _⟩
  · exact ⟨_, _, by rw [element, ex]; rfl, val rfl, real _ (proper_scaled _ _ _ hox), mem_length _ _⟩
  · exact ⟨_, _, by rw [element, ey]; rfl, val rfl, real _ (proper_scaled _ _ _ hoy), mem_length _ _⟩
  · exact ⟨_, _, by rw [element, ez]; rfl, val rfl, real _ (proper_scaled _ _ _ hoz), mem_length _ _⟩
  · refine ⟨_, _, by rw [element, e13]; rfl, val rfl, ?_, mem_length _ _⟩
    show leNat (mem 8 a.time) = _
    rw [leNat_mem, Nat.mod_eq_of_lt (show a.time.toNat < 256 ^ 8 from a.time.isLt)]
  · exact ⟨_, _, by rw [element, e4]; rfl, val rfl, nat _ _ _ rfl, mem_length _ _⟩
  · refine ⟨_, _, by rw [element, e10]; rfl, val rfl, ?_, mem_length _ _⟩
    exact angle a.scanAngle
  · exact ⟨_, _, by rw [element, e5]; rfl, val rfl, nat _ _ _ h5, mem_length _ _⟩
  · exact ⟨_, _, by rw [element, e9]; rfl, val rfl, nat _ _ _ rfl, mem_length _ _⟩
  · exact ⟨_, _, by rw [element, e11]; rfl, val rfl, nat _ _ _ rfl, mem_length _ _⟩
  · exact ⟨_, _, by rw [element, e6]; rfl, val rfl, nat _ _ _ h6, mem_length _ _⟩
  · exact ⟨_, _, by rw [element, e14]; rfl, val rfl, nat _ _ _ rfl, mem_length _ _⟩
  · exact ⟨_, _, by rw [element, e14]; rfl, val rfl, nat _ _ _ rfl, mem_length _ _⟩
  · exact ⟨_, _, by rw [element, e14]; rfl, val rfl, nat _ _ _ rfl, mem_length _ _⟩
  · exact ⟨_, _, rfl, val rfl, nat _ _ _ hM, mem_length _ _⟩
  · exact ⟨_, _, by rw [element, e12]; rfl, val rfl, nat _ _ _ rfl, mem_length _ _⟩
  · exact ⟨_, _, by rw [element, e8]; rfl, val rfl, nat _ _ _ h8, mem_length _ _⟩
  · exact ⟨_, _, by rw [element, e7]; rfl, val rfl, nat _ _ _ h7, mem_length _ _⟩
  · refine ⟨_, _, by rw [element, e1, Outcome.bind_ok, e2]; rfl, val rfl, ?_, mem_length _ _⟩
    show Interleaves (leNat (mem 8 (Morton.codeCol a.rawX a.rawY fx fy))) _ _
    rw [leNat_mem, Nat.mod_eq_of_lt (show _ < 256 ^ 8 from (Morton.codeCol a.rawX a.rawY fx fy).isLt), codeCol_eq]
    have := Morton.encode_interleaves (BitVec.ofInt 32 (a.rawX.toInt + fx)) (BitVec.ofInt 32 (a.rawY.toInt + fy))
    have m : ∀ z : Int, (BitVec.ofInt 32 z).toNat % 2 ^ 31 = (z % 2 ^ 31).toNat := by
      intro z
      rw [BitVec.toNat_ofInt]
      omega
    rwa [m, m] at this

theorem store_map {f : Char → Outcome (List Byte)} {E B B' : Char → List Byte} {i : Nat} : ∀ parse : List Char,
    (∀ c ∈ parse, f c = .ok (E c) ∧ writeAt (B c) (i * size c) (E c) = .ok (B' c)) →
    store f i (parse.map fun c => (c, B c)) = .ok (parse.map fun c => (c, B' c))
  | [], _ => rfl
  | c :: parse, h => by
    obtain ⟨h1, h2⟩ := h c List.mem_cons_self
    simp only [List.map_cons, store]
    rw [h1, Outcome.bind_ok, h2, Outcome.bind_ok, store_map parse fun c hc => h c (List.mem_cons_of_mem _ hc)]
    rfl

theorem writeAt_next {done e rest : List Byte} {pos : Nat} (hp : done.length = pos) (hl : e.length ≤ rest.length) :
    writeAt (done ++ rest) pos e = .ok ((done ++ e) ++ rest.drop e.length) := by
  rw [writeAt, if_pos (by simp; omega), List.take_left' hp, ← List.drop_drop, List.drop_left' hp]

theorem flatten_length {n : Nat} : ∀ {l : List (List Byte)}, (∀ bs ∈ l, bs.length = n) → l.flatten.length = l.length * n
  | [], _ => by simp
  | a :: l, h => by
    rw [List.flatten_cons, List.length_append, h a List.mem_cons_self, flatten_length fun bs hb => h bs (List.mem_cons_of_mem _ hb), List.length_cons]
    ring

/-- The elements for the points, from number `row` on. -/
def Elements (b : Build) (h : PHeader) (fx fy : Int) (row : Nat) (c : Char) (ps : List (List Byte)) (values : List (List Byte)) : Prop :=
  values.length = ps.length ∧ ∀ j p bs, ps[j]? = some p → values[j]? = some bs →
    bs.length = width c ∧ ∃ v, ColValue b h p fx fy (row + j) c v ∧ Little v bs

theorem pointLoop_ok (b : Build) {skip : Bool} {parse : List Char} {fx fy : Int} {h : PHeader} (hal : ∀ c ∈ parse, c ∈ letters)
    (hox : Proper h.offset.x) (hoy : Proper h.offset.y) (hoz : Proper h.offset.z) :
    ∀ (ps : List (List Byte)) (r : Reader) (fuel : Nat) (row count : Nat) (done rest : Char → List Byte), gives r ps →
      (∀ p ∈ ps, (⟨p, h⟩ : Point).WF) → r.hdr.toP = h → ps.length < fuel → wanted skip ps = ps → (∀ p ∈ ps, ∀ c ∈ parse, Fits b h p c) →
      row + ps.length ≤ count → count < 2 ^ 32 → (∀ c ∈ parse, (done c).length = row * size c ∧ (rest c).length = (count - row) * size c) →
      ∃ values : Char → List (List Byte), pointLoop b skip fx fy fuel r (BitVec.ofNat 32 row) (parse.map fun c => (c, done c ++ rest c)) =
          .ok (parse.map fun c => (c, done c ++ ((values c).flatten ++ (rest c).drop (ps.length * size c)))) ∧
        ∀ c ∈ parse, Elements b h fx fy row c ps (values c) := by
  intro ps
  induction ps with
  | nil =>
    intro r fuel row count done rest hd _ _ hf _ _ _ _ _
    obtain ⟨k, rfl⟩ : ∃ k, fuel = k + 1 := ⟨fuel - 1, by simp at hf; omega⟩
    refine ⟨fun _ => [], ?_, fun c _ => ⟨rfl, by simp⟩⟩
    unfold pointLoop
    rcases hx : r.readNext with ⟨r', out⟩
    have h2 : r.readNext.2 = .ok false ∨ ∃ e, r.readNext.2 = .throw e := hd
    rw [hx] at h2
    dsimp only at h2
    simp only [List.flatten_nil, List.nil_append, List.length_nil, Nat.zero_mul, List.drop_zero]
    rcases h2 with rfl | ⟨e, rfl⟩ <;> rfl
  | cons p ps ih =>
    intro r fuel row count done rest hd hw hh hf hwant hfit hcount hsmall hlen
    obtain ⟨k, rfl⟩ : ∃ k, fuel = k + 1 := ⟨fuel - 1, by simp at hf; omega⟩
    obtain ⟨h1, h2, h3⟩ := hd
    have hfw := (Reader.readNext_forward r).1
    have hp := hw p List.mem_cons_self
    have hfuel : ps.length < k := by simp at hf; omega
    have hhdr : r.readNext.1.hdr.toP = h := by rw [hfw.hdr]; exact hh
    simp only [List.length_cons] at hcount
    have hacc : accepted skip ⟨p, h⟩ = .ok true ∧ wanted skip ps = ps := by
      unfold accepted
      rw [isValid_eq (b := b) hp]
      cases skip with
      | false => exact ⟨rfl, rfl⟩
      | true =>
        unfold wanted at hwant ⊢
        rw [if_pos rfl] at hwant ⊢
        have hall := List.filter_eq_self.1 hwant
        exact ⟨congrArg Outcome.ok (hall p List.mem_cons_self), List.filter_eq_self.2 fun q hq => hall q (List.mem_cons_of_mem _ hq)⟩
    have helem : ∀ c : Char, ∃ bs : List Byte, c ∈ parse → element b fx fy (BitVec.ofNat 32 row) ⟨p, h⟩ c = .ok bs ∧ bs.length = width c ∧
        ∃ v, ColValue b h p fx fy row c v ∧ Little v bs := by
      intro c
      by_cases hc : c ∈ parse
      · obtain ⟨v, bs, q1, q2, q3, q4⟩ := element_ok b (fx := fx) (fy := fy) (index := BitVec.ofNat 32 row) (row := row) hp hox hoy hoz (hal c hc)
          (by rw [BitVec.toNat_ofNat, Nat.mod_eq_of_lt (by omega)]) (hfit p List.mem_cons_self c hc)
        exact ⟨bs, fun _ => ⟨q1, q4, v, q2, q3⟩⟩
      · exact ⟨[], fun h => absurd h hc⟩
    choose E hE using helem
    have hroom : ∀ c ∈ parse, (E c).length = size c ∧ size c ≤ (rest c).length := by
      intro c hc
      obtain ⟨-, l2⟩ := hlen c hc
      refine ⟨by rw [(hE c hc).2.1, size_width (hal c hc)], ?_⟩
      rw [l2]
      obtain ⟨d, hd⟩ : ∃ d, count - row = d + 1 := ⟨count - row - 1, by omega⟩
      rw [hd, Nat.succ_mul]; omega
    have hstore := store_map (f := element b fx fy (BitVec.ofNat 32 row) ⟨p, h⟩) (E := E) (B := fun c => done c ++ rest c)
      (B' := fun c => (done c ++ E c) ++ (rest c).drop (size c)) (i := row) parse (by
        intro c hc
        obtain ⟨l1, l2⟩ := hroom c hc
        refine ⟨(hE c hc).1, ?_⟩
        have := writeAt_next (e := E c) (rest := rest c) (hlen c hc).1 (by omega)
        rwa [l1] at this)
    obtain ⟨values, e, hv⟩ := ih r.readNext.1 k (row + 1) count (fun c => done c ++ E c) (fun c => (rest c).drop (size c)) h3
      (fun q hq => hw q (List.mem_cons_of_mem _ hq)) hhdr hfuel hacc.2 (fun q hq => hfit q (List.mem_cons_of_mem _ hq)) (by omega) hsmall (by
        intro c hc
        obtain ⟨l1, l2⟩ := hlen c hc
        obtain ⟨m1, m2⟩ := hroom c hc
        refine ⟨by rw [List.length_append, l1, m1]; ring, ?_⟩
        rw [List.length_drop, l2]
        obtain ⟨d, hd⟩ : ∃ d, count - row = d + 1 := ⟨count - row - 1, by omega⟩
        rw [show count - (row + 1) = d by omega, hd, Nat.succ_mul]
        omega)
    refine ⟨fun c => E c :: values c, ?_, ?_⟩
    · unfold pointLoop
      rcases hx : r.readNext with ⟨r', out⟩
      rw [hx] at h1 h2 h3 hfw hhdr e
      dsimp only at h1 h2 h3 hfw hhdr e ⊢
      subst h1
      dsimp only
      rw [h2, hhdr, hacc.1, Outcome.bind_ok]
      simp only [Bool.not_true, Bool.false_eq_true, if_false]
      rw [BitVec.toNat_ofNat, Nat.mod_eq_of_lt (by omega), hstore, Outcome.bind_ok]
      have hi : BitVec.ofNat 32 row + 1 = BitVec.ofNat 32 (row + 1) := by
        apply BitVec.eq_of_toNat_eq; simp
      rw [hi, e]
      congr 1
      apply List.map_congr_left
      intro c _
      simp only [List.flatten_cons, List.length_cons, List.drop_drop, List.append_assoc]
      rw [show size c + ps.length * size c = (ps.length + 1) * size c by ring]
    · intro c hc
      obtain ⟨v1, v2⟩ := hv c hc
      refine ⟨by simp [v1], ?_⟩
      intro j q bs hq hb
      cases j with
      | zero =>
        simp at hq hb
        subst hq; subst hb
        exact (hE c hc).2
      | succ j =>
        have := v2 j q bs (by simpa using hq) (by simpa using hb)
        rwa [show row + 1 + j = row + (j + 1) by omega] at this

theorem getElem_arrays {parse : List Char} {B : Char → List Byte} {i : Nat} {c : Char} (h : parse[i]? = some c) :
    (match (parse.map fun c => (c, B c))[i]? with
      | some (_, values) => values
      | none => []) = B c := by
  rw [List.getElem?_map, h]; rfl

section
variable {env : Env} {today : BitVec 16 × BitVec 16} {input : List Byte} {r₀ : Reader} {ps : List (List Byte)}

/-- What is asked of options and file, for `column` and `column_complete`: one to 21 letters with a meaning, no point to be skipped, `X`, `Y` and `Z` small
enough, and whole parts of offset over scale that fit an `int64_t` (even if no Morton codes are wanted). No `--check`. -/
structure Suits (b : Build) (o : Las2pg.Opts) (r₀ : Reader) (ps : List (List Byte)) (tx ty : Int) : Prop where
  some : o.parse ≠ []
  few : o.parse.length ≤ 21
  known : ∀ c ∈ o.parse, c ∈ letters
  check : o.check = none
  none_skipped : wanted o.skipInvalid ps = ps
  fits : ∀ p ∈ ps, ∀ c ∈ o.parse, Fits b r₀.hdr.toP p c
  wholeX : Whole (Fl.div r₀.hdr.toP.offset.x r₀.hdr.toP.scale.x) tx
  wholeY : Whole (Fl.div r₀.hdr.toP.offset.y r₀.hdr.toP.scale.y) ty
  smallX : |tx| ≤ 2 ^ 61
  smallY : |ty| ≤ 2 ^ 61
  globalX : |o.global.1| ≤ 2 ^ 61
  globalY : |o.global.2| ≤ 2 ^ 61

/-- C83: the column las2col makes of a file for a letter: an element for every point that can be read, in order, then (if the file has fewer points than
its header says) what was in memory. -/
theorem column_partial (b : Build) (hi : Input env today input r₀ ps) {o : Las2pg.Opts} {tx ty : Int} (hs : Suits b o r₀ ps tx ty) (junk : Nat → Byte) :
    ∃ cols, readFile env today b o junk input = .ok cols ∧ ∀ i c, o.parse[i]? = some c →
      ∃ bytes rest, cols i = bytes ++ rest ∧ Column b r₀.hdr.toP ps (tx - o.global.1) (ty - o.global.2) c bytes ∧
        rest.length = (r₀.hdr.pointCount.toNat - ps.length) * width c := by
  have hcount := hi.count
  have h32 : r₀.hdr.pointCount.toNat < 2 ^ 32 := r₀.hdr.pointCount.isLt
  generalize hn : r₀.hdr.pointCount.toNat = n at *
  obtain ⟨values, e, hv⟩ := pointLoop_ok b (skip := o.skipInvalid) (fx := tx - o.global.1) (fy := ty - o.global.2) (h := r₀.hdr.toP) hs.known
    (proper_ofBits _) (proper_ofBits _) (proper_ofBits _) ps r₀ (r₀.size + 1) 0 n (fun _ => []) (fun c => (List.range (size c * n)).map junk) hi.points
    hi.wf rfl (by omega) hs.none_skipped hs.fits (by omega) h32 (by
      intro c hc
      refine ⟨by simp, ?_⟩
      simp [Nat.mul_comm])
  simp only [List.nil_append] at e
  refine ⟨fun i => match (o.parse.map fun c => (c, (values c).flatten ++ ((List.range (size c * n)).map junk).drop (ps.length * size c)))[i]? with
      | some (_, values) => values
      | none => [], ?_, ?_⟩
  · unfold readFile
    rw [if_neg (by
      rintro (h | h)
      · exact hs.some h
      · have := hs.few; omega), hi.opens, Outcome.bind_ok]
    dsimp only
    rw [Las2pg.factor_whole hs.wholeX hs.smallX hs.globalX, Outcome.bind_ok, Las2pg.factor_whole hs.wholeY hs.smallY hs.globalY, Outcome.bind_ok,
      hs.check, passes]
    simp only [Bool.not_true, Bool.false_eq_true, if_false]
    rw [hn, arrays, show (0 : BitVec 32) = 0#32 from rfl, e, Outcome.bind_ok]
    rfl
  · intro i c hc
    have hmem := List.mem_of_getElem? hc
    have hsz := size_width (hs.known c hmem)
    obtain ⟨v1, v2⟩ := hv c hmem
    refine ⟨(values c).flatten, ((List.range (size c * n)).map junk).drop (ps.length * size c), getElem_arrays hc, ⟨values c, rfl, v1, ?_⟩, ?_⟩
    · intro j p bs hp hb
      have := v2 j p bs hp hb
      rwa [Nat.zero_add] at this
    · rw [List.length_drop, List.length_map, List.length_range, ← hsz, Nat.sub_mul, Nat.mul_comm (size c)]

/-- **C83.** The columns of a file that has all the points its header announces: exactly one element for every point, in order. -/
theorem column_complete (b : Build) (hi : Input env today input r₀ ps) (hall : ps.length = r₀.hdr.pointCount.toNat) {o : Las2pg.Opts} {tx ty : Int}
    (hs : Suits b o r₀ ps tx ty) (junk : Nat → Byte) :
    ∃ cols, readFile env today b o junk input = .ok cols ∧ ∀ i c, o.parse[i]? = some c →
      Column b r₀.hdr.toP ps (tx - o.global.1) (ty - o.global.2) c (cols i) := by
  obtain ⟨cols, e, h⟩ := column_partial b hi hs junk
  refine ⟨cols, e, fun i c hc => ?_⟩
  obtain ⟨bytes, rest, h1, h2, h3⟩ := h i c hc
  rw [hall, Nat.sub_self, Nat.zero_mul] at h3
  rw [h1, List.length_eq_zero_iff.1 h3, List.append_nil]
  exact h2

end

/-- A column determines its elements: they have the width of the letter. -/
theorem column_unique {n : Nat} (hn : 0 < n) : ∀ {l l' : List (List Byte)}, (∀ bs ∈ l, bs.length = n) → (∀ bs ∈ l', bs.length = n) → l.flatten = l'.flatten → l = l'
  | [], [], _, _, _ => rfl
  | [], a :: l', _, h', e => by
    have h1 := congrArg List.length e
    have h2 := h' a List.mem_cons_self
    rw [List.flatten_cons, List.length_append] at h1
    simp only [List.flatten_nil, List.length_nil] at h1
    omega
  | a :: l, [], h, _, e => by
    have h1 := congrArg List.length e
    have h2 := h a List.mem_cons_self
    rw [List.flatten_cons, List.length_append] at h1
    simp only [List.flatten_nil, List.length_nil] at h1
    omega
  | a :: l, a' :: l', h, h', e => by
    rw [List.flatten_cons, List.flatten_cons] at e
    obtain ⟨e1, e2⟩ := List.append_inj e (by rw [h a List.mem_cons_self, h' a' List.mem_cons_self])
    rw [e1, column_unique hn (fun bs hb => h bs (List.mem_cons_of_mem _ hb)) (fun bs hb => h' bs (List.mem_cons_of_mem _ hb)) e2]

/-- **C83, the program.** Any number of reading threads, any schedule: when las2col returns, there is an order of the input files such that the column file
of each letter is made of the columns of the files in that order, each with one element for every point of the file. With one reading thread it
is the order of the command line. -/
theorem program_columns (env : Env) (today : BitVec 16 × BitVec 16) (b : Build) (o : Las2pg.Opts) (n threads : Nat) (hn : 0 < n) (hth : 0 < threads)
    (inputs : Nat → List Byte) (readers : Nat → Reader) (points : Nat → List (List Byte)) (tx ty : Nat → Int) (junk : Nat → Nat → Byte)
    (hi : ∀ k < n, Input env today (inputs k) (readers k) (points k)) (hall : ∀ k < n, (points k).length = (readers k).hdr.pointCount.toNat)
    (hs : ∀ k < n, Suits b o (readers k) (points k) (tx k) (ty k))
    (sched : List Choice) (s : St)
    (h : Threads.Reaches ⟨n, threads, o.parse.length, fun k => readFile env today b o (junk k) (inputs k)⟩ sched s) (he : Threads.Finished s) :
    ∃ order : List Nat, order.Perm (List.range n) ∧ (threads = 1 → order = List.range n) ∧
      ∀ i c, o.parse[i]? = some c → ∃ column : Nat → List Byte, s.out i = (order.map column).flatten ∧
        ∀ k < n, Column b (readers k).hdr.toP (points k) (tx k - o.global.1) (ty k - o.global.2) c (column k) := by
  have hsens : Threads.Sensible ⟨n, threads, o.parse.length, fun k => readFile env today b o (junk k) (inputs k)⟩ := ⟨hn, hth, by
    intro k hk
    obtain ⟨cols, e, -⟩ := column_complete b (hi k hk) (hall k hk) (hs k hk) (junk k)
    dsimp only
    rw [e]
    intro hx; cases hx⟩
  obtain ⟨order, hperm, hone, hholds⟩ : ∃ order : List Nat, order.Perm (List.range n) ∧ (threads = 1 → order = List.range n) ∧
      Threads.Holds ⟨n, threads, o.parse.length, fun k => readFile env today b o (junk k) (inputs k)⟩ s order := by
    by_cases h1 : threads = 1
    · exact ⟨List.range n, .refl _, fun _ => rfl, las2col_in_order _ hsens h1 sched s h he⟩
    · obtain ⟨order, h2, -, h3⟩ := las2col_columns _ hsens sched s h he
      exact ⟨order, h2, fun h => absurd h h1, h3⟩
  obtain ⟨cols, h1, h2⟩ := hholds
  refine ⟨order, hperm, hone, fun i c hc => ⟨fun k => cols k i, h2 i (List.getElem?_eq_some_iff.1 hc).1, ?_⟩⟩
  intro k hk
  obtain ⟨cols', e, hcol⟩ := column_complete b (hi k hk) (hall k hk) (hs k hk) (junk k)
  have h3 := h1 k (hperm.mem_iff.2 (List.mem_range.2 hk))
  dsimp only at h3
  rw [e] at h3
  cases h3
  exact hcol i c hc

/-- C83: `X` is the raw coordinate counted from the origin, if the coordinate is exactly that multiple of the scale (as it is for scales that are powers of
two and moderate offsets). -/
theorem exact_quotient {x scale : Fl} {m : Int} (h : Multiple x scale m) : Whole (Fl.div x scale) m := by
  refine ⟨m, Morton.div_multiple h, le_refl _, by linarith, ?_⟩
  exact mul_self_nonneg _

end LibLAS.Las2col
