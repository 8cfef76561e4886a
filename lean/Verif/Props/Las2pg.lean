import Verif.Model.Las2pg
import Verif.Spec.Las2pg
import Verif.Lemmas.Dump
import Verif.Props.Morton
/-
C82: las2pg writes a dump that PostgreSQL reads as one tuple for every point.
-/
namespace LibLAS.Las2pg
open LibLAS Spec Spec.Dump Point

theorem beNat_append (l : List Byte) (a : Byte) : beNat (l ++ [a]) = 256 * beNat l + a.toNat := by
  simp [beNat]

theorem beNat_reverse (l : List Byte) : beNat l.reverse = leNat l := by
  induction l with
  | nil => rfl
  | cons a l ih => rw [List.reverse_cons, beNat_append, ih, leNat]; ring

theorem beNat_swapped {w : Nat} (n : Nat) (v : BitVec w) : beNat (swapped n v) = v.toNat % 256 ^ n := by
  rw [swapped, beNat_reverse]
  exact leNat_leBytes n v

@[simp] theorem swapped_length {w : Nat} (n : Nat) (v : BitVec w) : (swapped n v).length = n := by
  rw [swapped, List.length_reverse]
  exact leBytes_length n v

theorem beNat_four (v : BitVec 32) : beNat (swapped 4 v) = v.toNat := by
  rw [beNat_swapped]; exact Nat.mod_eq_of_lt v.isLt

theorem beNat_eight (v : BitVec 64) : beNat (swapped 8 v) = v.toNat := by
  rw [beNat_swapped]; exact Nat.mod_eq_of_lt v.isLt

theorem beInt_four (v : BitVec 32) : beInt (swapped 4 v) = v.toInt := by
  rw [beInt, beNat_four, swapped_length, BitVec.toInt]
  norm_num

theorem beInt_two (v : BitVec 16) : beInt (swapped 2 v) = v.toInt := by
  rw [beInt, beNat_swapped, swapped_length, BitVec.toInt, Nat.mod_eq_of_lt (show v.toNat < 256 ^ 2 from v.isLt)]
  norm_num

/-- A field of a tuple: its length, then its bytes. -/
def cell (bs : List Byte) : List Byte := swapped 4 (BitVec.ofNat 32 bs.length) ++ bs

theorem field4_cell (v : BitVec 32) : field4 v = cell (swapped 4 v) := by
  unfold field4 cell; rw [swapped_length]; rfl

theorem field8_cell (v : BitVec 64) : field8 v = cell (swapped 8 v) := by
  unfold field8 cell; rw [swapped_length]; rfl

theorem int_nat {n : Nat} {v : BitVec 32} (h : v.toNat = n) (hn : n < 2 ^ 31) : Denotes (.int n) (swapped 4 v) := by
  refine ⟨swapped_length _ _, ?_⟩
  rw [beInt_four, BitVec.toInt_eq_toNat_of_lt (by omega), h]

theorem field_denotes (b : Build) {fx fy : Int} {index : BitVec 32} {row : Nat} {h : PHeader} {p : List Byte} (hw : (⟨p, h⟩ : Point).WF)
    (hox : Proper h.offset.x) (hoy : Proper h.offset.y) (hoz : Proper h.offset.z) {c : Char} (hc : c ∈ alphabet)
    (hM : c = 'M' → index = BitVec.ofNat 32 row ∧ row < 2 ^ 31) (hfx : |fx| ≤ 2 ^ 62) (hfy : |fy| ≤ 2 ^ 62) :
    ∃ v bs, field b fx fy index ⟨p, h⟩ c = .ok (cell bs) ∧ Value b h p fx fy row c v ∧ Denotes v bs ∧
      (bs.length = 4 ∨ bs.length = 8) := by
  have ho := observe_eq (b := b) hw
  generalize view b (Point.hdr ⟨p, h⟩).fmt (Point.data ⟨p, h⟩) = a at ho
  obtain ⟨e1, e2, e3, e4, ⟨v5, e5, h5⟩, ⟨v6, e6, h6⟩, ⟨v7, e7, h7⟩, ⟨v8, e8, h8⟩, e9, e10, e11, e12, e13, e14⟩ :=
    Point.observe_inv ho
  have ex : getX b ⟨p, h⟩ = .ok (scaled a.rawX h.scale.x h.offset.x) := by unfold getX; rw [e1]; rfl
  have ey : getY b ⟨p, h⟩ = .ok (scaled a.rawY h.scale.y h.offset.y) := by unfold getY; rw [e2]; rfl
  have ez : getZ b ⟨p, h⟩ = .ok (scaled a.rawZ h.scale.z h.offset.z) := by unfold getZ; rw [e3]; rfl
  suffices H : ∃ v bs, field b fx fy index ⟨p, h⟩ c = .ok (cell bs) ∧
      means a (scaled a.rawX h.scale.x h.offset.x) (scaled a.rawY h.scale.y h.offset.y) (scaled a.rawZ h.scale.z h.offset.z) fx fy row c = some v ∧
      Denotes v bs ∧ (bs.length = 4 ∨ bs.length = 8) by
    obtain ⟨v, bs, h1, h2, h3⟩ := H
    exact ⟨v, bs, h1, ⟨a, _, _, _, ho, ex, ey, ez, h2⟩, h3⟩
  have real : ∀ x : Fl, Proper x → Denotes (.real x) (swapped 8 x.toBits) := by
    intro x hx
    refine ⟨swapped_length _ _, ?_⟩
    rw [beNat_eight, BitVec.ofNat_toNat, BitVec.setWidth_eq, bits_proper hx]
  have w16 : ∀ v : BitVec 16, (v.setWidth 32).toNat = v.toNat := by
    intro v; simp; omega
  have w8 : ∀ v : BitVec 8, (v.setWidth 32).toNat = v.toNat := by
    intro v; simp; omega
  have s16 : ∀ v : BitVec 16, v.toNat < 2 ^ 31 := fun v => lt_trans v.isLt (by norm_num)
  have s8 : ∀ v : BitVec 8, v.toNat < 2 ^ 31 := fun v => lt_trans v.isLt (by norm_num)
  have i16 : ∀ (v : BitVec 16) (n : Nat), v.toNat = n → Denotes (.int n) (swapped 4 (v.setWidth 32 : BitVec 32)) := by
    intro v n hn
    exact int_nat ((w16 v).trans hn) (hn ▸ s16 v)
  have i8 : ∀ (v : BitVec 8) (n : Nat), v.toNat = n → Denotes (.int n) (swapped 4 (v.setWidth 32 : BitVec 32)) := by
    intro v n hn
    exact int_nat ((w8 v).trans hn) (hn ▸ s8 v)
  have l4 : ∀ v : BitVec 32, (swapped 4 v).length = 4 ∨ (swapped 4 v).length = 8 := fun v => .inl (swapped_length _ _)
  have l8 : ∀ v : BitVec 64, (swapped 8 v).length = 4 ∨ (swapped 8 v).length = 8 := fun v => .inr (swapped_length _ _)
  simp only [alphabet, List.mem_cons, List.not_mem_nil, or_false] at hc
  unfold field
  rw [e14, Outcome.bind_ok]
  simp only [field4_cell, field8_cell]
  rcases hc with rfl | rfl | rfl | rfl | rfl | rfl | rfl | rfl | rfl | rfl | rfl | rfl | rfl | rfl | rfl | rfl | rfl | rfl
  · exact ⟨_, _, by rw [ex]; rfl, rfl, real _ (proper_scaled _ _ _ hox), l8 _⟩
  · exact ⟨_, _, by rw [ey]; rfl, rfl, real _ (proper_scaled _ _ _ hoy), l8 _⟩
  · exact ⟨_, _, by rw [ez]; rfl, rfl, real _ (proper_scaled _ _ _ hoz), l8 _⟩
  · exact ⟨_, _, by rw [e13]; rfl, rfl, ⟨swapped_length _ _, beNat_eight _⟩, l8 _⟩
  · exact ⟨_, _, by rw [e4]; rfl, rfl, i16 _ _ rfl, l4 _⟩
  · refine ⟨_, _, by rw [e10]; rfl, rfl, ⟨swapped_length _ _, ?_⟩, l4 _⟩
    rw [beInt_four, BitVec.toInt_signExtend_of_le (by norm_num)]
  · exact ⟨_, _, by rw [e5]; rfl, rfl, i16 _ _ h5, l4 _⟩
  · exact ⟨_, _, by rw [e9]; rfl, rfl, i8 _ _ rfl, l4 _⟩
  · exact ⟨_, _, by rw [e11]; rfl, rfl, i8 _ _ rfl, l4 _⟩
  · exact ⟨_, _, by rw [e6]; rfl, rfl, i16 _ _ h6, l4 _⟩
  · exact ⟨_, _, rfl, rfl, i16 _ _ rfl, l4 _⟩
  · exact ⟨_, _, rfl, rfl, i16 _ _ rfl, l4 _⟩
  · exact ⟨_, _, rfl, rfl, i16 _ _ rfl, l4 _⟩
  · obtain ⟨rfl, hr⟩ := hM rfl
    refine ⟨_, _, rfl, rfl, int_nat ?_ hr, l4 _⟩
    rw [BitVec.toNat_ofNat, Nat.mod_eq_of_lt (by omega)]
  · exact ⟨_, _, by rw [e12]; rfl, rfl, i16 _ _ rfl, l4 _⟩
  · exact ⟨_, _, by rw [e8]; rfl, rfl, i16 _ _ h8, l4 _⟩
  · exact ⟨_, _, by rw [e7]; rfl, rfl, i16 _ _ h7, l4 _⟩
  · rw [abs_le] at hfx hfy
    have bx := a.rawX.toInt_lt
    have bx' := a.rawX.le_toInt
    have by' := a.rawY.toInt_lt
    have by'' := a.rawY.le_toInt
    refine ⟨_, swapped 8 (Morton.encode (BitVec.ofInt 32 (a.rawX.toInt + fx)) (BitVec.ofInt 32 (a.rawY.toInt + fy))), ?_, rfl,
      ⟨swapped_length _ _, ?_⟩, l8 _⟩
    · rw [e1, Outcome.bind_ok, e2, Outcome.bind_ok, Morton.code, Morton.int64, Morton.int64, if_pos (by constructor <;> omega), Outcome.bind_ok,
        if_pos (by constructor <;> omega), Outcome.bind_ok]
      rfl
    · rw [beNat_eight]
      have := Morton.encode_interleaves (BitVec.ofInt 32 (a.rawX.toInt + fx)) (BitVec.ofInt 32 (a.rawY.toInt + fy))
      have m : ∀ z : Int, (BitVec.ofInt 32 z).toNat % 2 ^ 31 = (z % 2 ^ 31).toNat := by
        intro z
        rw [BitVec.toNat_ofInt]
        omega
      rwa [m, m] at this

/-- What the fields of a tuple have to be. -/
def Fields (b : Build) (h : PHeader) (p : List Byte) (fx fy : Int) (row : Nat) (parse : List Char) (cells : List (List Byte)) : Prop :=
  List.Forall₂ (fun c bs => ∃ v, Value b h p fx fy row c v ∧ Denotes v bs) parse cells

theorem letters_ok {f : Char → Outcome (List Byte)} {P : Char → List Byte → Prop} : ∀ parse : List Char, parse ≠ [] →
    (∀ c ∈ parse, ∃ bs, f c = .ok (cell bs) ∧ P c bs ∧ (bs.length = 4 ∨ bs.length = 8)) →
    ∃ cells, letters f parse = .ok (cells.map cell).flatten ∧ List.Forall₂ P parse cells ∧ ∀ bs ∈ cells, bs.length = 4 ∨ bs.length = 8
  | [], h, _ => absurd rfl h
  | [c], _, hf => by
    obtain ⟨bs, e, h1, h2⟩ := hf c (by simp)
    exact ⟨[bs], by rw [letters, e]; simp, .cons h1 .nil, by simpa using h2⟩
  | c :: d :: rest, _, hf => by
    obtain ⟨bs, e, h1, h2⟩ := hf c (by simp)
    obtain ⟨cells, e', h3, h4⟩ := letters_ok (d :: rest) (by simp) (fun x hx => hf x (List.mem_cons_of_mem _ hx))
    refine ⟨bs :: cells, ?_, .cons h1 h3, ?_⟩
    · rw [letters, e, Outcome.bind_ok, e'] <;> simp
    · intro x hx
      rcases List.mem_cons.1 hx with rfl | hx
      · exact h2
      · exact h4 x hx

theorem copyFields_cells : ∀ (cells : List (List Byte)) (rest : List Byte), (∀ bs ∈ cells, bs.length = 4 ∨ bs.length = 8) →
    copyFields cells.length ((cells.map cell).flatten ++ rest) = some (cells.map some, rest)
  | [], rest, _ => rfl
  | bs :: cells, rest, h => by
    have hb := h bs List.mem_cons_self
    have hl : (BitVec.ofNat 32 bs.length).toInt = bs.length := by
      rcases hb with e | e <;> rw [e] <;> rfl
    rw [List.map_cons, List.flatten_cons, List.append_assoc, cell, List.append_assoc]
    have h4 : (swapped 4 (BitVec.ofNat 32 bs.length)).length = 4 := swapped_length _ _
    rw [List.length_cons, copyFields, List.take_left' h4, beInt_four, hl, if_neg (by simp), if_neg (by omega), if_neg (by simp; omega)]
    simp only [Int.toNat_natCast]
    rw [← List.drop_drop, List.drop_left' h4, List.drop_left' rfl, List.take_left' rfl, copyFields_cells cells rest (fun x hx => h x (List.mem_cons_of_mem _ hx))]
    rfl

/-- A tuple: the number of its fields and its fields. -/
def tuple (n : Nat) (cells : List (List Byte)) : List Byte := swapped 2 (BitVec.ofNat 16 n) ++ (cells.map cell).flatten

theorem copyTuples_rows {n : Nat} (hn : n < 2 ^ 15) : ∀ (rows : List (List (List Byte))) (fuel : Nat), rows.length < fuel →
    (∀ cells ∈ rows, cells.length = n ∧ ∀ bs ∈ cells, bs.length = 4 ∨ bs.length = 8) →
    copyTuples fuel ((rows.map (tuple n)).flatten ++ swapped 2 (-1 : BitVec 16)) = some (rows.map (·.map some)) := by
  intro rows
  induction rows with
  | nil =>
    intro fuel hf _
    obtain ⟨k, rfl⟩ : ∃ k, fuel = k + 1 := ⟨fuel - 1, by simp at hf; omega⟩
    simp only [List.map_nil, List.flatten_nil, List.nil_append]
    rw [copyTuples, if_neg (by simp), List.take_of_length_le (by simp), beInt_two, if_pos (by decide), if_pos (by simp)]
  | cons cells rows ih =>
    intro fuel hf h
    obtain ⟨k, rfl⟩ : ∃ k, fuel = k + 1 := ⟨fuel - 1, by simp at hf; omega⟩
    obtain ⟨hc, hb⟩ := h cells List.mem_cons_self
    have h2 : (swapped 2 (BitVec.ofNat 16 n)).length = 2 := swapped_length _ _
    have hi : (BitVec.ofNat 16 n).toInt = n := by
      rw [BitVec.toInt_eq_toNat_of_lt (by simp; omega), BitVec.toNat_ofNat, Nat.mod_eq_of_lt (by omega)]
    rw [List.map_cons, List.flatten_cons, tuple, List.append_assoc, List.append_assoc, copyTuples, List.take_left' h2, List.drop_left' h2,
      beInt_two, hi, if_neg (by simp; omega), if_neg (by omega), if_neg (by omega)]
    simp only [Int.toNat_natCast]
    rw [← hc, copyFields_cells cells _ hb, hc]
    dsimp only
    rw [ih k (by simp at hf; omega) (fun x hx => h x (List.mem_cons_of_mem _ hx))]
    rfl

theorem rows_short {n : Nat} (rows : List (List (List Byte))) : 2 * rows.length ≤ ((rows.map (tuple n)).flatten).length := by
  induction rows with
  | nil => simp
  | cons r rows ih =>
    rw [List.map_cons, List.flatten_cons, List.length_append, List.length_cons, tuple, List.length_append, swapped_length]
    omega

theorem copyDecode_rows {n : Nat} (hn : n < 2 ^ 15) (rows : List (List (List Byte)))
    (h : ∀ cells ∈ rows, cells.length = n ∧ ∀ bs ∈ cells, bs.length = 4 ∨ bs.length = 8) :
    copyDecode (signature ++ swapped 4 (0 : BitVec 32) ++ swapped 4 (0 : BitVec 32) ++ (rows.map (tuple n)).flatten ++ swapped 2 (-1 : BitVec 16)) =
      some (rows.map (·.map some)) := by
  have hs := rows_short (n := n) rows
  generalize hT : (rows.map (tuple n)).flatten = T at *
  have e11 : signature.length = 11 := rfl
  have e4 : (swapped 4 (0 : BitVec 32)).length = 4 := swapped_length _ _
  have z : beNat (swapped 4 (0 : BitVec 32)) = 0 := by rw [beNat_four]; rfl
  rw [List.append_assoc, List.append_assoc, List.append_assoc, copyDecode]
  have d11 : ∀ l, (signature ++ l).drop 11 = l := fun l => List.drop_left' e11
  have d4 : ∀ l, (swapped 4 (0 : BitVec 32) ++ l).drop 4 = l := fun l => List.drop_left' e4
  have d15 : ∀ l, (signature ++ (swapped 4 (0 : BitVec 32) ++ l)).drop 15 = l := by
    intro l
    rw [show (15 : Nat) = 11 + 4 from rfl, ← List.drop_drop, d11, d4]
  have d19 : ∀ l, (signature ++ (swapped 4 (0 : BitVec 32) ++ (swapped 4 (0 : BitVec 32) ++ l))).drop 19 = l := by
    intro l
    rw [show (19 : Nat) = 15 + 4 from rfl, ← List.drop_drop, d15, d4]
  rw [d19, d15, d11, List.take_left' e11, List.take_left' e4, List.take_left' e4, z, if_pos ⟨by decide, rfl, rfl, by simp [e11]; omega⟩, ← hT,
    copyTuples_rows hn rows _ _ h]
  rw [hT]
  simp [e11]
  omega

theorem pointLoop_ok (b : Build) {o : Opts} {fx fy : Int} {h : PHeader} (hne : o.parse ≠ []) (hal : ∀ c ∈ o.parse, c ∈ alphabet)
    (hox : Proper h.offset.x) (hoy : Proper h.offset.y) (hoz : Proper h.offset.z) (hfx : |fx| ≤ 2 ^ 62) (hfy : |fy| ≤ 2 ^ 62) :
    ∀ (ps : List (List Byte)) (r : Reader) (fuel : Nat) (index : BitVec 32) (row : Nat), gives r ps → (∀ p ∈ ps, (⟨p, h⟩ : Point).WF) → r.hdr.toP = h →
      ps.length < fuel → ('M' ∈ o.parse → wanted o.skipInvalid ps = ps ∧ index = BitVec.ofNat 32 row ∧ row + ps.length ≤ 2 ^ 31) →
      ∃ rows : List (List (List Byte)), pointLoop b o fx fy fuel r index = .ok (rows.map (tuple o.parse.length)).flatten ∧
        (∀ cells ∈ rows, cells.length = o.parse.length ∧ ∀ bs ∈ cells, bs.length = 4 ∨ bs.length = 8) ∧
        rows.length = (wanted o.skipInvalid ps).length ∧
        ∀ j p cells, (wanted o.skipInvalid ps)[j]? = some p → rows[j]? = some cells → Fields b h p fx fy (row + j) o.parse cells := by
  intro ps
  induction ps with
  | nil =>
    intro r fuel index row hd _ _ hf _
    obtain ⟨k, rfl⟩ : ∃ k, fuel = k + 1 := ⟨fuel - 1, by simp at hf; omega⟩
    have hw : wanted o.skipInvalid [] = [] := by unfold wanted; split <;> rfl
    refine ⟨[], ?_, by simp, by rw [hw]; rfl, by rw [hw]; simp⟩
    unfold pointLoop
    rcases hx : r.readNext with ⟨r', out⟩
    have h2 : r.readNext.2 = .ok false ∨ ∃ e, r.readNext.2 = .throw e := hd
    rw [hx] at h2
    dsimp only at h2
    rcases h2 with rfl | ⟨e, rfl⟩ <;> rfl
  | cons p ps ih =>
    intro r fuel index row hd hw hh hf hM
    obtain ⟨k, rfl⟩ : ∃ k, fuel = k + 1 := ⟨fuel - 1, by simp at hf; omega⟩
    obtain ⟨h1, h2, h3⟩ := hd
    have hfw := (Reader.readNext_forward r).1
    have hp := hw p List.mem_cons_self
    have hrest := fun q hq => hw q (List.mem_cons_of_mem _ hq)
    have hfuel : ps.length < k := by simp at hf; omega
    have hhdr : r.readNext.1.hdr.toP = h := by rw [hfw.hdr]; exact hh
    have hval := isValid_eq (b := b) hp
    unfold pointLoop
    rcases hx : r.readNext with ⟨r', out⟩
    rw [hx] at h1 h2 h3 hfw hhdr
    dsimp only at h1 h2 h3 hfw hhdr ⊢
    subst h1
    dsimp only
    rw [h2, hhdr]
    have hpick : accepted o.skipInvalid ⟨p, h⟩ = .ok (!o.skipInvalid || decide (AngleOk p)) := by
      unfold accepted
      rw [hval]
      cases o.skipInvalid <;> rfl
    rw [hpick, Outcome.bind_ok]
    by_cases hv : (!o.skipInvalid || decide (AngleOk p)) = true
    · have hwant : wanted o.skipInvalid (p :: ps) = p :: wanted o.skipInvalid ps := by
        unfold wanted
        split
        · rename_i hs
          rw [hs] at hv
          rw [List.filter_cons_of_pos (by simpa using hv)]
        · rfl
      have hM' : 'M' ∈ o.parse → wanted o.skipInvalid ps = ps ∧ index + 1 = BitVec.ofNat 32 (row + 1) ∧ (row + 1) + ps.length ≤ 2 ^ 31 := by
        intro hm
        obtain ⟨m1, rfl, m3⟩ := hM hm
        rw [hwant] at m1
        refine ⟨by injection m1, ?_, by simp at m3; omega⟩
        apply BitVec.eq_of_toNat_eq; simp
      obtain ⟨rows, e, hr, hl, hls⟩ := ih r' k (index + 1) (row + 1) h3 hrest hhdr hfuel hM'
      obtain ⟨cells, ec, hcells, hlen⟩ := letters_ok (f := field b fx fy index ⟨p, h⟩) (P := fun c bs => ∃ v, Value b h p fx fy row c v ∧ Denotes v bs)
        o.parse hne (by
          intro c hc
          obtain ⟨v, bs, q1, q2, q3, q4⟩ := field_denotes b (fx := fx) (fy := fy) (index := index) (row := row) hp hox hoy hoz (hal c hc)
            (by
              rintro rfl
              obtain ⟨-, m2, m3⟩ := hM hc
              exact ⟨m2, by simp at m3; omega⟩) hfx hfy
          exact ⟨bs, q1, ⟨v, q2, q3⟩, q4⟩)
      refine ⟨cells :: rows, ?_, ?_, by rw [hwant]; simp [hl], ?_⟩
      · rw [hv, ec, e]
        simp [tuple]
      · intro cs hcs
        rcases List.mem_cons.1 hcs with rfl | hcs
        · exact ⟨hcells.length_eq.symm, hlen⟩
        · exact hr cs hcs
      · intro j q cs hq hcs
        rw [hwant] at hq
        cases j with
        | zero =>
          simp at hq hcs
          subst hq; subst hcs
          exact hcells
        | succ j =>
          have := hls j q cs (by simpa using hq) (by simpa using hcs)
          rwa [show row + 1 + j = row + (j + 1) by omega] at this
    · rw [Bool.not_eq_true] at hv
      obtain ⟨hs, hA⟩ : o.skipInvalid = true ∧ decide (AngleOk p) = false := by
        cases hs : o.skipInvalid <;> simp_all
      have hwant : wanted o.skipInvalid (p :: ps) = wanted o.skipInvalid ps := by
        unfold wanted
        rw [hs, if_pos rfl, if_pos rfl, List.filter_cons_of_neg (by simpa using hA)]
      have hM' : 'M' ∈ o.parse → False := by
        intro hm
        obtain ⟨m1, -, -⟩ := hM hm
        rw [hwant] at m1
        have h1 : (wanted o.skipInvalid ps).length ≤ ps.length := by
          unfold wanted
          rw [hs, if_pos rfl]
          exact List.length_filter_le _ _
        rw [m1] at h1
        simp at h1
      obtain ⟨rows, e, hr, hl, hls⟩ := ih r' k (index - 1) row h3 hrest hhdr hfuel (fun hm => (hM' hm).elim)
      refine ⟨rows, ?_, hr, by rw [hwant]; exact hl, by rw [hwant]; exact hls⟩
      rw [hv]
      simpa using e

theorem cut_whole {q : ℚ} {t : Int} (h : Whole (.fin q) t) : (if 0 ≤ q then ⌊q⌋ else ⌈q⌉) = t := by
  obtain ⟨q', e, h1, h2, h3⟩ := h
  cases e
  split
  · rename_i hq
    rw [abs_of_nonneg hq] at h1 h2
    have ht0 : 0 ≤ (t : ℚ) := by
      rcases hq.eq_or_lt with rfl | hq
      · have := abs_nonneg (t : ℚ)
        have h0 : |(t : ℚ)| = 0 := le_antisymm h1 this
        rw [abs_eq_zero.1 h0]
      · by_contra hn
        have := mul_neg_of_neg_of_pos (not_le.1 hn) hq
        linarith
    rw [abs_of_nonneg ht0] at h1 h2
    exact Int.floor_eq_iff.2 ⟨h1, h2⟩
  · rename_i hq
    have hq := not_le.1 hq
    rw [abs_of_neg hq] at h1 h2
    have ht0 : (t : ℚ) ≤ 0 := by
      by_contra hn
      have := mul_neg_of_pos_of_neg (not_le.1 hn) hq
      linarith
    rw [abs_of_nonpos ht0] at h1 h2
    exact Int.ceil_eq_iff.2 ⟨by linarith, by linarith⟩

theorem factor_whole {offset scale : Fl} {t g : Int} (h : Whole (Fl.div offset scale) t) (ht : |t| ≤ 2 ^ 61) (hg : |g| ≤ 2 ^ 61) :
    Morton.factor offset scale g = .ok (t - g) := by
  obtain ⟨q, e, -⟩ := id h
  rw [e] at h
  rw [abs_le] at ht hg
  rw [Morton.factor, e, Morton.toInt64, cut_whole h, if_pos (by constructor <;> omega), Outcome.bind_ok, Morton.int64,
    if_pos (by constructor <;> omega)]

/-- **C82.** las2pg, on a file that opens, without `--check`: the output is a dump in PostgreSQL's format, with one tuple for each point to
be written, in their order; the field for each letter denotes what the letter stands for. The whole parts of offset over scale must fit
an `int64_t` (even if no Morton codes are wanted); the number of the tuple is only right if no point is skipped. -/
theorem dump_partial (b : Build) {env : Env} {today : BitVec 16 × BitVec 16} {input : List Byte} {r₀ : Reader} {ps : List (List Byte)}
    (hi : Input env today input r₀ ps) {o : Opts} (hne : o.parse ≠ []) (hal : ∀ c ∈ o.parse, c ∈ alphabet) (hlen : o.parse.length < 2 ^ 15)
    (hcheck : o.check = none) {tx ty : Int} (hx : Whole (Fl.div r₀.hdr.toP.offset.x r₀.hdr.toP.scale.x) tx)
    (hy : Whole (Fl.div r₀.hdr.toP.offset.y r₀.hdr.toP.scale.y) ty) (htx : |tx| ≤ 2 ^ 61) (hty : |ty| ≤ 2 ^ 61)
    (hgx : |o.global.1| ≤ 2 ^ 61) (hgy : |o.global.2| ≤ 2 ^ 61)
    (hM : 'M' ∈ o.parse → wanted o.skipInvalid ps = ps ∧ ps.length ≤ 2 ^ 31) :
    ∃ out rows, main env today b o input = .ok out ∧ copyDecode out = some rows ∧ rows.length = (wanted o.skipInvalid ps).length ∧
      ∀ j p row, (wanted o.skipInvalid ps)[j]? = some p → rows[j]? = some row →
        List.Forall₂ (fun c f => ∃ v bs, f = some bs ∧ Value b r₀.hdr.toP p (tx - o.global.1) (ty - o.global.2) j c v ∧ Denotes v bs)
          o.parse row := by
  have hwf := hi.wf
  have hcount := hi.count
  rw [abs_le] at htx hty hgx hgy
  obtain ⟨rows, e, hr, hl, hf⟩ := pointLoop_ok b (o := o) (fx := tx - o.global.1) (fy := ty - o.global.2) (h := r₀.hdr.toP) hne hal
    (proper_ofBits _) (proper_ofBits _) (proper_ofBits _) (by rw [abs_le]; constructor <;> omega) (by rw [abs_le]; constructor <;> omega)
    ps r₀ (r₀.size + 1) 0 0 hi.points hwf rfl (by omega) (by
      intro hm
      obtain ⟨m1, m2⟩ := hM hm
      exact ⟨m1, rfl, by omega⟩)
  refine ⟨_, rows.map (·.map some), ?_, copyDecode_rows hlen rows hr, by simpa using hl, ?_⟩
  · unfold main
    rw [hi.opens, Outcome.bind_ok]
    dsimp only
    rw [hcheck, passes]
    rw [factor_whole hx (abs_le.2 htx) (abs_le.2 hgx), factor_whole hy (abs_le.2 hty) (abs_le.2 hgy)]
    simp only [Bool.not_true, Bool.false_eq_true, if_false, Outcome.bind_ok]
    rw [e, Outcome.bind_ok]
    rfl
  · intro j p row hp hrow
    rw [List.getElem?_map, Option.map_eq_some_iff] at hrow
    obtain ⟨cells, hc, rfl⟩ := hrow
    have := hf j p cells hp hc
    rw [Nat.zero_add] at this
    rw [List.forall₂_map_right_iff]
    refine List.Forall₂.imp ?_ this
    rintro c bs ⟨v, h1, h2⟩
    exact ⟨v, bs, rfl, h1, h2⟩

theorem pointLoop_check (b : Build) (o : Opts) (c : Option (Fl × Fl)) (fx fy : Int) :
    ∀ (fuel : Nat) (r : Reader) (index : BitVec 32), pointLoop b { o with check := c } fx fy fuel r index = pointLoop b o fx fy fuel r index
  | 0, _, _ => rfl
  | k + 1, r, index => by
    unfold pointLoop
    rcases r.readNext with ⟨r', _ | _ | _⟩
    · rename_i v
      cases v
      · rfl
      · dsimp only
        simp only [pointLoop_check b o c fx fy k]
    · rfl
    · rfl

/-- C82: with `--check` las2pg ends with an error or writes what it writes without. -/
theorem check_refuses (env : Env) (today : BitVec 16 × BitVec 16) (b : Build) (o : Opts) (input : List Byte) :
    (∃ e, main env today b o input = .throw e) ∨ main env today b o input = main env today b { o with check := none } input := by
  unfold main
  cases Reader.make env today (IStream.onFile input) with
  | throw e => exact .inl ⟨e, rfl⟩
  | ub => exact .inr rfl
  | ok r =>
    rw [Outcome.bind_ok, Outcome.bind_ok]
    dsimp only
    cases passes r.hdr o.global o.check with
    | false => exact .inl ⟨_, rfl⟩
    | true =>
      right
      simp only [pointLoop_check b o none]
      rfl

end LibLAS.Las2pg
