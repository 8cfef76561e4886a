import Verif.Lemmas.ChipperStep
/-
Emitting blocks and the recursion.
-/
namespace LibLAS.Chipper

open Spec

/-- The ids of a block, in a state. -/
def ids (s : St) (b : Block) : List Nat :=
  (slice (s.lists b.list).ref b.left (b.right + 1 - b.left)).map PtRef.ptindex

/-- The bounds are the exact extent of the points with the given ids. -/
def Tight (C : Dir → Nat → Fl) (k : List Nat) (b : Bounds) : Prop := tight (k.map fun i => (C .x i, C .y i)) b

theorem emit_ok {wide narrow : Slot} {w0 w1 n0 n1 : Nat} {s : St} (h0 : w0 < (s.lists wide).len)
    (h1 : w1 < (s.lists wide).len) (h2 : n0 < (s.lists narrow).len) (h3 : n1 < (s.lists narrow).len) :
    emit wide w0 w1 narrow n0 n1 s = .ok { s with blocks := s.blocks ++ [⟨wide, w0, w1,
      if (s.lists wide).dir = .x then
        Bounds.make2 ((s.lists wide).ref w0).pos ((s.lists narrow).ref n0).pos ((s.lists wide).ref w1).pos ((s.lists narrow).ref n1).pos
      else Bounds.make2 ((s.lists narrow).ref n0).pos ((s.lists wide).ref w0).pos ((s.lists narrow).ref n1).pos ((s.lists wide).ref w1).pos⟩] } := by
  unfold emit
  rw [get_ok h0, get_ok h1, get_ok h2, get_ok h3]
  rfl

theorem emit_tight {C : Dir → Nat → Fl} {w n : RefList} {l m n0 n1 : Nat} (hm : 0 < m)
    (sw : Sorted w.ref l (l + m)) (cw : Placed C w.dir w.ref l (l + m))
    (dd : (w.dir = .x ∧ n.dir = .y) ∨ (w.dir = .y ∧ n.dir = .x))
    (h0 : ∃ k ∈ (slice w.ref l m).map PtRef.ptindex, C n.dir k = (n.ref n0).pos)
    (h1 : ∃ k ∈ (slice w.ref l m).map PtRef.ptindex, C n.dir k = (n.ref n1).pos)
    (hall : ∀ k ∈ (slice w.ref l m).map PtRef.ptindex, Fl.le (n.ref n0).pos (C n.dir k) = true ∧ Fl.le (C n.dir k) (n.ref n1).pos = true) :
    Tight C ((slice w.ref l m).map PtRef.ptindex)
      (if w.dir = .x then Bounds.make2 (w.ref l).pos (n.ref n0).pos (w.ref (l + m - 1)).pos (n.ref n1).pos
       else Bounds.make2 (n.ref n0).pos (w.ref l).pos (n.ref n1).pos (w.ref (l + m - 1)).pos) := by
  have wmem : ∀ i, l ≤ i → i < l + m → (w.ref i).ptindex ∈ (slice w.ref l m).map PtRef.ptindex := by
    intro i a b; exact List.mem_map_of_mem (mem_slice.mpr ⟨i, a, b, rfl⟩)
  have wall : ∀ k ∈ (slice w.ref l m).map PtRef.ptindex,
      Fl.le (w.ref l).pos (C w.dir k) = true ∧ Fl.le (C w.dir k) (w.ref (l + m - 1)).pos = true := by
    intro k hk
    obtain ⟨e, he, rfl⟩ := List.mem_map.mp hk
    obtain ⟨i, a, b, rfl⟩ := mem_slice.mp he
    rw [← cw i a b]
    exact ⟨sw l i le_rfl a b, sw i (l + m - 1) a (by omega) (by omega)⟩
  have a0 := wmem l le_rfl (by omega)
  have a1 := wmem (l + m - 1) (by omega) (by omega)
  have c0 := cw l le_rfl (by omega)
  have c1 := cw (l + m - 1) (by omega) (by omega)
  obtain ⟨k0, hk0, e0⟩ := h0
  obtain ⟨k1, hk1, e1⟩ := h1
  unfold Tight tight
  have pick : ∀ k ∈ (slice w.ref l m).map PtRef.ptindex,
      (C .x k, C .y k) ∈ ((slice w.ref l m).map PtRef.ptindex).map fun i => (C .x i, C .y i) :=
    fun k hk => List.mem_map_of_mem hk
  rcases dd with ⟨d1, d2⟩ | ⟨d1, d2⟩
  · rw [d1] at c0 c1 wall
    rw [d2] at e0 e1 hall
    rw [if_pos d1]
    refine ⟨_, _, _, _, rfl, ⟨_, pick _ a0, c0.symm⟩, ⟨_, pick _ a1, c1.symm⟩, ⟨_, pick _ hk0, e0⟩, ⟨_, pick _ hk1, e1⟩, ?_⟩
    intro p hp
    obtain ⟨k, hk, rfl⟩ := List.mem_map.mp hp
    exact ⟨(wall k hk).1, (wall k hk).2, (hall k hk).1, (hall k hk).2⟩
  · rw [d1] at c0 c1 wall
    rw [d2] at e0 e1 hall
    rw [if_neg (by rw [d1]; decide)]
    refine ⟨_, _, _, _, rfl, ⟨_, pick _ hk0, e0⟩, ⟨_, pick _ hk1, e1⟩, ⟨_, pick _ a0, c0.symm⟩, ⟨_, pick _ a1, c1.symm⟩, ?_⟩
    intro p hp
    obtain ⟨k, hk, rfl⟩ := List.mem_map.mp hp
    exact ⟨(hall k hk).1, (hall k hk).2, (wall k hk).1, (wall k hk).2⟩

theorem finalScan_eq {s : St} {narrow : Slot} {c : Nat} (is : List Nat) (a b : Option Nat)
    (h : ∀ i ∈ is, i < (s.lists narrow).len) :
    finalScan s narrow c is a b = .ok
      (a.or (is.find? fun i => decide (((s.lists narrow).ref i).oindex < c)),
       b.or (is.find? fun i => decide (c ≤ ((s.lists narrow).ref i).oindex))) := by
  induction is generalizing a b with
  | nil => simp [finalScan]
  | cons i is ih =>
    have h' : ∀ i ∈ is, i < (s.lists narrow).len := fun j hj => h j (List.mem_cons_of_mem _ hj)
    unfold finalScan
    rw [get_ok (h i List.mem_cons_self), Outcome.bind_ok, List.find?_cons, List.find?_cons]
    by_cases hc : ((s.lists narrow).ref i).oindex < c
    · have hc' : ¬ c ≤ ((s.lists narrow).ref i).oindex := by omega
      simp only [hc, hc', and_true, and_false, decide_true, decide_false, if_false]
      cases a with
      | none =>
        simp only [if_true]
        cases b with
        | none => simp [ih _ _ h']
        | some b => simp
      | some a =>
        simp [ih _ _ h']
    · have hc' : c ≤ ((s.lists narrow).ref i).oindex := by omega
      simp only [hc, hc', and_true, and_false, decide_true, decide_false, if_false]
      cases b with
      | none =>
        simp only [if_true]
        cases a with
        | none => simp [ih _ _ h']
        | some a => simp
      | some b =>
        simp [ih _ _ h']

theorem find_first {L : List Nat} {R : Nat → Nat → Prop} {p : Nat → Bool} (hp : L.Pairwise R) (hex : ∃ i ∈ L, p i = true) :
    ∃ i ∈ L, L.find? p = some i ∧ p i = true ∧ ∀ j ∈ L, p j = true → j = i ∨ R i j := by
  obtain ⟨k, hk, hpk⟩ := hex
  have : (L.find? p).isSome := List.find?_isSome.mpr ⟨k, hk, hpk⟩
  obtain ⟨i, hi⟩ := Option.isSome_iff_exists.mp this
  refine ⟨i, List.mem_of_find?_eq_some hi, hi, List.find?_some hi, ?_⟩
  rw [List.find?_eq_some_iff_append] at hi
  obtain ⟨_, as, bs, rfl, hno⟩ := hi
  intro j hj hpj
  rw [List.mem_append, List.mem_cons] at hj
  rcases hj with hj | rfl | hj
  · have := hno j hj; rw [hpj] at this; cases this
  · left; rfl
  · right
    rw [List.pairwise_append, List.pairwise_cons] at hp
    exact hp.2.1.1 j hj

/-- The partner of a narrow element lies in a part of the wide list iff ... -/
theorem partner_mem {w n : Nat → PtRef} {l r a m : Nat} (nw : Linked n w l r) {i : Nat} (h1 : l ≤ i) (h2 : i < r)
    (hlo : a ≤ (n i).oindex) (hhi : (n i).oindex < a + m) : (n i).ptindex ∈ (slice w a m).map PtRef.ptindex := by
  rw [← nw.same i h1 h2]
  exact List.mem_map_of_mem (mem_slice.mpr ⟨_, hlo, hhi, rfl⟩)

/-- One of the two blocks of `FinalSplit`: `p` says which narrow elements belong to it. -/
theorem finalBlock {C : Dir → Nat → Fl} {w n : RefList} {l r a m : Nat} (hg : Good C w n l r) (hm : 0 < m)
    (ha : l ≤ a) (hr : a + m ≤ r) {p : Nat → Bool}
    (hp : ∀ i, l ≤ i → i < r → (p i = true ↔ a ≤ (n.ref i).oindex ∧ (n.ref i).oindex < a + m)) :
    ∃ n0 n1, (List.range' l (r - l)).find? p = some n0 ∧ (List.range' l (r - l)).reverse.find? p = some n1 ∧
      n0 < r ∧ n1 < r ∧
      Tight C ((slice w.ref a m).map PtRef.ptindex)
      (if w.dir = .x then Bounds.make2 (w.ref a).pos (n.ref n0).pos (w.ref (a + m - 1)).pos (n.ref n1).pos
       else Bounds.make2 (n.ref n0).pos (w.ref a).pos (n.ref n1).pos (w.ref (a + m - 1)).pos) := by
  have hex : ∃ i ∈ List.range' l (r - l), p i = true := by
    have := hg.ab.inside a ha (by omega)
    refine ⟨(w.ref a).oindex, List.mem_range'_1.mpr ⟨this.1, by omega⟩, ?_⟩
    rw [hp _ this.1 this.2, hg.ab.inv a ha (by omega)]; omega
  obtain ⟨n0, m0, f0, p0, q0⟩ := find_first (List.pairwise_lt_range' (s := l) (n := r - l)) hex
  obtain ⟨n1, m1, f1, p1, q1⟩ := find_first (R := fun i j => j < i) (L := (List.range' l (r - l)).reverse) (p := p)
    (by rw [List.pairwise_reverse]; exact List.pairwise_lt_range') (by
      obtain ⟨i, hi, h⟩ := hex; exact ⟨i, List.mem_reverse.mpr hi, h⟩)
  rw [List.mem_range'_1] at m0
  rw [List.mem_reverse, List.mem_range'_1] at m1
  refine ⟨n0, n1, f0, f1, by omega, by omega, ?_⟩
  have o0 := (hp n0 m0.1 (by omega)).mp p0
  have o1 := (hp n1 m1.1 (by omega)).mp p1
  apply emit_tight hm
  · intro i j h1 h2 h3; exact hg.sa i j (by omega) h2 (by omega)
  · intro i h1 h2; exact hg.ca i (by omega) (by omega)
  · exact hg.dirs
  · exact ⟨_, partner_mem hg.ba m0.1 (by omega) o0.1 o0.2, (hg.cb n0 m0.1 (by omega)).symm⟩
  · exact ⟨_, partner_mem hg.ba m1.1 (by omega) o1.1 o1.2, (hg.cb n1 m1.1 (by omega)).symm⟩
  · intro k hk
    obtain ⟨e, he, rfl⟩ := List.mem_map.mp hk
    obtain ⟨i, i1, i2, rfl⟩ := mem_slice.mp he
    have hin := hg.ab.inside i (by omega) (by omega)
    set j := (w.ref i).oindex with hj
    have hpj : p j = true := by
      rw [hp j hin.1 hin.2, hj, hg.ab.inv i (by omega) (by omega)]; omega
    rw [← hg.ab.same i (by omega) (by omega), ← hj, ← hg.cb j hin.1 hin.2]
    have hmem : j ∈ List.range' l (r - l) := List.mem_range'_1.mpr ⟨hin.1, by omega⟩
    constructor
    · rcases q0 j hmem hpj with h | h
      · rw [h]; exact hg.sb n0 n0 m0.1 le_rfl (by omega)
      · exact hg.sb n0 j m0.1 h.le hin.2
    · rcases q1 j (List.mem_reverse.mpr hmem) hpj with h | h
      · rw [h]; exact hg.sb n1 n1 m1.1 le_rfl (by omega)
      · exact hg.sb j n1 hin.1 h.le (by omega)

/-- What one call of `DecideSplit` or `Split` leaves. -/
structure Post (C : Dir → Nat → Fl) (ps : List Nat) (a b : Slot) (pl pr l r : Nat) (s s' : St) : Prop where
  lens : ∀ t, (s'.lists t).len = (s.lists t).len
  dira : (s'.lists a).dir = (s.lists a).dir
  dirb : (s'.lists b).dir = (s.lists b).dir
  frame : ∀ t k, (k < l ∨ r ≤ k) → (s'.lists t).ref k = (s.lists t).ref k
  blocks : ∃ bs, s'.blocks = s.blocks ++ bs ∧
    List.Forall₂ (fun (bl : Block) j => ps[j]? = some bl.left ∧ ps[j + 1]? = some (bl.right + 1) ∧ bl.left ≤ bl.right ∧
      l ≤ bl.left ∧ bl.right < r ∧ bl.right < (s'.lists bl.list).len ∧ Tight C (ids s' bl) bl.bounds) bs (List.range' pl (pr - pl)) ∧
    (bs.flatMap (ids s')).Perm ((slice (s.lists a).ref l (r - l)).map PtRef.ptindex)

/-- The order of the two lists does not matter. -/
theorem Post.swap {C ps a b pl pr l r s s'} (h : Post C ps a b pl pr l r s s') (hlr : l ≤ r)
    (hg : Good C (s.lists a) (s.lists b) l r) :
    Post C ps b a pl pr l r s s' := by
  obtain ⟨bs, e1, e2, e3⟩ := h.blocks
  have hl : Linked (s.lists a).ref (s.lists b).ref l (l + (r - l)) := by
    rw [show l + (r - l) = r by omega]; exact hg.ab
  exact ⟨h.lens, h.dirb, h.dira, h.frame, bs, e1, e2, e3.trans hl.points⟩

theorem pred32_eq {p : Nat} (h : 0 < p) (h2 : p < 2 ^ 32) : pred32 p = p - 1 := by
  unfold pred32; omega

theorem part_ok {ps : List Nat} {i p : Nat} (h : ps[i]? = some p) : part ps i = .ok p := by
  unfold part; rw [h]

/-- A partition table: strictly increasing, below 2^32. -/
structure Table (ps : List Nat) : Prop where
  step : ∀ i a b, ps[i]? = some a → ps[i + 1]? = some b → a < b
  small : ∀ p ∈ ps, p < 2 ^ 32

theorem Table.lt {ps : List Nat} (h : Table ps) {i j a b : Nat} (ha : ps[i]? = some a) (hb : ps[j]? = some b) (hij : i < j) :
    a < b := by
  induction j generalizing b with
  | zero => omega
  | succ j ih =>
    have hj : j + 1 < ps.length := (List.getElem?_eq_some_iff.mp hb).1
    have hc : ps[j]? = some ps[j] := List.getElem?_eq_getElem (by omega)
    have := h.step j _ _ hc hb
    rcases Nat.eq_or_lt_of_le (Nat.le_of_lt_succ hij) with rfl | h2
    · rw [ha] at hc; injection hc with hc; omega
    · have := ih hc h2; omega

theorem Table.small' {ps : List Nat} (h : Table ps) {i a : Nat} (ha : ps[i]? = some a) : a < 2 ^ 32 :=
  h.small a (List.mem_of_getElem? ha)

/-- The frame keeps the ids of blocks outside. -/
theorem ids_congr {s s' : St} {b : Block} (h : ∀ t k, b.left ≤ k → k ≤ b.right → (s'.lists t).ref k = (s.lists t).ref k) :
    ids s' b = ids s b := by
  unfold ids
  congr 1
  apply slice_congr
  intro i h1 h2
  exact h _ i h1 (by omega)

theorem split_spec {sort : Sorter} (hsort : IsSort sort) {C : Dir → Nat → Fl} {o : Options} {ps : List Nat} (ht : Table ps)
    {rec : Slot → Slot → Slot → Nat → Nat → St → Outcome St} {pl pr l r : Nat}
    (hl : ps[pl]? = some l) (hr : ps[pr]? = some r) (hlt : pl < pr)
    (ih : ∀ (v1 v2 sp : Slot) (pl' pr' l' r' : Nat) (s : St), v2 ≠ v1 → sp ≠ v1 → sp ≠ v2 → pl' < pr' → pr' - pl' < pr - pl →
      ps[pl']? = some l' → ps[pr']? = some r' → Good C (s.lists v1) (s.lists v2) l' r' →
      (o.useSort = false → r' ≤ (s.lists sp).len) → ∃ s', rec v1 v2 sp pl' pr' s = .ok s' ∧ Post C ps v1 v2 pl' pr' l' r' s s')
    {wide narrow spare : Slot} (hwn : narrow ≠ wide) (hws : spare ≠ wide) (hns : spare ≠ narrow) (s : St)
    (hg : Good C (s.lists wide) (s.lists narrow) l r) (hsp : o.useSort = false → r ≤ (s.lists spare).len) :
    ∃ s', split sort o ps rec wide narrow spare pl pr s = .ok s' ∧ Post C ps wide narrow pl pr l r s s' := by
  have hlr := ht.lt hl hr hlt
  have hr32 := ht.small' hr
  have hpred := pred32_eq (by omega : 0 < r) hr32
  have hla := hg.la
  have hlb := hg.lb
  unfold split
  rw [part_ok hl, Outcome.bind_ok, part_ok hr, Outcome.bind_ok]
  simp only [hpred]
  by_cases h1 : pr - pl = 1
  · rw [if_pos h1, emit_ok (by omega) (by omega) (by omega) (by omega)]
    refine ⟨_, rfl, fun _ => rfl, rfl, rfl, fun _ _ _ => rfl, _, rfl, ?_, ?_⟩
    · rw [h1]
      refine List.Forall₂.cons ⟨hl, ?_, by simp; omega, by simp, by simp; omega, by simp; omega, ?_⟩ List.Forall₂.nil
      · rw [show pl + 1 = pr by omega, hr]; simp; omega
      · have hcut : r - 1 + 1 - l = r - l := by omega
        unfold ids
        simp only [hcut]
        have hlm : l + (r - l) = r := by omega
        have := emit_tight (C := C) (w := s.lists wide) (n := s.lists narrow) (l := l) (m := r - l) (n0 := l) (n1 := r - 1)
          (by omega) (by rw [hlm]; exact hg.sa) (by rw [hlm]; exact hg.ca) hg.dirs
          ⟨_, by
            have := hg.ba.inside l le_rfl (by omega)
            exact partner_mem hg.ba le_rfl (by omega) this.1 (by omega), (hg.cb l le_rfl (by omega)).symm⟩
          ⟨_, by
            have := hg.ba.inside (r - 1) (by omega) (by omega)
            exact partner_mem hg.ba (by omega) (by omega) this.1 (by omega), (hg.cb (r - 1) (by omega) (by omega)).symm⟩
          (by
            intro k hk
            obtain ⟨e, he, rfl⟩ := List.mem_map.mp hk
            obtain ⟨i, i1, i2, rfl⟩ := mem_slice.mp he
            have hin := hg.ab.inside i i1 (by omega)
            rw [← hg.ab.same i i1 (by omega), ← hg.cb _ hin.1 hin.2]
            exact ⟨hg.sb l _ le_rfl hin.1 hin.2, hg.sb _ (r - 1) hin.1 (by omega) (by omega)⟩)
        rwa [hlm] at this
    · have hcut : r - 1 + 1 - l = r - l := by omega
      simp [ids, hcut]
  · rw [if_neg h1]
    by_cases h2 : pr - pl = 2
    · rw [if_pos h2]
      have hplen := (List.getElem?_eq_some_iff.mp hr).1
      have hcg : ps[pr - 1]? = some ps[pr - 1] := List.getElem?_eq_getElem (by omega)
      set c := ps[pr - 1] with hcdef
      have hlc := ht.lt hl hcg (by omega)
      have hcr := ht.lt hcg hr (by omega)
      rw [part_ok hcg, Outcome.bind_ok]
      unfold finalSplit
      have hcut : r - 1 + 1 - l = r - l := by omega
      simp only [hcut]
      have hin : ∀ i ∈ List.range' l (r - l), i < (s.lists narrow).len := by
        intro i hi; rw [List.mem_range'_1] at hi; omega
      rw [finalScan_eq _ _ _ hin, Outcome.bind_ok, finalScan_eq _ _ _ (fun i hi => hin i (List.mem_reverse.mp hi)), Outcome.bind_ok]
      obtain ⟨a0, a1, f1, f2, a0r, a1r, t1⟩ := finalBlock hg (a := l) (m := c - l) (by omega) le_rfl (by omega)
        (p := fun i => decide (((s.lists narrow).ref i).oindex < c)) (by
          intro i i1 i2
          have := hg.ba.inside i i1 i2
          simp only [decide_eq_true_eq]
          omega)
      obtain ⟨b0, b1, g1, g2, b0r, b1r, t2⟩ := finalBlock hg (a := c) (m := r - c) (by omega) (by omega) (by omega)
        (p := fun i => decide (c ≤ ((s.lists narrow).ref i).oindex)) (by
          intro i i1 i2
          have := hg.ba.inside i i1 i2
          simp only [decide_eq_true_eq]
          omega)
      have hp2 := pred32_eq (by omega : 0 < c) (by omega)
      simp only [f1, f2, g1, g2, Option.none_or, index32, hp2]
      rw [emit_ok (by omega) (by omega) (by omega) (by omega), Outcome.bind_ok]
      rw [emit_ok (s := { s with blocks := _ }) (by show _ < (s.lists wide).len; omega) (by show _ < (s.lists wide).len; omega)
        (by show _ < (s.lists narrow).len; omega) (by show _ < (s.lists narrow).len; omega)]
      have k1 : c - 1 + 1 - l = c - l := by omega
      have k2 : r - 1 + 1 - c = r - c := by omega
      refine ⟨_, rfl, fun _ => rfl, rfl, rfl, fun _ _ _ => rfl, [_, _], by rw [List.append_assoc]; rfl, ?_, ?_⟩
      · rw [h2]
        refine List.Forall₂.cons ⟨hl, ?_, by simp; omega, by simp, by simp; omega, by simp; omega, ?_⟩
          (List.Forall₂.cons ⟨?_, ?_, by simp; omega, by simp; omega, by simp; omega, by simp; omega, ?_⟩ List.Forall₂.nil)
        · rw [show pl + 1 = pr - 1 by omega, hcg]; simp; omega
        · unfold ids
          simp only [k1]
          rw [show l + (c - l) - 1 = c - 1 by omega] at t1
          exact t1
        · rw [show pl + 1 = pr - 1 by omega, hcg]
        · rw [show pl + 1 + 1 = pr by omega, hr]; simp; omega
        · unfold ids
          simp only [k2]
          rw [show c + (r - c) - 1 = r - 1 by omega] at t2
          exact t2
      · simp only [List.flatMap_cons, List.flatMap_nil, List.append_nil, ids, k1, k2]
        rw [← List.map_append]
        have := slice_add (s.lists wide).ref l (c - l) (r - c)
        rw [show l + (c - l) = c by omega, show c - l + (r - c) = r - l by omega] at this
        rw [this]
    · rw [if_neg h2]
      set pc := (pl + pr) / 2 with hpc
      have hplen := (List.getElem?_eq_some_iff.mp hr).1
      have hcg : ps[pc]? = some ps[pc] := List.getElem?_eq_getElem (by omega)
      set c := ps[pc] with hcdef
      have hlc := ht.lt hl hcg (by omega)
      have hcr := ht.lt hcg hr (by omega)
      simp only [part_ok hcg, Outcome.bind_ok]
      obtain ⟨s1, e1, e2, e3, e4, e5, e6⟩ := rearrangeNarrow_spec hsort (C := C) (o := o) hwn hws hns (l := l) (c := c) (n := r - l)
        (by omega) (by omega) s (by rw [show l + (r - l) = r by omega]; exact hg)
        (by rw [show l + (r - l) = r by omega]; exact hsp)
      rw [show l + (r - l) = r by omega] at e1 e5 e6
      rw [e1, Outcome.bind_ok]
      have hd2 : ∀ t, t ≠ spare → ((setDir s1 spare (s1.lists narrow).dir).lists t) = s1.lists t := by
        intro t h; simp [setDir, h]
      have hd2len : ∀ t, ((setDir s1 spare (s1.lists narrow).dir).lists t).len = (s1.lists t).len := by
        intro t; by_cases h : t = spare <;> simp [setDir, h]
      have hd2ref : ∀ t, ((setDir s1 spare (s1.lists narrow).dir).lists t).ref = (s1.lists t).ref := by
        intro t; by_cases h : t = spare <;> simp [setDir, h]
      have hd2dir : ((setDir s1 spare (s1.lists narrow).dir).lists spare).dir = (s1.lists narrow).dir := by simp [setDir]
      have hd2bl : (setDir s1 spare (s1.lists narrow).dir).blocks = s1.blocks := rfl
      set s2 := setDir s1 spare (s1.lists narrow).dir with hs2
      -- the lists handed to the recursion
      obtain ⟨sec, third, hpair, hsw, hts, htw, hgood, hthird, hsecdir⟩ : ∃ sec third : Slot,
          (if o.useSort = true then (narrow, spare) else (spare, narrow)) = (sec, third) ∧ sec ≠ wide ∧ third ≠ sec ∧ third ≠ wide ∧
          (Good C (s2.lists wide) (s2.lists sec) l c ∧ Good C (s2.lists wide) (s2.lists sec) c r) ∧
          (o.useSort = false → r ≤ (s2.lists third).len) ∧ (third = narrow ∨ sec = narrow) := by
        by_cases hm : o.useSort = true
        · rw [if_pos hm] at e6
          refine ⟨narrow, spare, by rw [if_pos hm], hwn, hns, hws, ?_, ?_, Or.inr rfl⟩
          · rw [← hd2ref wide, ← hd2ref narrow] at e6
            exact e6.good ⟨hlc.le, hcr.le⟩ hg (by rw [hd2 wide (Ne.symm hws), e3]) (by rw [hd2 narrow (Ne.symm hns), e3])
              (by rw [hd2len, e4]) (by rw [hd2len, e4]; exact hlb)
          · intro hh; rw [hm] at hh; cases hh
        · have hm' : o.useSort = false := by simpa using hm
          rw [if_neg hm] at e6
          refine ⟨spare, narrow, by rw [if_neg hm], hws, Ne.symm hns, hwn, ?_, ?_, Or.inl rfl⟩
          · rw [← hd2ref wide, ← hd2ref spare] at e6
            exact e6.good ⟨hlc.le, hcr.le⟩ hg (by rw [hd2 wide (Ne.symm hws), e3]) (by rw [hd2dir, e3])
              (by rw [hd2len, e4]) (by rw [hd2len, e4]; exact hsp hm')
          · intro _; rw [hd2len, e4]; exact hlb
      simp only [hpair]
      obtain ⟨s3, r3, p3⟩ := ih wide sec third pl pc l c s2 hsw htw hts (by omega) (by omega) hl hcg hgood.1
        (fun h => by have := hthird h; omega)
      rw [r3, Outcome.bind_ok]
      have g3 : Good C (s3.lists wide) (s3.lists sec) c r :=
        hgood.2.congr (fun i i1 i2 => p3.frame _ _ (by omega)) (fun i i1 i2 => p3.frame _ _ (by omega))
          p3.dira p3.dirb (p3.lens _) (p3.lens _)
      obtain ⟨s4, r4, p4⟩ := ih wide sec third pc pr c r s3 hsw htw hts (by omega) (by omega) hcg hr g3
        (fun h => by rw [p3.lens]; exact hthird h)
      rw [r4, Outcome.bind_ok]
      have hflen : ∀ t, ((setDir s4 narrow (s1.lists narrow).dir).lists t).len = (s4.lists t).len := by
        intro t; by_cases h : t = narrow <;> simp [setDir, h]
      have hfref : ∀ t, ((setDir s4 narrow (s1.lists narrow).dir).lists t).ref = (s4.lists t).ref := by
        intro t; by_cases h : t = narrow <;> simp [setDir, h]
      have hids : ∀ b, ids (setDir s4 narrow (s1.lists narrow).dir) b = ids s4 b := by
        intro b; unfold ids; rw [hfref]
      obtain ⟨bs3, b1, b2, b3⟩ := p3.blocks
      obtain ⟨bs4, d1, d2, d3⟩ := p4.blocks
      have hkeep : ∀ b ∈ bs3, b.right < c → ids s4 b = ids s3 b := by
        intro b _ hb
        exact ids_congr fun t k k1 k2 => p4.frame t k (by omega)
      have hb3r : ∀ b ∈ bs3, b.right < c := by
        intro b hb
        obtain ⟨i, hi, e⟩ := List.mem_iff_getElem.mp hb
        have := (List.forall₂_iff_get.mp b2).2 i hi (by rw [← b2.length_eq]; exact hi)
        simp only [List.get_eq_getElem, e] at this
        exact this.2.2.2.2.1
      refine ⟨_, rfl, ?_, ?_, ?_, ?_, bs3 ++ bs4, ?_, ?_, ?_⟩
      · intro t; rw [hflen, p4.lens, p3.lens, hd2len, e4]
      · have : ((setDir s4 narrow (s1.lists narrow).dir).lists wide) = s4.lists wide := by
          simp [setDir, Ne.symm hwn]
        rw [this, p4.dira, p3.dira, hd2 wide (Ne.symm hws), e3]
      · simp only [setDir, if_true]; rw [e3]
      · intro t k hk
        rw [hfref, p4.frame t k (by omega), p3.frame t k (by omega), hd2ref, e5 t k hk]
      · show s4.blocks = _
        rw [d1, b1, hd2bl, e2, List.append_assoc]
      · have hrange : List.range' pl (pr - pl) = List.range' pl (pc - pl) ++ List.range' pc (pr - pc) := by
          have := List.range'_append_1 (s := pl) (m := pc - pl) (n := pr - pc)
          rw [show pl + (pc - pl) = pc by omega, show pc - pl + (pr - pc) = pr - pl by omega] at this
          exact this.symm
        rw [hrange]
        refine List.rel_append ?_ ?_
        · rw [List.forall₂_iff_get] at b2 ⊢
          refine ⟨b2.1, fun i hi hj => ?_⟩
          obtain ⟨q1, q2, q3, q4, q5, q6, q7⟩ := b2.2 i hi hj
          refine ⟨q1, q2, q3, q4, by omega, ?_, ?_⟩
          · rw [hflen, p4.lens]; exact q6
          · rw [hids, hkeep _ (List.get_mem _ _) q5]; exact q7
        · refine d2.imp ?_
          rintro b j ⟨q1, q2, q3, q4, q5, q6, q7⟩
          refine ⟨q1, q2, q3, by omega, q5, ?_, ?_⟩
          · rw [hflen]; exact q6
          · rw [hids]; exact q7
      · rw [List.flatMap_append]
        have f3 : bs3.flatMap (ids (setDir s4 narrow (s1.lists narrow).dir)) = bs3.flatMap (ids s3) := by
          apply List.flatMap_congr
          intro b hb
          rw [hids, hkeep b hb (hb3r b hb)]
        have f4 : bs4.flatMap (ids (setDir s4 narrow (s1.lists narrow).dir)) = bs4.flatMap (ids s4) := by
          apply List.flatMap_congr
          intro b _; rw [hids]
        rw [f3, f4]
        have hpt : ∀ f : Nat → PtRef, ∀ a n, (∀ k, a ≤ k → k < a + n → (f k).ptindex = ((s.lists wide).ref k).ptindex) →
            (slice f a n).map PtRef.ptindex = (slice (s.lists wide).ref a n).map PtRef.ptindex := by
          intro f a n h
          unfold slice
          rw [List.map_map, List.map_map]
          apply List.map_congr_left
          intro i hi
          rw [List.mem_range'_1] at hi
          exact h i hi.1 hi.2
        rw [hpt (s2.lists wide).ref l (c - l) (fun k _ _ => by rw [hd2ref]; exact (e6.wpos k).2)] at b3
        rw [hpt (s3.lists wide).ref c (r - c) (fun k k1 _ => by
          rw [p3.frame wide k (by omega), hd2ref]; exact (e6.wpos k).2)] at d3
        have := slice_add (s.lists wide).ref l (c - l) (r - c)
        rw [show l + (c - l) = c by omega, show c - l + (r - c) = r - l by omega] at this
        rw [this, List.map_append]
        exact b3.append d3

theorem decideSplit_spec {sort : Sorter} (hsort : IsSort sort) {C : Dir → Nat → Fl} {o : Options} {ps : List Nat} (ht : Table ps)
    (fuel : Nat) : ∀ (v1 v2 sp : Slot) (pl pr l r : Nat) (s : St), v2 ≠ v1 → sp ≠ v1 → sp ≠ v2 → pl < pr → pr - pl ≤ fuel →
      ps[pl]? = some l → ps[pr]? = some r → Good C (s.lists v1) (s.lists v2) l r →
      (o.useSort = false → r ≤ (s.lists sp).len) →
      ∃ s', decideSplit sort o ps fuel v1 v2 sp pl pr s = .ok s' ∧ Post C ps v1 v2 pl pr l r s s' := by
  induction fuel with
  | zero => intro v1 v2 sp pl pr l r s _ _ _ h1 h2; omega
  | succ fuel ih =>
    intro v1 v2 sp pl pr l r s hv h1 h2 hlt hf hl hr hg hsp
    have hlr := ht.lt hl hr hlt
    have hpred := pred32_eq (by omega : 0 < r) (ht.small' hr)
    have hla := hg.la
    have hlb := hg.lb
    have ih' : ∀ (v1 v2 sp : Slot) (pl' pr' l' r' : Nat) (s : St), v2 ≠ v1 → sp ≠ v1 → sp ≠ v2 → pl' < pr' → pr' - pl' < pr - pl →
      ps[pl']? = some l' → ps[pr']? = some r' → Good C (s.lists v1) (s.lists v2) l' r' →
      (o.useSort = false → r' ≤ (s.lists sp).len) →
      ∃ s', decideSplit sort o ps fuel v1 v2 sp pl' pr' s = .ok s' ∧ Post C ps v1 v2 pl' pr' l' r' s s' := by
      intro v1 v2 sp pl' pr' l' r' s a b c d e
      exact ih v1 v2 sp pl' pr' l' r' s a b c d (by omega)
    unfold decideSplit
    rw [part_ok hl, Outcome.bind_ok, part_ok hr, Outcome.bind_ok]
    simp only [hpred]
    rw [get_ok (by omega), Outcome.bind_ok, get_ok (by omega), Outcome.bind_ok, get_ok (by omega), Outcome.bind_ok,
      get_ok (by omega), Outcome.bind_ok]
    split
    · exact split_spec hsort ht hl hr hlt ih' hv h1 h2 s hg hsp
    · obtain ⟨s', e, hp⟩ := split_spec hsort ht hl hr hlt ih' (Ne.symm hv) h2 h1 s hg.symm hsp
      exact ⟨s', e, hp.swap hlr.le hg.symm⟩

end LibLAS.Chipper
