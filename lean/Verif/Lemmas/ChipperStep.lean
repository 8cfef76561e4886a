import Verif.Lemmas.Chipper
/-
The loops of the chipper that write to its lists.
-/
namespace LibLAS.Chipper

open Spec

/-- The state after an element assignment. -/
def upd (s : St) (a : Slot) (i : Nat) (r : PtRef) : St :=
  { s with lists := fun b => if b = a then { s.lists a with ref := fun j => if j = i then r else (s.lists a).ref j } else s.lists b }

theorem put_ok {s a i r} (h : i < (s.lists a).len) : put s a i r = .ok (upd s a i r) := by
  unfold put; rw [if_pos h]; rfl

theorem get_ok {s a i} (h : i < (s.lists a).len) : get s a i = .ok ((s.lists a).ref i) := by
  unfold get; rw [if_pos h]

theorem putOIndex_ok {s a i o} (h : i < (s.lists a).len) :
    putOIndex s a i o = .ok (upd s a i { (s.lists a).ref i with oindex := o }) := by
  unfold putOIndex; rw [get_ok h, Outcome.bind_ok, put_ok h]

@[simp] theorem upd_blocks (s a i r) : (upd s a i r).blocks = s.blocks := rfl
theorem upd_other {s a i r b} (h : b ≠ a) : (upd s a i r).lists b = s.lists b := by simp [upd, h]
@[simp] theorem upd_dir (s a i r b) : ((upd s a i r).lists b).dir = (s.lists b).dir := by
  unfold upd; by_cases h : b = a <;> simp [h]
@[simp] theorem upd_len (s a i r b) : ((upd s a i r).lists b).len = (s.lists b).len := by
  unfold upd; by_cases h : b = a <;> simp [h]
theorem upd_ref (s a i r j) : ((upd s a i r).lists a).ref j = if j = i then r else (s.lists a).ref j := by
  simp [upd]

/-- `relink` and `linkByPoint` with the field that gives the target. -/
def relinkBy (key : PtRef → Nat) (wide narrow : Slot) : Nat → Nat → St → Outcome St
  | 0, _, s => .ok s
  | n + 1, i, s => do
    let e ← get s narrow i
    let s1 ← putOIndex s wide (key e) i
    relinkBy key wide narrow n (i + 1) s1

theorem relink_eq (wide narrow) (n i : Nat) (s : St) : relink wide narrow n i s = relinkBy PtRef.oindex wide narrow n i s := by
  induction n generalizing i s with
  | zero => rfl
  | succ n ih => simp only [relink, relinkBy, ih]

theorem linkByPoint_eq (n i : Nat) (s : St) : linkByPoint n i s = relinkBy PtRef.ptindex .y .x n i s := by
  induction n generalizing i s with
  | zero => rfl
  | succ n ih => simp only [linkByPoint, relinkBy, ih]

theorem relinkBy_spec {key : PtRef → Nat} {wide narrow : Slot} (hne : narrow ≠ wide) (n i : Nat) (s : St)
    (hlen : i + n ≤ (s.lists narrow).len)
    (hkey : ∀ j, i ≤ j → j < i + n → key ((s.lists narrow).ref j) < (s.lists wide).len)
    (hnd : ((slice (s.lists narrow).ref i n).map key).Nodup) :
    ∃ s', relinkBy key wide narrow n i s = .ok s' ∧ s'.blocks = s.blocks ∧ (∀ b, b ≠ wide → s'.lists b = s.lists b) ∧
      (∀ b, (s'.lists b).dir = (s.lists b).dir) ∧ (∀ b, (s'.lists b).len = (s.lists b).len) ∧
      (∀ k, ((s'.lists wide).ref k).pos = ((s.lists wide).ref k).pos ∧
        ((s'.lists wide).ref k).ptindex = ((s.lists wide).ref k).ptindex) ∧
      (∀ j, i ≤ j → j < i + n → ((s'.lists wide).ref (key ((s.lists narrow).ref j))).oindex = j) ∧
      (∀ k, (∀ j, i ≤ j → j < i + n → key ((s.lists narrow).ref j) ≠ k) → (s'.lists wide).ref k = (s.lists wide).ref k) := by
  induction n generalizing i s with
  | zero =>
    exact ⟨s, rfl, rfl, fun _ _ => rfl, fun _ => rfl, fun _ => rfl, fun _ => ⟨rfl, rfl⟩, fun j h1 h2 => by omega, fun _ _ => rfl⟩
  | succ n ih =>
    have hk0 := hkey i le_rfl (by omega)
    set e := (s.lists narrow).ref i with he
    set s1 := upd s wide (key e) { (s.lists wide).ref (key e) with oindex := i } with hs1
    have hnar : s1.lists narrow = s.lists narrow := upd_other hne
    rw [slice_succ, List.map_cons, List.nodup_cons] at hnd
    obtain ⟨s', e1, e2, e3, e4, e5, e6, e7, e8⟩ := ih (i + 1) s1 (by rw [hnar]; omega)
      (by intro j h1 h2; rw [hnar, hs1, upd_len]; exact hkey j (by omega) (by omega))
      (by rw [hnar]; exact hnd.2)
    have hfree : ∀ j, i + 1 ≤ j → j < i + 1 + n → key ((s.lists narrow).ref j) ≠ key e := by
      intro j h1 h2 hh
      apply hnd.1
      rw [← he, ← hh]
      exact List.mem_map_of_mem (mem_slice.mpr ⟨j, h1, h2, rfl⟩)
    refine ⟨s', ?_, ?_, ?_, ?_, ?_, ?_, ?_, ?_⟩
    · unfold relinkBy
      rw [get_ok (by omega), Outcome.bind_ok, putOIndex_ok hk0, Outcome.bind_ok]
      exact e1
    · rw [e2]; rfl
    · intro b hb; rw [e3 b hb]; exact upd_other hb
    · intro b; rw [e4 b]; simp [hs1]
    · intro b; rw [e5 b]; simp [hs1]
    · intro k
      rw [(e6 k).1, (e6 k).2, hs1, upd_ref]
      split
      · rename_i hk; subst hk; exact ⟨rfl, rfl⟩
      · exact ⟨rfl, rfl⟩
    · intro j h1 h2
      rcases Nat.eq_or_lt_of_le h1 with rfl | hlt
      · rw [← he, e8 (key e) (by intro j h1 h2; rw [hnar]; exact hfree j h1 h2), hs1, upd_ref, if_pos rfl]
      · have := e7 j (by omega) (by omega)
        rwa [hnar] at this
    · intro k hk
      rw [e8 k (by intro j h1 h2; rw [hnar]; exact hk j (by omega) (by omega)), hs1, upd_ref, if_neg]
      intro hh; exact hk i le_rfl (by omega) (by rw [hh])

theorem copyLoop_spec {wide narrow spare : Slot} (hwn : narrow ≠ wide) (hws : spare ≠ wide) (hns : spare ≠ narrow)
    (c r : Nat) (n i a b : Nat) (s : St)
    (hlen : i + n ≤ (s.lists narrow).len) (hsp : r ≤ (s.lists spare).len)
    (hkey : ∀ j, i ≤ j → j < i + n → ((s.lists narrow).ref j).oindex < (s.lists wide).len)
    (hnd : ((slice (s.lists narrow).ref i n).map PtRef.oindex).Nodup)
    (ha : a + ((slice (s.lists narrow).ref i n).filter fun e => decide (e.oindex < c)).length = c)
    (hb : b + ((slice (s.lists narrow).ref i n).filter fun e => decide (¬ e.oindex < c)).length = r)
    (hcb : c ≤ b) :
    ∃ s', copyLoop wide narrow spare c n i a b s = .ok s' ∧ s'.blocks = s.blocks ∧ s'.lists narrow = s.lists narrow ∧
      (∀ t, (s'.lists t).dir = (s.lists t).dir) ∧ (∀ t, (s'.lists t).len = (s.lists t).len) ∧
      (∀ k, ((s'.lists wide).ref k).pos = ((s.lists wide).ref k).pos ∧
        ((s'.lists wide).ref k).ptindex = ((s.lists wide).ref k).ptindex) ∧
      slice (s'.lists spare).ref a (c - a) = (slice (s.lists narrow).ref i n).filter (fun e => decide (e.oindex < c)) ∧
      slice (s'.lists spare).ref b (r - b) = (slice (s.lists narrow).ref i n).filter (fun e => decide (¬ e.oindex < c)) ∧
      (∀ j, (j < a ∨ c ≤ j) → (j < b ∨ r ≤ j) → (s'.lists spare).ref j = (s.lists spare).ref j) ∧
      (∀ j, (a ≤ j ∧ j < c) ∨ (b ≤ j ∧ j < r) → ((s'.lists wide).ref ((s'.lists spare).ref j).oindex).oindex = j) ∧
      (∀ k, (∀ j, i ≤ j → j < i + n → ((s.lists narrow).ref j).oindex ≠ k) → (s'.lists wide).ref k = (s.lists wide).ref k) := by
  induction n generalizing i a b s with
  | zero =>
    have ha : a = c := by simpa [slice] using ha
    have hb : b = r := by simpa [slice] using hb
    subst ha hb
    refine ⟨s, rfl, rfl, rfl, fun _ => rfl, fun _ => rfl, fun _ => ⟨rfl, rfl⟩, ?_, ?_, fun _ _ _ => rfl, ?_, fun _ _ => rfl⟩
    · simp [slice]
    · simp [slice]
    · intro j hj; omega
  | succ n ih =>
    have hk0 := hkey i le_rfl (by omega)
    set e := (s.lists narrow).ref i with he
    rw [slice_succ, ← he] at hnd ha hb
    rw [List.map_cons, List.nodup_cons] at hnd
    have hfree : ∀ j, i + 1 ≤ j → j < i + 1 + n → ((s.lists narrow).ref j).oindex ≠ e.oindex := by
      intro j h1 h2 hh
      apply hnd.1
      rw [← hh]
      exact List.mem_map_of_mem (mem_slice.mpr ⟨j, h1, h2, rfl⟩)
    by_cases hc : e.oindex < c
    · rw [List.filter_cons_of_pos (by simpa using hc), List.length_cons] at ha
      rw [List.filter_cons_of_neg (by simpa using hc)] at hb
      set s1 := upd s spare a e with hs1
      have hw1 : s1.lists wide = s.lists wide := upd_other (Ne.symm hws)
      set s2 := upd s1 wide e.oindex { (s1.lists wide).ref e.oindex with oindex := a } with hs2
      have hnar : s2.lists narrow = s.lists narrow := by
        rw [hs2, upd_other hwn, hs1, upd_other (Ne.symm hns)]
      have hspr : s2.lists spare = s1.lists spare := by rw [hs2, upd_other hws]
      obtain ⟨s', e1, e2, e3, e4, e5, e6, e7, e8, e9, e10, e11⟩ := ih (i + 1) (a + 1) b s2
        (by rw [hnar]; omega) (by rw [hs2, hs1]; simpa using hsp)
        (by intro j h1 h2; rw [hnar, hs2, hs1, upd_len, upd_len]; exact hkey j (by omega) (by omega))
        (by rw [hnar]; exact hnd.2) (by rw [hnar]; omega) (by rw [hnar]; exact hb) hcb
      rw [hnar] at e3 e7 e8 e11
      have hlow : (s'.lists spare).ref a = e := by
        rw [e9 a (by omega) (by omega), hspr, hs1, upd_ref, if_pos rfl]
      refine ⟨s', ?_, ?_, e3, ?_, ?_, ?_, ?_, ?_, ?_, ?_, ?_⟩
      · unfold copyLoop
        rw [get_ok (by omega), Outcome.bind_ok]
        rw [← he, if_pos hc, put_ok (by omega), Outcome.bind_ok, putOIndex_ok (by rw [upd_len]; exact hk0), Outcome.bind_ok]
        exact e1
      · rw [e2]; rfl
      · intro t; rw [e4 t]; simp [hs1, hs2]
      · intro t; rw [e5 t]; simp [hs1, hs2]
      · intro k
        rw [(e6 k).1, (e6 k).2, hs2, upd_ref, hw1]
        split
        · rename_i hk; subst hk; exact ⟨rfl, rfl⟩
        · exact ⟨rfl, rfl⟩
      · rw [slice_succ, ← he, List.filter_cons_of_pos (by simpa using hc), ← e7,
          show c - a = (c - (a + 1)) + 1 by omega, slice_succ, hlow]
      · rw [slice_succ, ← he, List.filter_cons_of_neg (by simpa using hc)]; exact e8
      · intro j h1 h2
        rw [e9 j (by omega) h2, hspr, hs1, upd_ref, if_neg (by omega)]
      · intro j hj
        by_cases hja : j = a
        · subst hja
          rw [hlow, e11 _ hfree, hs2, upd_ref, if_pos rfl]
        · exact e10 j (by omega)
      · intro k hk
        rw [e11 k (fun j h1 h2 => hk j (by omega) (by omega)), hs2, upd_ref, if_neg, hw1]
        intro hh; exact hk i le_rfl (by omega) (by rw [hh])
    · rw [List.filter_cons_of_neg (by simpa using hc)] at ha
      rw [List.filter_cons_of_pos (by simpa using hc), List.length_cons] at hb
      set s1 := upd s spare b e with hs1
      have hw1 : s1.lists wide = s.lists wide := upd_other (Ne.symm hws)
      set s2 := upd s1 wide e.oindex { (s1.lists wide).ref e.oindex with oindex := b } with hs2
      have hnar : s2.lists narrow = s.lists narrow := by
        rw [hs2, upd_other hwn, hs1, upd_other (Ne.symm hns)]
      have hspr : s2.lists spare = s1.lists spare := by rw [hs2, upd_other hws]
      obtain ⟨s', e1, e2, e3, e4, e5, e6, e7, e8, e9, e10, e11⟩ := ih (i + 1) a (b + 1) s2
        (by rw [hnar]; omega) (by rw [hs2, hs1]; simpa using hsp)
        (by intro j h1 h2; rw [hnar, hs2, hs1, upd_len, upd_len]; exact hkey j (by omega) (by omega))
        (by rw [hnar]; exact hnd.2) (by rw [hnar]; exact ha) (by rw [hnar]; omega) (by omega)
      rw [hnar] at e3 e7 e8 e11
      have hlow : (s'.lists spare).ref b = e := by
        rw [e9 b (by omega) (by omega), hspr, hs1, upd_ref, if_pos rfl]
      refine ⟨s', ?_, ?_, e3, ?_, ?_, ?_, ?_, ?_, ?_, ?_, ?_⟩
      · unfold copyLoop
        rw [get_ok (by omega), Outcome.bind_ok]
        rw [← he, if_neg hc, put_ok (by omega), Outcome.bind_ok, putOIndex_ok (by rw [upd_len]; exact hk0), Outcome.bind_ok]
        exact e1
      · rw [e2]; rfl
      · intro t; rw [e4 t]; simp [hs1, hs2]
      · intro t; rw [e5 t]; simp [hs1, hs2]
      · intro k
        rw [(e6 k).1, (e6 k).2, hs2, upd_ref, hw1]
        split
        · rename_i hk; subst hk; exact ⟨rfl, rfl⟩
        · exact ⟨rfl, rfl⟩
      · rw [slice_succ, ← he, List.filter_cons_of_neg (by simpa using hc)]; exact e7
      · rw [slice_succ, ← he, List.filter_cons_of_pos (by simpa using hc), ← e8,
          show r - b = (r - (b + 1)) + 1 by omega, slice_succ, hlow]
      · intro j h1 h2
        rw [e9 j h1 (by omega), hspr, hs1, upd_ref, if_neg (by omega)]
      · intro j hj
        by_cases hja : j = b
        · subst hja
          rw [hlow, e11 _ hfree, hs2, upd_ref, if_pos rfl]
        · exact e10 j (by omega)
      · intro k hk
        rw [e11 k (fun j h1 h2 => hk j (by omega) (by omega)), hs2, upd_ref, if_neg, hw1]
        intro hh; exact hk i le_rfl (by omega) (by rw [hh])

/-- A list in which nothing satisfying `p` follows something that does not is its `p` part, then the rest. -/
theorem filter_append_filter {L : List PtRef} {p : PtRef → Bool}
    (h : L.Pairwise fun a b => ¬ (p b = true ∧ p a = false)) : L = L.filter p ++ L.filter (fun e => !(p e)) := by
  induction L with
  | nil => rfl
  | cons x L ih =>
    rw [List.pairwise_cons] at h
    by_cases hx : p x = true
    · rw [List.filter_cons_of_pos hx, List.filter_cons_of_neg (by simp [hx]), List.cons_append, ← ih h.2]
    · have hx' : p x = false := by simpa using hx
      have h0 : L.filter p = [] := by
        rw [List.filter_eq_nil_iff]; intro b hb hp
        exact h.1 b hb ⟨hp, hx'⟩
      have h1 : L.filter (fun e => !(p e)) = L := by
        rw [List.filter_eq_self]; intro b hb
        have : ¬ p b = true := fun hp => h.1 b hb ⟨hp, hx'⟩
        simpa using this
      rw [List.filter_cons_of_neg hx, List.filter_cons_of_pos (by simp [hx']), h0, h1]; rfl

theorem posLt_false {a b : PtRef} (ha : a.pos ≠ .nan) (hb : b.pos ≠ .nan) (h : posLt b a = false) :
    Fl.le a.pos b.pos = true := by
  unfold posLt at h
  rw [Fl.lt_eq hb ha] at h; simpa using h

theorem Sorted.pairwise {f : Nat → PtRef} {l n} (h : Sorted f l (l + n)) :
    (slice f l n).Pairwise fun a b => Fl.le a.pos b.pos = true := by
  unfold slice
  rw [List.pairwise_map]
  have := List.pairwise_lt_range' (s := l) (n := n)
  rw [List.pairwise_iff_getElem] at this ⊢
  intro i j hi hj hij
  have h1 := this i j hi hj hij
  have m1 := List.getElem_mem hi
  have m2 := List.getElem_mem hj
  rw [List.mem_range'_1] at m1 m2
  exact h _ _ m1.1 h1.le m2.2

theorem Sorted.num {f : Nat → PtRef} {l r} (h : Sorted f l r) (i : Nat) (h1 : l ≤ i) (h2 : i < r) : (f i).pos ≠ .nan :=
  (Fl.le_num (h i i h1 le_rfl h2)).1

/-- What `RearrangeNarrow` does; `second` is the list that is the narrow one afterwards. -/
theorem rearrangeNarrow_spec {sort : Sorter} (hsort : IsSort sort) {C : Dir → Nat → Fl} {o : Options}
    {wide narrow spare : Slot} (hwn : narrow ≠ wide) (hws : spare ≠ wide) (hns : spare ≠ narrow)
    {l c n : Nat} (hn : 0 < n) (hc : l ≤ c ∧ c ≤ l + n) (s : St)
    (hg : Good C (s.lists wide) (s.lists narrow) l (l + n))
    (hsp : o.useSort = false → l + n ≤ (s.lists spare).len) :
    ∃ s', rearrangeNarrow sort o wide narrow spare l c (l + n - 1) s = .ok s' ∧ s'.blocks = s.blocks ∧
      (∀ t, (s'.lists t).dir = (s.lists t).dir) ∧ (∀ t, (s'.lists t).len = (s.lists t).len) ∧
      (∀ t k, (k < l ∨ l + n ≤ k) → (s'.lists t).ref k = (s.lists t).ref k) ∧
      Rearranged (s.lists wide).ref (s.lists narrow).ref (s'.lists wide).ref
        (s'.lists (if o.useSort then narrow else spare)).ref l c (l + n) := by
  have hnum : ∀ e ∈ slice (s.lists narrow).ref l n, e.pos ≠ .nan := by
    intro e he
    obtain ⟨i, h1, h2, rfl⟩ := mem_slice.mp he
    exact hg.sb.num i h1 h2
  have hcount := hg.ba.count hc.1 hc.2
  have hcut : l + n - 1 + 1 - l = n := by omega
  unfold rearrangeNarrow
  by_cases hm : o.useSort = true
  · rw [if_pos hm, if_pos hm]
    obtain ⟨hperm, hpw⟩ := hsort (oindexLt c) _ (oindexLt_strict c hnum)
    set L := sort (oindexLt c) (slice (s.lists narrow).ref l n) with hL
    have hLlen : L.length = n := by rw [hperm.length_eq]; simp
    set s1 : St := { s with lists := fun b => if b = narrow then
        { s.lists narrow with ref := paste (s.lists narrow).ref l L } else s.lists b } with hs1
    have hsb : sortByOIndex sort s narrow l c (l + n - 1) = .ok s1 := by
      unfold sortByOIndex
      rw [if_pos ⟨by have := hg.lb; omega, by omega⟩, hcut]
    rw [hsb, Outcome.bind_ok, relink_eq, hcut]
    have h1n : (s1.lists narrow).ref = paste (s.lists narrow).ref l L := by simp [hs1]
    have h1w : s1.lists wide = s.lists wide := by simp [hs1, Ne.symm hwn]
    have h1len : ∀ t, (s1.lists t).len = (s.lists t).len := by
      intro t; by_cases ht : t = narrow <;> simp [hs1, ht]
    have h1dir : ∀ t, (s1.lists t).dir = (s.lists t).dir := by
      intro t; by_cases ht : t = narrow <;> simp [hs1, ht]
    have hslice : slice (s1.lists narrow).ref l n = L := by
      rw [h1n, ← hLlen]; exact slice_paste _ _ _
    obtain ⟨s', e1, e2, e3, e4, e5, e6, e7, e8⟩ := relinkBy_spec (key := PtRef.oindex) hwn n l s1
      (by rw [h1len]; exact hg.lb)
      (by
        intro j h1 h2
        have : (s1.lists narrow).ref j ∈ slice (s.lists narrow).ref l n := by
          rw [← hperm.mem_iff, ← hslice]; exact mem_slice.mpr ⟨j, h1, h2, rfl⟩
        obtain ⟨i, i1, i2, ei⟩ := mem_slice.mp this
        rw [h1len, ← ei]
        have := (hg.ba.inside i i1 i2).2
        have := hg.la
        omega)
      (by rw [hslice, (hperm.map _).nodup_iff]; exact hg.ba.nodup)
    have hnar : s'.lists narrow = s1.lists narrow := e3 narrow hwn
    refine ⟨s', e1, by rw [e2], ?_, ?_, ?_, ?_⟩
    · intro t; rw [e4, h1dir]
    · intro t; rw [e5, h1len]
    · intro t k hk
      by_cases ht : t = wide
      · subst ht
        rw [e8 k, h1w]
        intro j h1 h2 hh
        have : (s1.lists narrow).ref j ∈ slice (s.lists narrow).ref l n := by
          rw [← hperm.mem_iff, ← hslice]; exact mem_slice.mpr ⟨j, h1, h2, rfl⟩
        obtain ⟨i, i1, i2, ei⟩ := mem_slice.mp this
        rw [← ei] at hh
        have := hg.ba.inside i i1 i2
        omega
      · rw [e3 t ht]
        by_cases htn : t = narrow
        · subst htn; rw [h1n, paste_outside (by omega)]
        · simp [hs1, htn]
    · have hsplit : L = L.filter (fun e => decide (e.oindex < c)) ++ L.filter (fun e => !(decide (e.oindex < c))) := by
        apply filter_append_filter
        refine hpw.imp ?_
        intro a b hab hh
        simp only [decide_eq_true_eq, decide_eq_false_iff_not] at hh
        have : oindexLt c b a = true := oindexLt_iff.mpr (Or.inl ⟨hh.1, by omega⟩)
        rw [this] at hab; cases hab
      have hnumL : ∀ e ∈ L, e.pos ≠ .nan := fun e he => hnum e (hperm.mem_iff.mp he)
      set A := L.filter (fun e => decide (e.oindex < c)) with hA
      set B := L.filter (fun e => !(decide (e.oindex < c))) with hB
      have hAl : A.length = c - l := by rw [hA, (hperm.filter _).length_eq]; exact hcount
      have hAB : slice (s'.lists narrow).ref l n = A ++ B := by rw [hnar, hslice]; exact hsplit
      have hcutn : n = (c - l) + (l + n - c) := by omega
      have hsl := slice_add (s'.lists narrow).ref l (c - l) (l + n - c)
      rw [← hcutn, hAB, show l + (c - l) = c by omega] at hsl
      obtain ⟨q1, q2⟩ := List.append_inj hsl (by simp [hAl])
      refine Rearranged.of_lists (A := A) (B := B) ?_ hc q1.symm q2.symm ?_ ?_ ?_ ?_ ?_ hnum ?_
      · intro k
        have := e6 k
        rwa [h1w] at this
      · rw [← hsplit]; exact hperm
      · intro e he; simpa using (List.mem_filter.mp he).2
      · intro e he; simpa using (List.mem_filter.mp he).2
      · have hp : A.Pairwise fun a b => oindexLt c b a = false := hpw.sublist List.filter_sublist
        refine hp.imp_of_mem ?_
        intro a b ha hb hab
        refine posLt_false (hnumL a (List.mem_filter.mp ha).1) (hnumL b (List.mem_filter.mp hb).1) ?_
        rw [Bool.eq_false_iff] at hab ⊢
        intro hh; apply hab
        have a1 : a.oindex < c := by simpa using (List.mem_filter.mp ha).2
        have b1 : b.oindex < c := by simpa using (List.mem_filter.mp hb).2
        exact oindexLt_iff.mpr (Or.inr ⟨by tauto, hh⟩)
      · have hp : B.Pairwise fun a b => oindexLt c b a = false := hpw.sublist List.filter_sublist
        refine hp.imp_of_mem ?_
        intro a b ha hb hab
        refine posLt_false (hnumL a (List.mem_filter.mp ha).1) (hnumL b (List.mem_filter.mp hb).1) ?_
        rw [Bool.eq_false_iff] at hab ⊢
        intro hh; apply hab
        have a1 : ¬ a.oindex < c := by simpa using (List.mem_filter.mp ha).2
        have b1 : ¬ b.oindex < c := by simpa using (List.mem_filter.mp hb).2
        exact oindexLt_iff.mpr (Or.inr ⟨by tauto, hh⟩)
      · intro i h1 h2
        rw [hnar]; exact e7 i h1 h2
  · rw [if_neg hm, if_neg hm, hcut]
    have hm' : o.useSort = false := by simpa using hm
    have hcount2 : ((slice (s.lists narrow).ref l n).filter fun e => decide (¬ e.oindex < c)).length = l + n - c := by
      have := List.length_eq_length_filter_add (l := slice (s.lists narrow).ref l n) (fun e => decide (e.oindex < c))
      rw [slice_length, hcount] at this
      have e : ((slice (s.lists narrow).ref l n).filter fun e => decide (¬ e.oindex < c)) =
          (slice (s.lists narrow).ref l n).filter (fun x => !decide (x.oindex < c)) := by
        congr 1; funext x; exact decide_not
      rw [e]; omega
    obtain ⟨s', e1, e2, e3, e4, e5, e6, e7, e8, e9, e10, e11⟩ :=
      copyLoop_spec hwn hws hns c (l + n) n l l c s hg.lb (hsp hm')
        (by intro j h1 h2; have := (hg.ba.inside j h1 h2).2; have := hg.la; omega)
        hg.ba.nodup (by rw [hcount]; omega) (by rw [hcount2]; omega) le_rfl
    refine ⟨s', e1, e2, e4, e5, ?_, ?_⟩
    · intro t k hk
      by_cases ht : t = wide
      · subst ht
        apply e11
        intro j h1 h2 hh
        have := hg.ba.inside j h1 h2
        omega
      · by_cases htn : t = narrow
        · subst htn; rw [e3]
        · have hts : t = spare := by
            revert ht htn hwn hws hns
            cases t <;> cases wide <;> cases narrow <;> cases spare <;> simp
          subst hts
          exact e9 k (by omega) (by omega)
    · have sp := hg.sb.pairwise
      refine Rearranged.of_lists e6 hc e7 e8 ?_ ?_ ?_ ?_ ?_ hnum ?_
      · have e : ((slice (s.lists narrow).ref l n).filter fun e => decide (¬ e.oindex < c)) =
            (slice (s.lists narrow).ref l n).filter (fun x => !decide (x.oindex < c)) := by
          congr 1; funext x; exact decide_not
        rw [e]; exact List.filter_append_perm _ _
      · intro e he; simpa using (List.mem_filter.mp he).2
      · intro e he; simpa using (List.mem_filter.mp he).2
      · exact sp.sublist List.filter_sublist
      · exact sp.sublist List.filter_sublist
      · intro i h1 h2; exact e10 i (by omega)

end LibLAS.Chipper
