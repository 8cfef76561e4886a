import Verif.Lemmas.ChipperRun
import Mathlib.Data.List.Range
/-
`Load` establishes the invariant of the recursion.
-/
namespace LibLAS.Chipper

open Spec

/-- The coordinates of the points by direction. -/
def coords (pts : List (Fl × Fl)) : Dir → Nat → Fl
  | .x, i => (pts.map Prod.fst).getD i .nan
  | _, i => (pts.map Prod.snd).getD i .nan

theorem sortWhole_spec {sort : Sorter} (hsort : IsSort sort) (s : St) (a : Slot) (n : Nat) (hl : (s.lists a).len = n)
    (hnum : ∀ i, i < n → ((s.lists a).ref i).pos ≠ .nan) :
    (∀ t, t ≠ a → (sortWhole sort s a).lists t = s.lists t) ∧
      ((sortWhole sort s a).lists a).dir = (s.lists a).dir ∧ ((sortWhole sort s a).lists a).len = n ∧
      (slice ((sortWhole sort s a).lists a).ref 0 n).Perm (slice (s.lists a).ref 0 n) ∧
      Sorted ((sortWhole sort s a).lists a).ref 0 n := by
  have hnn : ∀ e ∈ slice (s.lists a).ref 0 n, e.pos ≠ .nan := by
    intro e he
    obtain ⟨i, _, h2, rfl⟩ := mem_slice.mp he
    exact hnum i (by omega)
  obtain ⟨hp, hs⟩ := hsort posLt _ (posLt_strict hnn)
  have e : slice ((sortWhole sort s a).lists a).ref 0 n = sort posLt (slice (s.lists a).ref 0 n) := by
    simp only [sortWhole, if_true, hl]
    have hlen : (sort posLt (slice (s.lists a).ref 0 n)).length = n := by rw [hp.length_eq]; simp
    have := slice_paste (s.lists a).ref 0 (sort posLt (slice (s.lists a).ref 0 n))
    rwa [hlen] at this
  refine ⟨fun t ht => by simp [sortWhole, ht], by simp [sortWhole], by simp [sortWhole, hl], by rw [e]; exact hp, ?_⟩
  rw [← e] at hs
  intro i j _ h2 h3
  have hn' : ∀ k, k < n → (((sortWhole sort s a).lists a).ref k).pos ≠ .nan := by
    intro k hk
    apply hnn
    rw [← hp.mem_iff, ← e]
    exact mem_slice.mpr ⟨k, by omega, by omega, rfl⟩
  rcases Nat.eq_or_lt_of_le h2 with rfl | hlt
  · exact Fl.le_refl' (hn' i h3)
  · rw [List.pairwise_iff_getElem] at hs
    have := hs i j (by simp; omega) (by simpa using h3) hlt
    have e1 : (slice ((sortWhole sort s a).lists a).ref 0 n)[i]? = some (((sortWhole sort s a).lists a).ref i) := by
      rw [slice_getElem? (by omega)]; simp
    have e2 : (slice ((sortWhole sort s a).lists a).ref 0 n)[j]? = some (((sortWhole sort s a).lists a).ref j) := by
      rw [slice_getElem? (by omega)]; simp
    rw [List.getElem?_eq_some_iff] at e1 e2
    obtain ⟨_, e1⟩ := e1
    obtain ⟨_, e2⟩ := e2
    rw [e1, e2] at this
    exact posLt_false (hn' i (by omega)) (hn' j h3) this

theorem load_spec {sort : Sorter} (hsort : IsSort sort) (o : Options) (reserved : Nat) (pts : List (Fl × Fl))
    (hnum : ∀ p ∈ pts, p.1 ≠ .nan ∧ p.2 ≠ .nan) :
    ∃ s, load sort o reserved pts = .ok s ∧ s.blocks = [] ∧ (s.lists .x).len = pts.length ∧
      (s.lists .spare).len = (if o.useSort then 0 else reserved) ∧
      Good (coords pts) (s.lists .x) (s.lists .y) 0 pts.length ∧
      ((slice (s.lists .x).ref 0 pts.length).map PtRef.ptindex).Perm (List.range pts.length) := by
  set n := pts.length with hn
  set s0 : St := {
      lists := fun a => match a with
        | .x => ⟨.x, pts.length, fill (pts.map Prod.fst)⟩
        | .y => ⟨.y, pts.length, fill (pts.map Prod.snd)⟩
        | .spare => ⟨.none, if o.useSort then 0 else reserved, fun _ => ⟨.nan, 0, 0⟩⟩
      blocks := [] } with hs0
  have hx0 : ∀ i, i < n → (coords pts .x i) ≠ .nan := by
    intro i hi
    have : pts[i]? = some pts[i] := List.getElem?_eq_getElem hi
    simp only [coords, List.getD, List.getElem?_map, this, Option.map_some, Option.getD_some]
    exact (hnum _ (List.getElem_mem hi)).1
  have hy0 : ∀ i, i < n → (coords pts .y i) ≠ .nan := by
    intro i hi
    have : pts[i]? = some pts[i] := List.getElem?_eq_getElem hi
    simp only [coords, List.getD, List.getElem?_map, this, Option.map_some, Option.getD_some]
    exact (hnum _ (List.getElem_mem hi)).2
  have hguard : (pts.any fun p => p.1 = .nan || p.2 = .nan) = false := by
    rw [List.any_eq_false]
    intro p hp
    have := hnum p hp
    simp [this.1, this.2]
  -- first sort
  obtain ⟨a1, a2, a3, a4, a5⟩ := sortWhole_spec hsort s0 .x n rfl (fun i hi => hx0 i hi)
  have hx1 : ∀ i, i < n → ∃ j, j < n ∧ ((sortWhole sort s0 .x).lists .x).ref i = ⟨coords pts .x j, j, 0⟩ := by
    intro i hi
    obtain ⟨j, _, j2, e⟩ := mem_slice.mp (a4.mem_iff.mp (mem_slice.mpr ⟨i, by omega, by omega, rfl⟩))
    exact ⟨j, by omega, e.symm⟩
  have hx1p : ((slice ((sortWhole sort s0 .x).lists .x).ref 0 n).map PtRef.ptindex).Perm (List.range n) := by
    refine (a4.map _).trans ?_
    apply List.Perm.of_eq
    simp [slice, hs0, fill, List.range_eq_range', Function.comp_def]
  set s1 := sortWhole sort s0 .x with hs1
  have hy1 : s1.lists .y = ⟨.y, n, fill (pts.map Prod.snd)⟩ := a1 .y (by decide)
  have hsp1 : (s1.lists .spare).len = if o.useSort then 0 else reserved := by rw [a1 .spare (by decide)]
  -- the first link
  obtain ⟨s2, r2, b2, c2, d2, l2, p2, k2, _⟩ := relinkBy_spec (key := PtRef.ptindex) (wide := .y) (narrow := .x) (by decide) n 0 s1
    (by rw [a3]; omega)
    (by
      intro j _ h2
      obtain ⟨k, hk, e⟩ := hx1 j (by omega)
      rw [e, hy1]; exact hk)
    (by rw [hx1p.nodup_iff]; exact List.nodup_range)
  have hx2 : s2.lists .x = s1.lists .x := c2 .x (by decide)
  -- second sort
  have hy2 : ∀ j, ((s2.lists .y).ref j).pos = coords pts .y j ∧ ((s2.lists .y).ref j).ptindex = j := by
    intro j; rw [(p2 j).1, (p2 j).2, hy1]; exact ⟨rfl, rfl⟩
  obtain ⟨f1, f2, f3, f4, f5⟩ := sortWhole_spec hsort s2 .y n (by rw [l2, hy1]) (fun i hi => by rw [(hy2 i).1]; exact hy0 i hi)
  set s3 := sortWhole sort s2 .y with hs3
  have hx3 : s3.lists .x = s1.lists .x := by rw [f1 .x (by decide), hx2]
  -- the place of each point in the x list
  have place : ∀ j, j < n → ∃ k, k < n ∧ ((s1.lists .x).ref k).ptindex = j ∧ ((s2.lists .y).ref j).oindex = k := by
    intro j hj
    have : j ∈ (slice (s1.lists .x).ref 0 n).map PtRef.ptindex := hx1p.mem_iff.mpr (List.mem_range.mpr hj)
    obtain ⟨e, he, hej⟩ := List.mem_map.mp this
    obtain ⟨k, _, hk, rfl⟩ := mem_slice.mp he
    have := k2 k (by omega) (by omega)
    rw [hej] at this
    exact ⟨k, by omega, hej, this⟩
  have hy3 : ∀ i, i < n → ∃ j, j < n ∧ (s3.lists .y).ref i = (s2.lists .y).ref j := by
    intro i hi
    obtain ⟨j, _, j2, e⟩ := mem_slice.mp (f4.mem_iff.mp (mem_slice.mpr ⟨i, by omega, by omega, rfl⟩))
    exact ⟨j, by omega, e.symm⟩
  have hy3o : ∀ j, j < n → ∃ i, i < n ∧ (s3.lists .y).ref i = (s2.lists .y).ref j := by
    intro j hj
    obtain ⟨i, _, i2, e⟩ := mem_slice.mp (f4.mem_iff.mpr (mem_slice.mpr ⟨j, by omega, by omega, rfl⟩))
    exact ⟨i, by omega, e⟩
  have hnd3 : ((slice (s3.lists .y).ref 0 n).map PtRef.oindex).Nodup := by
    rw [(f4.map _).nodup_iff]
    unfold slice
    rw [List.map_map]
    refine List.Nodup.map_on ?_ List.nodup_range'
    intro x hx y hy hxy
    rw [List.mem_range'_1] at hx hy
    simp only [Function.comp_apply] at hxy
    obtain ⟨kx, _, ex, ox⟩ := place x (by omega)
    obtain ⟨ky, _, ey, oy⟩ := place y (by omega)
    rw [← ex, ← ox, hxy, oy, ey]
  obtain ⟨s4, r4, b4, c4, d4, l4, p4, k4, _⟩ := relinkBy_spec (key := PtRef.oindex) (wide := .x) (narrow := .y) (by decide) n 0 s3
    (by rw [f3]; omega)
    (by
      intro i _ h2
      obtain ⟨j, hj, e⟩ := hy3 i (by omega)
      obtain ⟨k, hk, _, o'⟩ := place j hj
      rw [e, o', hx3, a3]; exact hk)
    hnd3
  have hy4 : s4.lists .y = s3.lists .y := c4 .y (by decide)
  have hx4 : ∀ k, ((s4.lists .x).ref k).pos = ((s1.lists .x).ref k).pos ∧ ((s4.lists .x).ref k).ptindex = ((s1.lists .x).ref k).ptindex := by
    intro k
    have := p4 k
    rwa [hx3] at this
  refine ⟨s4, ?_, ?_, ?_, ?_, ?_, ?_⟩
  · unfold load
    rw [if_neg (by rw [hguard]; decide)]
    simp only [linkByPoint_eq, relink_eq]
    have fin : (relinkBy PtRef.ptindex .y .x n 0 s1 >>= fun s2 =>
        relinkBy PtRef.oindex .x .y n 0 (sortWhole sort s2 .y)) = .ok s4 := by
      rw [r2, Outcome.bind_ok]; exact r4
    exact fin
  · rw [b4, hs3]
    show s2.blocks = []
    rw [b2]; rfl
  · rw [l4, hx3, a3]
  · rw [l4, f1 .spare (by decide), c2 .spare (by decide), hsp1]
  · have yx : Linked (s4.lists .y).ref (s4.lists .x).ref 0 n := by
      rw [hy4]
      constructor
      · intro i _ h2
        obtain ⟨j, hj, e⟩ := hy3 i h2
        obtain ⟨k, hk, _, o'⟩ := place j hj
        rw [e, o']; omega
      · intro i h1 h2; exact k4 i h1 (by omega)
      · intro i _ h2
        obtain ⟨j, hj, e⟩ := hy3 i h2
        obtain ⟨k, hk, ek, o'⟩ := place j hj
        rw [(hx4 _).2, e, o', ek, (hy2 j).2]
    have key : ∀ k, k < n → ∃ i, i < n ∧ ((s3.lists .y).ref i).oindex = k ∧
        ((s3.lists .y).ref i).ptindex = ((s4.lists .x).ref k).ptindex ∧ ((s4.lists .x).ref k).oindex = i := by
      intro k hk
      obtain ⟨j, hj, e⟩ := hx1 k hk
      obtain ⟨i, hi, ei⟩ := hy3o j hj
      have ej : ((s1.lists .x).ref k).ptindex = j := by rw [e]
      have := k2 k (by omega) (by omega)
      rw [ej] at this
      have ek : ((s3.lists .y).ref i).oindex = k := by rw [ei]; exact this
      refine ⟨i, hi, ek, ?_, ?_⟩
      · rw [ei, (hy2 j).2, (hx4 k).2, ej]
      · have := k4 i (by omega) (by omega)
        rwa [ek] at this
    have xy : Linked (s4.lists .x).ref (s4.lists .y).ref 0 n := by
      rw [hy4]
      constructor
      · intro k _ h2
        obtain ⟨i, hi, _, _, e⟩ := key k h2
        rw [e]; omega
      · intro k _ h2
        obtain ⟨i, hi, e1, _, e⟩ := key k h2
        rw [e, e1]
      · intro k _ h2
        obtain ⟨i, hi, _, e2, e⟩ := key k h2
        rw [e, e2]
    have dx : (s4.lists .x).dir = .x := by rw [d4, hx3, a2]
    have dy : (s4.lists .y).dir = .y := by rw [d4, f2, d2, hy1]
    refine ⟨xy, yx, ?_, ?_, ?_, ?_, Or.inl ⟨dx, dy⟩, ?_, ?_⟩
    · intro i j h1 h2 h3; rw [(hx4 i).1, (hx4 j).1]; exact a5 i j h1 h2 h3
    · rw [hy4]; exact f5
    · intro i _ h2
      obtain ⟨j, _, e⟩ := hx1 i h2
      rw [dx, (hx4 i).1, (hx4 i).2, e]
    · intro i _ h2
      obtain ⟨j, _, e⟩ := hy3 i h2
      rw [dy, hy4, e, (hy2 j).1, (hy2 j).2]
    · rw [l4, hx3, a3]
    · rw [l4, f3]
  · refine List.Perm.trans (List.Perm.of_eq ?_) hx1p
    unfold slice
    rw [List.map_map, List.map_map]
    apply List.map_congr_left
    intro k _
    exact (hx4 k).2

end LibLAS.Chipper
