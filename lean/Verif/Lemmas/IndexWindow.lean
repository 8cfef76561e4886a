import Verif.Lemmas.IndexAxis
import Verif.Lemmas.IndexChunks
/-
A query with a window, on the cells of an index.
-/
namespace LibLAS.Index
open Spec

/-- The numbers of an axis. -/
structure AxisFacts (lo hi l u : Fl) (n : Nat) (A : Axis) : Prop where
  deep : ∀ c k, Between lo hi c → InPart lo hi c n k → k < n → Deep lo hi l u c → A.meets k = true ∧ axisOK A false k l u c = true ∧
    A.half false k (!(Fl.lt (.fin (1 / 2)) (partOf lo (Fl.sub hi lo) n k c))) = true
  near : ∀ c k, Between lo hi c → InPart lo hi c n k → axisOK A false k l u c = true → Near lo hi l u c

theorem axis_facts {lo hi l u : Fl} {n : Nat} (hW : Within lo hi l u) (h0 : 0 < n) (h1 : n < 2 ^ 29) :
    ∃ A, axisOf (cellNumber lo (Fl.sub hi lo) n l) (cellNumber lo (Fl.sub hi lo) n u) = .ok A ∧ AxisFacts lo hi l u n A := by
  obtain ⟨a, b, p, q, rfl, rfl, rfl, rfl, w1, w2, w3, w4, w5, w6⟩ := hW
  obtain ⟨A, e, hA⟩ := axis_ok h0 h1 w4 w5 w6 w1 w2 w3
  have hd : 0 < b - a := lt_of_lt_of_le (by positivity) w6
  refine ⟨A, e, ⟨?_, ?_⟩⟩
  · rintro c k ⟨a', b', d, ea, eb, rfl, c1, c2, -⟩ ⟨a2, b2, d2, ea2, eb2, ed2, i1, i2⟩ hk ⟨a3, b3, p3, q3, d3, ea3, eb3, ep3, eq3, ed3, m1, m2⟩
    injection ea with ea; injection eb with eb; injection ea2 with ea2; injection eb2 with eb2; injection ed2 with ed2
    injection ea3 with ea3; injection eb3 with eb3; injection ep3 with ep3; injection eq3 with eq3; injection ed3 with ed3
    subst ea eb ea2 eb2 ed2 ea3 eb3 ep3 eq3 ed3
    have hin : InK a b n d k := ⟨i1, i2⟩
    obtain ⟨f1, f2⟩ := axis_deep hA h0 h1 hk hd hin m1 m2
    refine ⟨f1, f2, ?_⟩
    obtain ⟨t, t1, t2⟩ := partOf_near (n := n) (x := k) (by omega) hk w4 w5 c1 c2 w6
    rw [t1]
    exact axis_half hA h0 h1 hk hd hin m1 m2 t2
  · rintro c k ⟨a', b', d, ea, eb, rfl, c1, c2, -⟩ ⟨a2, b2, d2, ea2, eb2, ed2, i1, i2⟩ h
    injection ea with ea; injection eb with eb; injection ea2 with ea2; injection eb2 with eb2; injection ed2 with ed2
    subst ea eb ea2 eb2 ed2
    obtain ⟨m1, m2⟩ := axis_near hA h0 hd ⟨i1, i2⟩ h
    exact ⟨a, b, p, q, d, rfl, rfl, rfl, rfl, rfl, m1, m2⟩

/-- The z axis, when cells are not divided in z. -/
structure FlatFacts (lo hi l u : Fl) (A : Axis) : Prop where
  deep : ∀ c, Between lo hi c → Deep lo hi l u c → axisOK A false 0 l u c = true
  near : ∀ c, Between lo hi c → axisOK A false 0 l u c = true → Near lo hi l u c

theorem inPart_one {lo hi c : Fl} (h : Between lo hi c) : InPart lo hi c 1 0 := by
  obtain ⟨a, b, d, rfl, rfl, rfl, h2, h3, h4, h5, h6⟩ := h
  have hd : 0 < b - a := lt_of_lt_of_le (by positivity) h6
  have e1 : 0 ≤ (d - a) / (b - a) := div_nonneg (by linarith) hd.le
  have e2 : (d - a) / (b - a) ≤ 1 := by rw [div_le_one hd]; linarith
  refine ⟨a, b, d, rfl, rfl, rfl, ?_, ?_⟩
  · push_cast; linarith
  · push_cast; norm_num; linarith

theorem zAxis_facts {lo hi l u : Fl} {n : Nat} (flat : Bool) (hW : Within lo hi l u) (h0 : 0 < n) (h1 : n < 2 ^ 29) :
    ∃ A, axisOf (if flat then .fin 0 else cellNumber lo (Fl.sub hi lo) n l) (if flat then .fin 0 else cellNumber lo (Fl.sub hi lo) n u) = .ok A ∧
      (n = 1 → FlatFacts lo hi l u A) := by
  cases flat with
  | false =>
    obtain ⟨A, e, hA⟩ := axis_facts hW h0 h1
    refine ⟨A, e, ?_⟩
    rintro rfl
    refine ⟨fun c hb hd => (hA.deep c 0 hb (inPart_one hb) (by omega) hd).2.1, fun c hb h => hA.near c 0 hb (inPart_one hb) h⟩
  | true =>
    refine ⟨⟨0, -1, 0, -1, .fin 0, .fin 1⟩, by rw [if_pos rfl, if_pos rfl]; decide +kernel, fun _ => ?_⟩
    have key : ∀ c, axisOK ⟨0, -1, 0, -1, .fin 0, .fin 1⟩ false 0 l u c = between l u c := by
      intro c
      unfold axisOK Axis.inside
      simp
    obtain ⟨a, b, p, q, rfl, rfl, rfl, rfl, w1, w2, w3, w4, w5, w6⟩ := hW
    have hmar : 0 ≤ margin a b := by unfold margin; positivity
    refine ⟨?_, ?_⟩
    · rintro c - ⟨a3, b3, p3, q3, d3, ea3, eb3, ep3, eq3, rfl, m1, m2⟩
      injection ea3 with ea3; injection eb3 with eb3; injection ep3 with ep3; injection eq3 with eq3
      subst ea3 eb3 ep3 eq3
      rw [key]
      unfold between
      simp only [Fl.le, Bool.and_eq_true, decide_eq_true_eq]
      constructor
      · rcases m1 with ⟨e, m1⟩ | m1 <;> linarith
      · rcases m2 with ⟨e, m2⟩ | m2 <;> linarith
    · rintro c ⟨a', b', d, ea, eb, rfl, c1, c2, -⟩ h
      rw [key] at h
      unfold between at h
      simp only [Fl.le, Bool.and_eq_true, decide_eq_true_eq] at h
      exact ⟨a, b, p, q, d, rfl, rfl, rfl, rfl, rfl, by linarith, by linarith⟩

/-- What is known of the numbers of a window. -/
structure WindowFacts (g : Grid) (w : Window) : Prop where
  x : AxisFacts g.min.x g.max.x w.q.min.x w.q.max.x g.cellsX w.x
  y : AxisFacts g.min.y g.max.y w.q.min.y w.q.max.y g.cellsY w.y
  z : g.cellsZ = 1 → FlatFacts g.min.z g.max.z w.q.min.z w.q.max.z w.z

theorem setCellBounds_facts {g : Grid} {q : Query} (hq : QueryOK g q) (hg : GridOK g) (hz0 : 0 < g.cellsZ) (hz : g.cellsZ < 2 ^ 29) :
    ∃ x y z, setCellBounds g q = .ok (x, y, z) ∧ WindowFacts g ⟨q, x, y, z⟩ := by
  have hs := hg.small
  have hxy : g.cellsX < 2 ^ 29 ∧ g.cellsY < 2 ^ 29 := by
    have hx := hg.x
    have hy := hg.y
    constructor
    · have := Nat.le_mul_of_pos_right g.cellsX hy; omega
    · have := Nat.le_mul_of_pos_left g.cellsY hx; omega
  obtain ⟨x, x1, x2⟩ := axis_facts hq.x hg.x hxy.1
  obtain ⟨y, y1, y2⟩ := axis_facts hq.y hg.y hxy.2
  obtain ⟨z, z1, z2⟩ := zAxis_facts (!(Fl.lt (.fin 0) g.rangeZ && !(Point.compareDistance g.rangeZ (.fin 0)))) hq.z hz0 hz
  refine ⟨x, y, z, ?_, ⟨x2, y2, z2⟩⟩
  unfold setCellBounds
  simp only
  unfold Grid.rangeX Grid.rangeY
  rw [x1, y1]
  show (axisOf _ _).bind _ = _
  unfold Grid.rangeZ at z1 ⊢
  rw [z1]
  rfl

/-! The points found in a cell. -/

theorem mem_runItems {pts : List Pt} {w : Window} {x y z : Int} {id0 n id : Nat} :
    some id ∈ runItems pts w x y z id0 n ↔ (∃ k < n, id = id0 + k) ∧ ∃ P, pts[id]? = some P ∧ accept w x y z P = true := by
  unfold runItems
  simp only [List.mem_map, List.mem_range]
  constructor
  · rintro ⟨k, hk, h⟩
    split at h
    · rename_i hc
      injection h with h
      subst h
      rw [Option.any_eq_true] at hc
      exact ⟨⟨k, hk, rfl⟩, hc⟩
    · simp at h
  · rintro ⟨⟨k, hk, rfl⟩, hP⟩
    refine ⟨k, hk, ?_⟩
    rw [if_pos (by rw [Option.any_eq_true]; exact hP)]

theorem mem_partItems {pts : List Pt} {w : Window} {x y : Nat} {p : Place} {r : Runs} {id : Nat} :
    some id ∈ partItems pts w x y p r ↔ placeOK w x y p = true ∧ id ∈ Spec.ids r ∧ ∃ P, pts[id]? = some P ∧ accept w (i32 x) (i32 y) (i32 (placeZ p)) P = true := by
  unfold partItems Spec.ids
  simp only [List.mem_flatMap, List.mem_map, List.mem_range]
  constructor
  · rintro ⟨e, he, h⟩
    split at h
    · rename_i hp
      obtain ⟨⟨k, hk, rfl⟩, hP⟩ := mem_runItems.1 h
      exact ⟨hp, ⟨e, he, k, hk, rfl⟩, hP⟩
    · have := List.eq_of_mem_replicate h
      simp at this
  · rintro ⟨hp, ⟨e, he, k, hk, rfl⟩, hP⟩
    refine ⟨e, he, ?_⟩
    rw [if_pos hp]
    exact mem_runItems.2 ⟨⟨k, hk, rfl⟩, hP⟩

theorem mem_subItems {pts : List Pt} {w : Window} {x y : Nat} {p : Nat → Place} {m : List (Nat × Runs)} {id : Nat} :
    some id ∈ subItems pts w x y p m ↔ ∃ s ∈ m, placeOK w x y (p s.1) = true ∧ id ∈ Spec.ids s.2 ∧
      ∃ P, pts[id]? = some P ∧ accept w (i32 x) (i32 y) (i32 (placeZ (p s.1))) P = true := by
  unfold subItems
  simp only [List.mem_flatMap, mem_partItems]

/-- The ids accepted are among those of the cell. -/
theorem accepted_runs {pts : List Pt} {w : Window} {x y : Nat} {p : Place} (r : Runs) : (accepted (partItems pts w x y p r)).Sublist (Spec.ids r) := by
  induction r with
  | nil => exact List.Sublist.refl _
  | cons e r ih =>
    have e1 : accepted (partItems pts w x y p (e :: r)) = accepted (partItems pts w x y p [e]) ++ accepted (partItems pts w x y p r) := by
      simp [partItems, accepted]
    have e2 : Spec.ids (e :: r) = Spec.ids [e] ++ Spec.ids r := by simp [Spec.ids]
    rw [e1, e2]
    refine List.Sublist.append ?_ ih
    simp only [partItems, List.flatMap_cons, List.flatMap_nil, List.append_nil, Spec.ids]
    split
    · unfold runItems accepted
      rw [List.filterMap_map]
      have : ∀ l : List Nat, (l.filterMap (id ∘ fun k => if (pts[e.1 + k]?.any (accept w (i32 x) (i32 y) (i32 (placeZ p)))) = true then some (e.1 + k) else none)).Sublist
          (l.map (e.1 + ·)) := by
        intro l
        induction l with
        | nil => exact List.Sublist.refl _
        | cons k l ih =>
          rw [List.filterMap_cons]
          simp only [Function.comp, id]
          split
          · rename_i h
            split at h
            · simp at h
            · exact List.Sublist.cons _ ih
          · rename_i h
            split at h
            · injection h with h; subst h; exact List.Sublist.cons_cons _ ih
            · simp at h
      exact this _
    · unfold accepted
      rw [List.filterMap_eq_nil_iff.2 (fun a ha => by rw [List.eq_of_mem_replicate ha]; rfl)]
      exact List.nil_sublist _

theorem accepted_subs {pts : List Pt} {w : Window} {x y : Nat} {p : Nat → Place} (m : List (Nat × Runs)) :
    (accepted (subItems pts w x y p m)).Sublist (m.flatMap fun e => Spec.ids e.2) := by
  induction m with
  | nil => exact List.Sublist.refl _
  | cons e m ih =>
    have e1 : accepted (subItems pts w x y p (e :: m)) = accepted (partItems pts w x y (p e.1) e.2) ++ accepted (subItems pts w x y p m) := by
      simp [subItems, accepted]
    rw [e1, List.flatMap_cons]
    exact (accepted_runs _).append ih

theorem accepted_cell {pts : List Pt} {w : Window} (e : (Nat × Nat) × Cell) : (accepted (cellItems pts w e)).Sublist (cellIds e.2) := by
  unfold cellItems cellIds
  split
  · refine (accepted_subs _).trans ?_
    rw [List.append_assoc]
    exact (List.sublist_append_left _ _).trans (List.sublist_append_right _ _)
  · split
    · exact (accepted_subs _).trans (List.sublist_append_right _ _)
    · rw [List.append_assoc]
      exact (accepted_runs _).trans (List.sublist_append_left _ _)

theorem accepted_flatMap {α : Type} (f : α → List (Option Nat)) (h : α → List Nat) (l : List α) (hf : ∀ a ∈ l, (accepted (f a)).Sublist (h a)) :
    (accepted (l.flatMap f)).Sublist (l.flatMap h) := by
  induction l with
  | nil => exact List.Sublist.refl _
  | cons a l ih =>
    have e1 : accepted ((a :: l).flatMap f) = accepted (f a) ++ accepted (l.flatMap f) := by simp [accepted]
    rw [e1, List.flatMap_cons]
    exact (hf a (by simp)).append (ih fun b hb => hf b (by simp [hb]))

theorem accepted_all {pts : List Pt} {w : Window} (cs : List ((Nat × Nat) × Cell)) :
    (accepted (allItems pts w (groups cs))).Sublist (cs.flatMap fun e => cellIds e.2) := by
  have h1 : (accepted (allItems pts w (groups cs))).Sublist ((groups cs).flatMap fun g => g.cells.flatMap fun e => cellIds e.2) := by
    unfold allItems
    refine accepted_flatMap _ _ _ ?_
    intro g _
    unfold grpItems
    split
    · exact accepted_flatMap _ _ _ fun e _ => accepted_cell e
    · unfold accepted
      rw [List.filterMap_eq_nil_iff.2 (fun a ha => by rw [List.eq_of_mem_replicate ha]; rfl)]
      exact List.nil_sublist _
  refine h1.trans ?_
  rw [← List.flatMap_assoc, groups_cells]
  have : ∀ l : List ((Nat × Nat) × Cell), ((l.filter fun e => decide (e.2.numPoints ≠ 0)).flatMap fun e => cellIds e.2).Sublist (l.flatMap fun e => cellIds e.2) := by
    intro l
    induction l with
    | nil => exact List.Sublist.refl _
    | cons e l ih =>
      rw [List.filter_cons, List.flatMap_cons]
      split
      · rw [List.flatMap_cons]; exact (List.Sublist.refl _).append ih
      · exact ih.trans (List.sublist_append_right _ _)
  exact this cs

theorem mem_accepted {l : List (Option Nat)} {i : Nat} : i ∈ accepted l ↔ some i ∈ l := by
  unfold accepted
  simp

theorem mem_all {pts : List Pt} {w : Window} {cs : List ((Nat × Nat) × Cell)} {i : Nat} :
    i ∈ accepted (allItems pts w (groups cs)) ↔ ∃ g ∈ groups cs, vlrOf w g = true ∧ ∃ e ∈ g.cells, some i ∈ cellItems pts w e := by
  rw [mem_accepted]
  unfold allItems
  rw [List.mem_flatMap]
  constructor
  · rintro ⟨g, hg, h⟩
    unfold grpItems at h
    split at h
    · rename_i hv
      exact ⟨g, hg, hv, List.mem_flatMap.1 h⟩
    · have := List.eq_of_mem_replicate h
      simp at this
  · rintro ⟨g, hg, hv, he⟩
    refine ⟨g, hg, ?_⟩
    unfold grpItems
    rw [if_pos hv]
    exact List.mem_flatMap.2 he

theorem cells_order (g : Grid) : g.cells.Pairwise CellLE := by
  unfold Grid.cells
  rw [List.pairwise_flatMap]
  refine ⟨fun x _ => ?_, ?_⟩
  · rw [List.pairwise_map]
    exact List.pairwise_lt_range.imp fun h => Or.inr ⟨rfl, h.le⟩
  · refine List.pairwise_lt_range.imp ?_
    intro a b hab p hp q hq
    obtain ⟨y, -, rfl⟩ := List.mem_map.1 hp
    obtain ⟨z, -, rfl⟩ := List.mem_map.1 hq
    exact Or.inl hab

/-- A group with a cell that is looked at is looked at, unless the cell is too long for one record. -/
theorem vlr_ok {w : Window} {cs : List ((Nat × Nat) × Cell)} (ho : cs.Pairwise fun a b => CellLE a.1 b.1) {g : Grp} (hg : g ∈ groups cs)
    (hsz : g.size ≤ maxVLR) (hsmall : ∀ e ∈ cs, e.1.1 < 2 ^ 31 ∧ e.1.2 < 2 ^ 31) {e : (Nat × Nat) × Cell} (he : e ∈ g.cells)
    (hc : w.cell (i32 e.1.1) (i32 e.1.2) = true) : vlrOf w g = true := by
  have k := groups_ok cs g hg
  obtain ⟨o1, o2⟩ := k.order hsz ho e he
  obtain ⟨f, f1, f2⟩ := k.first
  obtain ⟨l, l1, l2⟩ := k.last
  have sf := hsmall f f1
  have sl := hsmall l l1
  have se := hsmall e (k.cells e he).1
  rw [← f2] at sf
  rw [← l2] at sl
  unfold vlrOf Window.vlr
  unfold Window.cell Axis.meets at hc
  rw [i32_small sf.1, i32_small sf.2, i32_small sl.1, i32_small sl.2]
  rw [i32_small se.1, i32_small se.2] at hc
  unfold CellLE at o1 o2
  simp only [Bool.and_eq_true, Bool.or_eq_true, decide_eq_true_eq] at hc ⊢
  obtain ⟨hx, hy⟩ := hc
  refine ⟨?_, ?_⟩
  · rcases hx with hx | hx
    · exact Or.inl hx
    · right; omega
  · rcases hy with hy | hy
    · exact Or.inl (Or.inl hy)
    · by_cases hne : g.last.1 = g.first.1
      · right; omega
      · left; right; omega

end LibLAS.Index
