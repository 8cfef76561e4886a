import Verif.Lemmas.ChipperLoad
import Verif.Lemmas.ChipperPartition
import Mathlib.Data.List.FinRange
/-
C37, C38, C39: tiling assigns every point to exactly one block, no block exceeds the capacity, the bounds of a block
are the exact extent of its points.
-/
namespace LibLAS.Chipper

open Spec

instance : LawfulMonad Outcome := LawfulMonad.mk'
  (id_map := by intro α x; cases x <;> rfl)
  (pure_bind := by intros; rfl)
  (bind_assoc := by intro α β γ x f g; cases x <;> rfl)

theorem getIDs_ok {s : St} {b : Block} (h : b.right < (s.lists b.list).len) : getIDs s b = .ok (ids s b) := by
  unfold getIDs ids slice
  have key : ∀ L : List Nat, (∀ i ∈ L, i < (s.lists b.list).len) →
      (L.mapM fun i => do let e ← get s b.list i; pure e.ptindex) = Outcome.ok ((L.map (s.lists b.list).ref).map PtRef.ptindex) := by
    intro L hL
    induction L with
    | nil => rfl
    | cons i L ih =>
      rw [List.mapM_cons, get_ok (hL i List.mem_cons_self), Outcome.bind_ok, ih (fun j hj => hL j (List.mem_cons_of_mem _ hj))]
      rfl
  apply key
  intro i hi
  rw [List.mem_range'_1] at hi
  omega

/-- The conditions under which the theorems hold: at least one point, a positive capacity, no NaN coordinate, the
record count of the header not below the number of points delivered, and a size for which the partition table is
exact. -/
structure Chippable (o : Options) (reserved : Nat) (pts : List (Fl × Fl)) : Prop where
  nonempty : pts ≠ []
  capacity : 0 < o.threshold
  numbers : ∀ p ∈ pts, p.1 ≠ .nan ∧ p.2 ≠ .nan
  reserved : pts.length ≤ reserved
  small : pts.length < 2 ^ 32
  size : pts.length * (pts.length / o.threshold + 1) ≤ 2 ^ 48

/-- Everything about a run. -/
theorem chip_run {sort : Sorter} (hsort : IsSort sort) {o : Options} {reserved : Nat} {pts : List (Fl × Fl)}
    (h : Chippable o reserved pts) :
    ∃ s, chip sort o reserved pts = .ok s ∧ (∀ b ∈ s.blocks, getIDs s b = .ok (ids s b)) ∧
      (s.blocks.flatMap (ids s)).Perm (List.range pts.length) ∧
      ∀ b ∈ s.blocks, 0 < (ids s b).length ∧ (ids s b).length ≤ o.threshold ∧
        Tight (coords pts) (ids s b) b.bounds := by
  have hlen : 1 ≤ pts.length := List.length_pos_of_ne_nil h.nonempty
  obtain ⟨s0, e0, e1, e2, e3, e4, e5⟩ := load_spec hsort o reserved pts h.numbers
  have hnp : numPartitions pts.length o.threshold ≤ pts.length / o.threshold + 1 := by
    unfold numPartitions; split <;> omega
  obtain ⟨ps, q0, q1, q2, q3, q4⟩ := partition_spec hlen h.capacity h.small
    (le_trans (Nat.mul_le_mul_left _ hnp) h.size)
  obtain ⟨_, _, hk, _⟩ := numPartitions_spec h.capacity hlen
  set k := numPartitions pts.length o.threshold
  have hincr : ∀ (i p : Nat), ps[i]? = some p → p ≤ pts.length := by
    intro i p hp
    have hi := (List.getElem?_eq_some_iff.mp hp).1
    have aux : ∀ (d i p : Nat), i + d = k → ps[i]? = some p → p ≤ pts.length := by
      intro d
      induction d with
      | zero =>
        intro i p hid hp
        rw [show i = k by omega, q3] at hp; injection hp with hp; omega
      | succ d ih =>
        intro i p hid hp
        have hn : ps[i + 1]? = some ps[i + 1] := List.getElem?_eq_getElem (by omega)
        have := ih (i + 1) _ (by omega) hn
        have := (q4 i _ _ hp hn).1
        omega
    exact aux (k - i) i p (by omega) hp
  have ht : Table ps := by
    refine ⟨fun i a b ha hb => (q4 i a b ha hb).1, ?_⟩
    intro p hp
    obtain ⟨i, hi, rfl⟩ := List.mem_iff_getElem.mp hp
    have := hincr i _ (List.getElem?_eq_getElem hi)
    have := h.small
    omega
  obtain ⟨s, r, post⟩ := decideSplit_spec hsort (C := coords pts) (o := o) ht (ps.length + 1) .x .y .spare 0 (ps.length - 1) 0 pts.length s0
    (by decide) (by decide) (by decide) (by omega) (by omega) q2 (by rw [q1]; simpa using q3) e4
    (by intro hm; rw [e3, hm]; simpa using h.reserved)
  obtain ⟨bs, b1, b2, b3⟩ := post.blocks
  rw [e1, List.nil_append] at b1
  have hall : ∀ b ∈ bs, ∃ j, ps[j]? = some b.left ∧ ps[j + 1]? = some (b.right + 1) ∧ b.left ≤ b.right ∧
      b.right < (s.lists b.list).len ∧ Tight (coords pts) (ids s b) b.bounds := by
    intro b hb
    obtain ⟨i, hi, e⟩ := List.mem_iff_getElem.mp hb
    have := (List.forall₂_iff_get.mp b2).2 i hi (by rw [← b2.length_eq]; exact hi)
    simp only [List.get_eq_getElem, e] at this
    obtain ⟨a1, a2, a3, _, _, a6, a7⟩ := this
    exact ⟨_, a1, a2, a3, a6, a7⟩
  refine ⟨s, ?_, ?_, ?_, ?_⟩
  · unfold chip
    rw [e0, Outcome.bind_ok, e2, q0, Outcome.bind_ok]; exact r
  · rw [b1]
    intro b hb
    obtain ⟨_, _, _, _, a6, _⟩ := hall b hb
    exact getIDs_ok a6
  · rw [b1]
    exact b3.trans (by simpa using e5)
  · rw [b1]
    intro b hb
    obtain ⟨j, a1, a2, a3, _, a7⟩ := hall b hb
    have hst := q4 j _ _ a1 a2
    have hl : (ids s b).length = b.right + 1 - b.left := by simp [ids]
    exact ⟨by omega, by omega, a7⟩

/-- **C37** `Chip()` succeeds and the ids reported by the blocks are together exactly the numbers of the points, each
once. Holds for every point set meeting `Chippable`, in both modes (copying and sorting) and for every conforming
`std::sort`. Missing: the empty point set (`chip_empty_undefined`) and sizes where the floating point partition table
is not exact. -/
theorem chip_partitions_partial {sort : Sorter} (hsort : IsSort sort) {o : Options} {reserved : Nat} {pts : List (Fl × Fl)}
    (h : Chippable o reserved pts) :
    ∃ s, chip sort o reserved pts = .ok s ∧
      ∃ k, s.blocks.mapM (getIDs s) = .ok k ∧ k.flatten.Perm (List.range pts.length) := by
  obtain ⟨s, e, hid, hp, _⟩ := chip_run hsort h
  refine ⟨s, e, s.blocks.map (ids s), ?_, ?_⟩
  · have : ∀ bs : List Block, (∀ b ∈ bs, getIDs s b = .ok (ids s b)) → bs.mapM (getIDs s) = .ok (bs.map (ids s)) := by
      intro bs hb
      induction bs with
      | nil => rfl
      | cons b bs ih =>
        rw [List.mapM_cons, hb b List.mem_cons_self, Outcome.bind_ok, ih (fun j hj => hb j (List.mem_cons_of_mem _ hj))]
        rfl
    exact this _ hid
  · rw [← List.flatMap_def]; exact hp

/-- **C38** No block holds more points than the requested capacity, and none is empty. -/
theorem chip_capacity_partial {sort : Sorter} (hsort : IsSort sort) {o : Options} {reserved : Nat} {pts : List (Fl × Fl)}
    (h : Chippable o reserved pts) {s : St} (hs : chip sort o reserved pts = .ok s) {b : Block} (hb : b ∈ s.blocks)
    {k : List Nat} (hk : getIDs s b = .ok k) : 0 < k.length ∧ k.length ≤ o.threshold := by
  obtain ⟨s', e, hid, _, hall⟩ := chip_run hsort h
  rw [e] at hs; injection hs with hs; subst hs
  rw [hid b hb] at hk; injection hk with hk; subst hk
  exact ⟨(hall b hb).1, (hall b hb).2.1⟩

/-- **C39** The bounds of a block are the exact minimum and maximum coordinates of its points. -/
theorem chip_bounds_tight_partial {sort : Sorter} (hsort : IsSort sort) {o : Options} {reserved : Nat} {pts : List (Fl × Fl)}
    (h : Chippable o reserved pts) {s : St} (hs : chip sort o reserved pts = .ok s) {b : Block} (hb : b ∈ s.blocks)
    {k : List Nat} (hk : getIDs s b = .ok k) : tight (k.filterMap fun i => pts[i]?) b.bounds := by
  obtain ⟨s', e, hid, hperm, hall⟩ := chip_run hsort h
  rw [e] at hs; injection hs with hs; subst hs
  rw [hid b hb] at hk; injection hk with hk
  have ht := (hall b hb).2.2
  rw [hk] at ht
  have hlt : ∀ i ∈ k, i < pts.length := by
    intro i hi
    rw [← List.mem_range, ← hperm.mem_iff]
    exact List.mem_flatMap.mpr ⟨b, hb, by rw [hk]; exact hi⟩
  have : k.filterMap (fun i => pts[i]?) = k.map fun i => (coords pts .x i, coords pts .y i) := by
    clear ht hk
    induction k with
    | nil => rfl
    | cons i k ih =>
      have hi := hlt i List.mem_cons_self
      have hg : pts[i]? = some pts[i] := List.getElem?_eq_getElem hi
      rw [List.filterMap_cons, hg, List.map_cons, ih (fun j hj => hlt j (List.mem_cons_of_mem _ hj))]
      simp [coords, List.getD, List.getElem?_map, hg]
  rw [this]
  exact ht

/-- The empty point set: the table has the single entry 0, its predecessor wraps around and the first element access
is outside the list. -/
theorem chip_empty_undefined (sort : Sorter) (o : Options) (reserved : Nat) (ht : 0 < o.threshold)
    : chip sort o reserved [] = .ub := by
  have hl : ∃ s, load sort o reserved [] = .ok s ∧ (s.lists .x).len = 0 := by
    unfold load
    exact ⟨_, rfl, rfl⟩
  obtain ⟨s, e, e1⟩ := hl
  have hp : partition 0 o.threshold = .ok [0] := by
    unfold partition
    rw [if_neg (by omega)]
    have : numPartitions 0 o.threshold = 0 := by simp [numPartitions]
    rw [this]; rfl
  unfold chip
  rw [e, Outcome.bind_ok, e1, hp, Outcome.bind_ok]
  unfold decideSplit
  have : part [0] 0 = .ok 0 := rfl
  simp only [List.length_singleton, Nat.sub_self, this, Outcome.bind_ok]
  have : get s .x (pred32 0) = .ub := by
    unfold get; rw [e1]; rfl
  rw [this]; rfl

/-! ### the hypotheses can be met -/

/-- A merge sort is a conforming `std::sort`. -/
def mergeSorter : Sorter := fun lt l => (l.attach.mergeSort fun a b => !(lt b.1 a.1)).map Subtype.val

theorem mergeSorter_isSort : IsSort mergeSorter := by
  intro lt l h
  unfold mergeSorter
  constructor
  · have := (List.mergeSort_perm l.attach fun a b => !(lt b.1 a.1)).map Subtype.val
    rwa [List.attach_map_subtype_val] at this
  · rw [List.pairwise_map]
    have asym : ∀ a ∈ l, ∀ b ∈ l, lt a b = true → lt b a = false := by
      intro a ha b hb hab
      by_contra hc
      have := h.trans a ha b hb a ha hab (by simpa using hc)
      rw [h.irrefl a ha] at this; cases this
    have := List.pairwise_mergeSort (le := fun (a b : { x // x ∈ l }) => !(lt b.1 a.1)) ?_ ?_ l.attach
    · refine this.imp ?_
      intro a b hab; simpa using hab
    · rintro ⟨a, ha⟩ ⟨b, hb⟩ ⟨c, hc⟩ h1 h2
      simp only [Bool.not_eq_true'] at h1 h2 ⊢
      by_contra hca
      have hca : lt c a = true := by simpa using hca
      by_cases hab : lt a b = true
      · have := h.trans c hc a ha b hb hca hab
        rw [h2] at this; cases this
      · by_cases hbc : lt b c = true
        · have := h.trans b hb c hc a ha hbc hca
          rw [h1] at this; cases this
        · have := (h.incomp a ha b hb c hc (by simpa using hab) h1 (by simpa using hbc) h2).2
          rw [hca] at this; cases this
    · rintro ⟨a, ha⟩ ⟨b, hb⟩
      by_cases hab : lt b a = true
      · have := asym b hb a ha hab
        simp [this]
      · simp [hab]

/-- Seven points, capacity two: four blocks. -/
def samplePoints : List (Fl × Fl) :=
  [(.fin 5, .fin 1), (.fin 0, .fin 9), (.fin 3, .fin 3), (.fin 5, .fin 7), (.fin 8, .fin 2), (.fin 1, .inf false), (.fin 4, .fin 4)]

theorem samplePoints_chippable (m : Bool) : Chippable ⟨2, m⟩ 7 samplePoints :=
  ⟨by decide, by show 0 < 2; decide, by decide +kernel, by decide, by decide, by show 7 * (7 / 2 + 1) ≤ 2 ^ 48; decide⟩

example : ∃ s, chip mergeSorter ⟨2, false⟩ 7 samplePoints = .ok s ∧
    ∃ k, s.blocks.mapM (getIDs s) = .ok k ∧ k.flatten.Perm (List.range 7) :=
  chip_partitions_partial mergeSorter_isSort (samplePoints_chippable false)

example : ((chip mergeSorter ⟨2, true⟩ 7 samplePoints >>= fun s => s.blocks.mapM (getIDs s)).isOk) = true := by
  obtain ⟨s, e, k, e2, _⟩ := chip_partitions_partial mergeSorter_isSort (samplePoints_chippable true)
  rw [e, Outcome.bind_ok, e2]; rfl

end LibLAS.Chipper
