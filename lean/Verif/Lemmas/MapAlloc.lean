import Verif.Spec.MapAlloc
import Mathlib.Tactic.Linarith
/-
The memory of chippers.
-/
namespace LibLAS.MapAlloc
open LibLAS

theorem reserve_full {p : Process} (hf : p.file.isSome = true) (hm : p.maxSize = p.next + 1) (hn : p.next < 2 ^ 38)
    {n : Nat} (h0 : 0 < n) (h1 : n < 2 ^ 32) : ∃ e, reserve p n = (.error e, p) := by
  unfold reserve
  split
  · exact ⟨_, rfl⟩
  · rw [if_neg (by omega)]
    unfold allocate
    simp only [hf, if_true]
    rw [if_pos (by omega)]
    exact ⟨_, rfl⟩

theorem lists_heap {p : Process} (hf : p.file = none) {n : Nat} (h1 : n < 2 ^ 32) : ∀ k, lists p n k = (.ok (), [], p) := by
  intro k
  induction k with
  | zero => rfl
  | succ k ih =>
    have : reserve p n = (.ok none, p) := by
      unfold reserve
      rw [if_neg (by unfold maxElements; simp [hf]; omega)]
      split
      · rfl
      · unfold allocate; simp [hf]
    rw [lists, this]
    simp only [ih]
    rfl

theorem lists_zero {p : Process} : ∀ k, lists p 0 k = (.ok (), [], p) := by
  intro k
  induction k with
  | zero => rfl
  | succ k ih =>
    have : reserve p 0 = (.ok none, p) := by
      unfold reserve
      rw [if_neg (by omega), if_pos rfl]
    rw [lists, this]
    simp only [ih]
    rfl

/-- The memory of a chipper, when there is room for it. -/
theorem lists_room {n : Nat} (h0 : 0 < n) (h1 : n < 2 ^ 32) : ∀ (k : Nat) {p : Process}, p.file.isSome = true →
    p.next + k * (n * 16) ≤ p.maxSize → p.next + k * (n * 16) < 2 ^ 60 →
    lists p n k = (.ok (), (List.range k).map (p.fresh + ·),
      { p with
        next := p.next + k * (n * 16)
        fresh := p.fresh + k
        regions := p.regions ++ (List.range k).map fun i => ⟨p.fresh + i, p.next + i * (n * 16), n * 16⟩ }) := by
  intro k
  induction k with
  | zero => intro p _ _ _; simp [lists]
  | succ k ih =>
    intro p hf hr hb
    have e1 := Nat.add_mul k 1 (n * 16)
    have hle : n ≤ maxElements p := by
      unfold maxElements
      rw [if_pos hf, Nat.le_div_iff_mul_le (by omega)]
      have : 0 ≤ k * (n * 16) := Nat.zero_le _
      omega
    have hres : reserve p n = (.ok (some p.fresh), { p with
        next := p.next + n * 16, regions := p.regions ++ [⟨p.fresh, p.next, n * 16⟩], fresh := p.fresh + 1 }) := by
      unfold reserve
      rw [if_neg (by omega), if_neg (by omega)]
      unfold allocate
      simp only [hf, if_true]
      have m1 : n * 16 % 2 ^ 64 = n * 16 := Nat.mod_eq_of_lt (by omega)
      have m2 : (p.next + n * 16) % 2 ^ 64 = p.next + n * 16 := Nat.mod_eq_of_lt (by omega)
      rw [m1, m2, if_neg (by omega)]
    rw [lists, hres]
    simp only
    rw [ih (p := { p with
        next := p.next + n * 16, regions := p.regions ++ [⟨p.fresh, p.next, n * 16⟩], fresh := p.fresh + 1 }) hf
      (by show p.next + n * 16 + k * (n * 16) ≤ p.maxSize; omega)
      (by show p.next + n * 16 + k * (n * 16) < _; omega)]
    simp only [Prod.mk.injEq, true_and]
    constructor
    · rw [List.range_succ_eq_map]
      simp only [Option.toList_some, List.singleton_append, List.map_cons, List.map_map, Nat.add_zero, List.cons.injEq, true_and]
      apply List.map_congr_left
      intro i _
      show p.fresh + 1 + i = p.fresh + (i + 1)
      omega
    · congr 1
      · show p.next + n * 16 + k * (n * 16) = _; omega
      · rw [List.range_succ_eq_map, List.append_assoc]
        congr 1
        simp only [List.map_cons, List.map_map, Nat.add_zero, Nat.zero_mul, List.singleton_append, List.cons.injEq, true_and]
        apply List.map_congr_left
        intro i _
        simp only [Function.comp_apply, Region.mk.injEq, and_true]
        constructor
        · omega
        · have := Nat.add_mul i 1 (n * 16)
          show p.next + n * 16 + i * (n * 16) = p.next + (i + 1) * (n * 16)
          omega
      · show p.fresh + 1 + k = p.fresh + (k + 1); omega

/-- The state after the first mapped chipper got its memory, whatever happens later, and before. -/
structure Inv (p : Process) : Prop where
  file : ∀ f, p.file = some f → p.initialized = true ∧ p.maxSize = p.next + 1 ∧ p.next < 2 ^ 38
  inside : ∀ r ∈ p.regions, r.offset + r.size ≤ p.next
  apart : p.regions.Pairwise Apart
  regions : p.file = none → p.regions = [] ∧ p.next = 0
  fresh : (p.initialized = false) → p.file = none


theorem deallocate_inv {p : Process} (h : Inv p) (a : Nat) : Inv (deallocate p a) := by
  unfold deallocate
  split
  · rename_i hf
    exact ⟨h.file, fun r hr => h.inside r (List.mem_of_mem_filter hr), h.apart.filter _,
      fun hn => by rw [show p.file = none from hn] at hf; simp at hf, h.fresh⟩
  · exact h

theorem destroy_inv {p : Process} (h : Inv p) (l : List Nat) : Inv (destroy p l) := by
  induction l generalizing p with
  | nil => exact h
  | cons a l ih => exact ih (deallocate_inv h a)

theorem store_inv {p : Process} (h : Inv p) (r : Region) (i : Nat) (b : Byte) : Inv (store p r i b) := by
  unfold store
  split
  · exact h
  · split
    · exact ⟨h.file, h.inside, h.apart, h.regions, h.fresh⟩
    · exact h

theorem start_inv (disk : String → List Byte) : Inv (Process.start disk) :=
  ⟨by intro f hf; simp [Process.start] at hf, by simp [Process.start], by simp [Process.start], fun _ => ⟨rfl, rfl⟩, fun _ => rfl⟩

theorem makeFile_inv {p : Process} (h : Inv p) (o : Options) (count : Nat) : Inv (makeFile p o count) :=
  ⟨h.file, h.inside, h.apart, h.regions, h.fresh⟩

theorem howMany_pos (o : Options) : ∃ k, howMany o = k + 1 ∧ howMany o ≤ 3 := by
  unfold howMany; split
  · exact ⟨1, rfl, by omega⟩
  · exact ⟨2, rfl, by omega⟩

/-- A mapped process: nothing more can be had. -/
theorem withLists_full {p : Process} (hi : Inv p) {f : String} (hf : p.file = some f) (o : Options) {count : Nat}
    (h1 : count < 2 ^ 32) :
    (count = 0 ∧ withLists (.ok (), p) count (howMany o) = (.ok true, [], p)) ∨
    (0 < count ∧ ∃ e, withLists (.ok (), p) count (howMany o) = (.error e, [], p)) := by
  obtain ⟨a, b, c⟩ := hi.file f hf
  rcases Nat.eq_zero_or_pos count with rfl | h0
  · left; refine ⟨rfl, ?_⟩
    unfold withLists; simp only [lists_zero]
  · right; refine ⟨h0, ?_⟩
    obtain ⟨e, he⟩ := reserve_full (by simp [hf]) b c h0 h1
    obtain ⟨k, hk, -⟩ := howMany_pos o
    refine ⟨e, ?_⟩
    unfold withLists
    simp only [hk, lists, he]

/-- The heap. -/
theorem withLists_heap {p : Process} (hf : p.file = none) {count : Nat} (h1 : count < 2 ^ 32) (k : Nat) :
    withLists (.ok (), p) count k = (.ok true, [], p) := by
  unfold withLists; simp only [lists_heap hf h1]

/-- The state of the first mapped chipper. -/
def mapped (p : Process) (o : Options) (count : Nat) : Process :=
  { makeFile p o count with
    initialized := true
    file := some o.mapFile
    maxSize := howMany o * (count * 16) + 1
    next := howMany o * (count * 16)
    fresh := p.fresh + (if count = 0 then 0 else howMany o)
    regions := if count = 0 then [] else (List.range (howMany o)).map fun i => ⟨p.fresh + i, i * (count * 16), count * 16⟩ }

theorem allocateAll_first {p : Process} (hi : Inv p) (h0 : p.initialized = false) {o : Options} (hm : o.useMaps = true)
    {count : Nat} (h1 : count < 2 ^ 32) :
    allocateAll p o count true true =
      (.ok true, if count = 0 then [] else (List.range (howMany o)).map (p.fresh + ·), mapped p o count) := by
  have hfile := hi.fresh h0
  obtain ⟨hreg, hnext⟩ := hi.regions hfile
  obtain ⟨k, hk, hk3⟩ := howMany_pos o
  have hlen : ((makeFile p o count).disk o.mapFile).length = howMany o * (count * 16) + 1 := by
    unfold makeFile; simp [Nat.mul_comm]
  have hb : howMany o * (count * 16) ≤ 3 * (count * 16) := Nat.mul_le_mul_right _ hk3
  unfold allocateAll
  rw [if_pos hm, if_pos rfl]
  have hnew : newMapped (makeFile p o count) o.mapFile true = (.ok (), { makeFile p o count with
      initialized := true, maxSize := howMany o * (count * 16) + 1, file := some o.mapFile }) := by
    unfold newMapped
    rw [if_neg (by show ¬ (p.initialized = true ∧ _); simp [h0])]
    simp only
    rw [if_neg (by show ¬ (p.file.isSome = true); simp [hfile]), if_pos trivial, hlen]
  rw [hnew]
  unfold withLists
  simp only
  rcases Nat.eq_zero_or_pos count with rfl | hc
  · simp only [lists_zero, if_true]
    simp only [Prod.mk.injEq, true_and]
    unfold mapped makeFile
    simp [hreg, hnext]
  · rw [lists_room hc h1 (howMany o) (p := { makeFile p o count with
      initialized := true, maxSize := howMany o * (count * 16) + 1, file := some o.mapFile }) rfl
      (by show p.next + _ ≤ howMany o * (count * 16) + 1; omega) (by show p.next + _ < _; omega)]
    simp only [Prod.mk.injEq, true_and]
    rw [if_neg (by omega)]
    refine ⟨rfl, ?_⟩
    unfold mapped makeFile
    simp [hreg, hnext, Nat.pos_iff_ne_zero.1 hc]

theorem mapped_inv {p : Process} (_ : Inv p) (o : Options) {count : Nat} (h1 : count < 2 ^ 32) : Inv (mapped p o count) := by
  obtain ⟨k, hk, hk3⟩ := howMany_pos o
  have hb : howMany o * (count * 16) ≤ 3 * (count * 16) := Nat.mul_le_mul_right _ hk3
  constructor
  · intro f _
    refine ⟨rfl, rfl, ?_⟩
    show howMany o * (count * 16) < _
    omega
  · intro r hr
    unfold mapped at hr
    simp only at hr
    split at hr
    · simp at hr
    · obtain ⟨i, hi, rfl⟩ := List.mem_map.1 hr
      have : i + 1 ≤ howMany o := List.mem_range.1 hi
      have h2 := Nat.mul_le_mul_right (count * 16) this
      have h3 := Nat.add_mul i 1 (count * 16)
      show i * (count * 16) + count * 16 ≤ howMany o * (count * 16)
      omega
  · unfold mapped
    simp only
    split
    · exact List.Pairwise.nil
    · rw [List.pairwise_map]
      refine List.Pairwise.imp ?_ List.pairwise_lt_range
      intro i j hij
      left
      have h2 := Nat.mul_le_mul_right (count * 16) (show i + 1 ≤ j from hij)
      have h3 := Nat.add_mul i 1 (count * 16)
      show i * (count * 16) + count * 16 ≤ j * (count * 16)
      omega
  · intro hn; simp [mapped] at hn
  · intro hn; simp [mapped] at hn

/-- Everything that `Allocate` can do. -/
theorem allocateAll_cases {p : Process} (hi : Inv p) (o : Options) {count : Nat} (h1 : count < 2 ^ 32) (opens maps : Bool) :
    allocateAll p o count opens maps =
      if o.useMaps then
        if opens then
          if p.initialized then
            match p.file with
            | none => (.error .badAlloc, [], makeFile p o count)
            | some _ => withLists (.ok (), makeFile p o count) count (howMany o)
          else if maps then (.ok true, if count = 0 then [] else (List.range (howMany o)).map (p.fresh + ·), mapped p o count)
          else (.error .mapping, [], { makeFile p o count with initialized := true, maxSize := count * 16 * howMany o + 1 })
        else (.ok false, [], p)
      else if p.file.isSome then (.error .badAlloc, [], p)
      else (.ok true, [], { p with initialized := true }) := by
  cases hm : o.useMaps with
  | false =>
    unfold allocateAll
    simp only [hm, Bool.false_eq_true, if_false]
    cases hf : p.file with
    | none =>
      have : newHeap p = (.ok (), { p with initialized := true }) := by
        unfold newHeap; simp [hf]
      rw [this]
      simp only [Option.isSome_none, Bool.false_eq_true, if_false]
      rw [withLists_heap (p := { p with initialized := true }) hf h1 _, hf]
    | some f =>
      have : newHeap p = (.error .badAlloc, p) := by
        unfold newHeap; simp [hf, (hi.file f hf).1]
      rw [this]
      simp [withLists]
  | true =>
    cases opens with
    | false => unfold allocateAll; simp [hm]
    | true =>
      simp only [if_true]
      cases hin : p.initialized with
      | true =>
        simp only [if_true]
        cases hf : p.file with
        | none =>
          have : newMapped (makeFile p o count) o.mapFile maps = (.error .badAlloc, makeFile p o count) := by
            unfold newMapped makeFile; simp [hf, hin]
          unfold allocateAll
          simp only [hm, if_true, this, withLists]
        | some f =>
          have : newMapped (makeFile p o count) o.mapFile maps = (.ok (), makeFile p o count) := by
            unfold newMapped makeFile; simp [hf, hin]
          unfold allocateAll
          simp only [hm, if_true, this]
      | false =>
        simp only [Bool.false_eq_true, if_false]
        cases maps with
        | true => simp only [if_true]; exact allocateAll_first hi hin hm h1
        | false =>
          have hfile := hi.fresh hin
          have : newMapped (makeFile p o count) o.mapFile false =
              (.error .mapping, { makeFile p o count with initialized := true, maxSize := count * 16 * howMany o + 1 }) := by
            unfold newMapped makeFile; simp [hfile, hin]
          unfold allocateAll
          simp only [hm, if_true, this, withLists, Bool.false_eq_true, if_false]

theorem allocateAll_inv {p : Process} (hi : Inv p) (o : Options) {count : Nat} (h1 : count < 2 ^ 32) (opens maps : Bool) :
    Inv (allocateAll p o count opens maps).2.2 := by
  rw [allocateAll_cases hi o h1]
  split
  · split
    · split
      · split
        · exact makeFile_inv hi _ _
        · rename_i f hf
          rcases withLists_full (makeFile_inv hi o count) (f := f) hf o h1 with ⟨-, h⟩ | ⟨-, e, h⟩ <;> rw [h] <;>
            exact makeFile_inv hi _ _
      · rename_i hin
        split
        · exact mapped_inv hi o h1
        · have hf := hi.fresh (by simpa using hin)
          exact ⟨fun f h => by simp [makeFile, hf] at h, hi.inside, hi.apart, hi.regions, fun _ => hf⟩
    · exact hi
  · split
    · exact hi
    · rename_i hf
      exact ⟨fun f h => absurd (show p.file.isSome = true by rw [show p.file = some f from h]; rfl) hf, hi.inside, hi.apart, hi.regions, fun h => by simp at h⟩

theorem reach_inv {p : Process} (h : Reach p) : Inv p := by
  induction h with
  | start disk => exact start_inv disk
  | run o count opens maps _ hc ih => exact allocateAll_inv ih _ hc _ _
  | store r i b _ _ ih => exact store_inv ih r i b
  | destroy l _ ih => exact destroy_inv ih l

theorem After.reach {p q : Process} (h : After p q) (hp : Reach p) : Reach q := by
  induction h with
  | here => exact hp
  | run o count opens maps _ hc ih => exact Reach.run o count opens maps ih hc
  | store r i b _ hr ih => exact Reach.store r i b ih hr
  | destroy l _ ih => exact Reach.destroy l ih

theorem destroy_file (p : Process) (l : List Nat) : (destroy p l).file = p.file ∧ (destroy p l).initialized = p.initialized := by
  induction l generalizing p with
  | nil => exact ⟨rfl, rfl⟩
  | cons a l ih =>
    have h1 : (deallocate p a).file = p.file ∧ (deallocate p a).initialized = p.initialized := by
      unfold deallocate; split <;> exact ⟨rfl, rfl⟩
    have h2 := ih (deallocate p a)
    exact ⟨h2.1.trans h1.1, h2.2.trans h1.2⟩

/-- A mapped process keeps its file. -/
theorem After.keeps {p q : Process} (h : After p q) (hp : Inv p) {f : String} (hf : p.file = some f) :
    q.file = some f ∧ q.initialized = true := by
  suffices Inv q ∧ q.file = some f from ⟨this.2, (this.1.file f this.2).1⟩
  induction h with
  | here => exact ⟨hp, hf⟩
  | @run q o count opens maps _ hc ih =>
    refine ⟨allocateAll_inv ih.1 _ hc _ _, ?_⟩
    unfold MapAlloc.run
    have hin := (ih.1.file f ih.2).1
    rw [allocateAll_cases ih.1 _ hc]
    simp only [ih.2, hin, if_true, Option.isSome_some]
    split
    · split
      · rcases withLists_full (makeFile_inv ih.1 (options o) count) (f := f) ih.2 (options o) hc with ⟨-, h⟩ | ⟨-, e, h⟩ <;>
          rw [h] <;> exact ih.2
      · exact ih.2
    · exact ih.2
  | store r i b _ hr ih =>
    refine ⟨store_inv ih.1 r i b, ?_⟩
    unfold MapAlloc.store
    split
    · exact ih.2
    · split <;> exact ih.2
  | destroy l _ ih => exact ⟨destroy_inv ih.1 l, (destroy_file _ l).1.trans ih.2⟩

end LibLAS.MapAlloc
