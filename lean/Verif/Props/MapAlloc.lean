import Mathlib.Data.List.Pairwise
import Verif.Lemmas.MapAlloc
/-
C92. Chippers with their memory in a mapped file.
-/
namespace LibLAS.MapAlloc
open LibLAS

/-- C92: in every process, the memory of two live mapped vectors never overlaps and lies in the file as it was when it
was mapped. -/
theorem regions_apart {p : Process} (h : Reach p) :
    p.regions.Pairwise Apart ∧ ∀ r ∈ p.regions, r.offset + r.size < p.maxSize := by
  have hi := reach_inv h
  refine ⟨hi.apart, fun r hr => ?_⟩
  have := hi.inside r hr
  cases hf : p.file with
  | none => rw [(hi.regions hf).1] at hr; simp at hr
  | some f => have := (hi.file f hf).2.1; omega

/-- C92: the first chipper of a process gets its memory in a mapped file: one region of 16 bytes for each point of
each vector (two for sorting, otherwise three), all of it in the file it made. -/
theorem first_mapped {p : Process} (h : Reach p) (h0 : p.initialized = false) {o : Options} (hm : o.useMaps = true)
    (hn : o.mapFile ≠ "") {count : Nat} (hc : 0 < count) (h1 : count < 2 ^ 32) :
    ∃ l q, run p o count true true = (.ok true, l, q) ∧ l.length = (if o.useSort then 2 else 3) ∧
      (∀ a ∈ l, ∃ r ∈ q.regions, r.address = a ∧ r.size = count * 16) ∧
      q.regions.length = l.length ∧ ∀ r ∈ q.regions, contents q r = .ok (List.replicate (count * 16) 0) := by
  have hi := reach_inv h
  have ho : options o = o := by unfold options; rw [if_neg hn]
  unfold run
  rw [ho, allocateAll_first hi h0 hm h1, if_neg (by omega)]
  refine ⟨_, _, rfl, by simp [howMany], ?_, ?_, ?_⟩
  · intro a ha
    obtain ⟨i, hi, rfl⟩ := List.mem_map.1 ha
    refine ⟨⟨p.fresh + i, i * (count * 16), count * 16⟩, ?_, rfl, rfl⟩
    unfold mapped
    simp only
    rw [if_neg (by omega)]
    exact List.mem_map.2 ⟨i, hi, rfl⟩
  · unfold mapped
    simp only
    rw [if_neg (by omega)]
    simp
  · intro r hr
    unfold mapped at hr
    simp only at hr
    rw [if_neg (by omega)] at hr
    obtain ⟨i, hi, rfl⟩ := List.mem_map.1 hr
    have hlt : i + 1 ≤ howMany o := List.mem_range.1 hi
    have h2 := Nat.mul_le_mul_right (count * 16) hlt
    have h3 := Nat.add_mul i 1 (count * 16)
    have h4 := Nat.mul_comm (howMany o) (count * 16)
    unfold contents mapped makeFile
    simp only [if_true]
    rw [if_pos (by rw [List.length_replicate]; omega), List.drop_replicate, List.take_replicate, Nat.min_eq_left (by omega)]
    rfl

/-- C92 in full is refuted by what follows. Exactly which chippers get their memory, for every history of a process: as
long as no mapped file is in use, every chipper on the heap; a mapped one only as the first of the process. -/
theorem runs_exactly {p : Process} (h : Reach p) (o : Options) {count : Nat} (hc : 0 < count) (h1 : count < 2 ^ 32) :
    (run p o count true true).1 = .ok true ↔
      p.initialized = false ∨ p.file = none ∧ (o.useMaps = false ∨ o.mapFile = "") := by
  have hi := reach_inv h
  unfold run
  rw [allocateAll_cases hi _ h1]
  have hmaps : (options o).useMaps = true ↔ ¬ (o.useMaps = false ∨ o.mapFile = "") := by
    unfold options; split <;> simp [*]
  by_cases hm : (options o).useMaps = true
  · have hx := hmaps.1 hm
    simp only [hm, if_true]
    cases hin : p.initialized with
    | false => simp
    | true =>
      simp only [if_true]
      cases hf : p.file with
      | none => simp [hx]
      | some f =>
        rcases withLists_full (makeFile_inv hi (options o) count) (f := f) hf (options o) h1 with ⟨h0, -⟩ | ⟨-, e, he⟩
        · omega
        · simp only [he]; simp
  · have hx : o.useMaps = false ∨ o.mapFile = "" := by
      by_contra hc; exact hm (hmaps.2 hc)
    simp only [hm]
    cases hf : p.file with
    | none => simp [hx]
    | some f => simp [(hi.file f hf).1]

/-- Refuted: after a mapped chipper was run, no later chipper with at least one point gets memory, mapped or not, even
when all memory was given back (whatever happens in between). -/
theorem never_again {p q : Process} (h : Reach p) (h0 : p.initialized = false) {o : Options} (hm : o.useMaps = true)
    (hn : o.mapFile ≠ "") {count : Nat} (h1 : count < 2 ^ 32) (hq : After (run p o count true true).2.2 q)
    (o' : Options) {count' : Nat} (hc : 0 < count') (h2 : count' < 2 ^ 32) :
    ∃ e, (run q o' count' true true).1 = .error e := by
  have hi := reach_inv h
  have ho : options o = o := by unfold options; rw [if_neg hn]
  have hr : Reach q := hq.reach (Reach.run o count true true h h1)
  have hf : q.file = some o.mapFile ∧ q.initialized = true := by
    refine hq.keeps ?_ ?_
    · exact allocateAll_inv hi _ h1 _ _
    · unfold run
      rw [ho, allocateAll_first hi h0 hm h1]
      rfl
  have hx := (not_congr (runs_exactly hr o' hc h2)).2 (by simp [hf])
  have hi' := reach_inv hr
  unfold run at hx ⊢
  rw [allocateAll_cases hi' _ h2] at hx ⊢
  simp only [hf.1, hf.2, if_true] at hx ⊢
  split
  · rcases withLists_full (makeFile_inv hi' (options o') count') (f := o.mapFile) hf.1 (options o') h2 with ⟨h0, -⟩ | ⟨-, e, he⟩
    · omega
    · exact ⟨e, by simp only [he]⟩
  · exact ⟨_, rfl⟩

/-- Refuted: such an attempt with the same map file fails, but before that it destroys the memory of the chipper that is
still in use: every region it holds reads as zeros (so that all points of its blocks have number 0), or can no longer
be read at all. -/
theorem second_run_wipes {p : Process} (h : Reach p) {o' : Options} (hm : o'.useMaps = true) (hn : o'.mapFile ≠ "")
    (hf : p.file = some o'.mapFile) {count' : Nat} (hc : 0 < count') (h2 : count' < 2 ^ 32) {r : Region}
    (hr : r ∈ p.regions) :
    (∃ e, (run p o' count' true true).1 = .error e) ∧
    r ∈ (run p o' count' true true).2.2.regions ∧
    contents (run p o' count' true true).2.2 r =
      if r.offset + r.size ≤ count' * 16 * (if o'.useSort then 2 else 3) + 1 then .ok (List.replicate r.size 0) else .ub := by
  have hi := reach_inv h
  have ho : options o' = o' := by unfold options; rw [if_neg hn]
  have hin := (hi.file _ hf).1
  unfold run
  rw [ho, allocateAll_cases hi _ h2]
  simp only [hm, hf, hin, if_true]
  rcases withLists_full (makeFile_inv hi o' count') hf o' h2 with ⟨h0, -⟩ | ⟨-, e, he⟩
  · omega
  · rw [he]
    refine ⟨⟨e, rfl⟩, hr, ?_⟩
    unfold contents
    simp only [show (makeFile p o' count').file = some o'.mapFile from hf]
    unfold makeFile
    simp only [if_true, List.length_replicate]
    show (if r.offset + r.size ≤ count' * 16 * howMany o' + 1 then _ else _) = _
    by_cases hle : r.offset + r.size ≤ count' * 16 * howMany o' + 1
    · rw [if_pos hle, if_pos (by exact hle), List.drop_replicate, List.take_replicate, Nat.min_eq_left (by omega)]
      rfl
    · rw [if_neg hle, if_neg (by exact hle)]

/-- Refuted: a map file that cannot be mapped the first time makes every later mapped chipper fail. -/
theorem one_failure_for_good {p : Process} (h : Reach p) (h0 : p.initialized = false) {o : Options} (hm : o.useMaps = true)
    (hn : o.mapFile ≠ "") {count : Nat} (h1 : count < 2 ^ 32) :
    (run p o count true false).1 = .error .mapping ∧
    (run (run p o count true false).2.2 o count true true).1 = .error .badAlloc := by
  have hi := reach_inv h
  have ho : options o = o := by unfold options; rw [if_neg hn]
  have hq : run p o count true false =
      (.error .mapping, [], { makeFile p o count with initialized := true, maxSize := count * 16 * howMany o + 1 }) := by
    unfold run
    rw [ho, allocateAll_cases hi _ h1]
    simp [hm, h0]
  have hr := reach_inv (Reach.run o count true false h h1)
  refine ⟨by rw [hq], ?_⟩
  rw [hq] at hr ⊢
  unfold run
  rw [ho, allocateAll_cases hr _ h1]
  have : (makeFile p o count).file = none := hi.fresh h0
  simp [hm, this]

instance : Std.Symm Apart := ⟨fun _ _ h => h.symm⟩

theorem store_none {p : Process} (hf : p.file = none) (r : Region) (i : Nat) (b : Byte) : store p r i b = p := by
  unfold store; rw [hf]

theorem store_some {p : Process} {f : String} (hf : p.file = some f) {r : Region} {i : Nat} {b : Byte}
    (hi : i < r.size ∧ r.offset + i < (p.disk f).length) :
    store p r i b = { p with disk := fun g => if g = f then (p.disk f).set (r.offset + i) b else p.disk g } := by
  unfold store; rw [hf]; exact if_pos hi

theorem store_other {p : Process} {f : String} (hf : p.file = some f) {r : Region} {i : Nat} {b : Byte}
    (hi : ¬ (i < r.size ∧ r.offset + i < (p.disk f).length)) : store p r i b = p := by
  unfold store; rw [hf]; exact if_neg hi

/-- C92: what is stored in the memory of one vector is found there, and changes the memory of no other live vector. -/
theorem memory_kept {p : Process} (h : Reach p) {r s : Region} (hr : r ∈ p.regions) (hs : s ∈ p.regions) (hrs : r ≠ s) (i : Nat)
    (b : Byte) : contents (store p r i b) s = contents p s ∧
      ∀ c, contents p r = .ok c → contents (store p r i b) r = .ok (c.set i b) := by
  have ha : Apart r s := by
    have hp := (reach_inv h).apart
    exact hp.forall hr hs hrs
  cases hf : p.file with
  | none => exact ⟨by rw [store_none hf], fun c hc => by unfold contents at hc; rw [hf] at hc; cases hc⟩
  | some f =>
    have hc0 : ∀ t : Region, contents p t = if t.offset + t.size ≤ (p.disk f).length then
        .ok (((p.disk f).drop t.offset).take t.size) else .ub := by
      intro t; unfold contents; rw [hf]
    by_cases hi : i < r.size ∧ r.offset + i < (p.disk f).length
    · have hc1 : ∀ t : Region, contents (store p r i b) t = if t.offset + t.size ≤ (p.disk f).length then
          .ok ((((p.disk f).set (r.offset + i) b).drop t.offset).take t.size) else .ub := by
        intro t
        rw [store_some hf hi]
        unfold contents
        dsimp only
        rw [hf]
        dsimp only
        simp only [if_true, List.length_set]
      rw [hc0, hc0, hc1, hc1]
      constructor
      · congr 2
        apply List.ext_getElem?
        intro n
        rw [List.getElem?_take, List.getElem?_take]
        split_ifs with hn
        · rw [List.getElem?_drop, List.getElem?_drop, List.getElem?_set_ne]
          unfold Apart at ha
          omega
        · rfl
      · intro c hc
        split_ifs at hc with hle
        injection hc with hc
        rw [if_pos hle, ← hc]
        congr 1
        rw [List.drop_set, if_neg (by omega), show r.offset + i - r.offset = i by omega, List.take_set]
    · rw [store_other hf hi]
      refine ⟨rfl, fun c hc => ?_⟩
      rw [hc]
      rw [hc0] at hc
      split_ifs at hc with hle
      injection hc with hc
      rw [List.set_eq_of_length_le]
      rw [← hc, List.length_take, List.length_drop]
      omega

/-- C92: giving back memory frees exactly the regions at these addresses; all others keep what they hold. -/
theorem given_back {p : Process} (h : Reach p) (l : List Nat) (r : Region) :
    (r ∈ (destroy p l).regions ↔ r ∈ p.regions ∧ r.address ∉ l) ∧ contents (destroy p l) r = contents p r := by
  have hi := reach_inv h
  clear h
  induction l generalizing p with
  | nil => exact ⟨by simp [destroy], rfl⟩
  | cons a l ih =>
    obtain ⟨h1, h2⟩ := ih (deallocate_inv hi a)
    have e : destroy p (a :: l) = destroy (deallocate p a) l := rfl
    rw [e, h1, h2]
    unfold deallocate
    cases hf : p.file with
    | none =>
      rw [if_neg (by simp), (hi.regions hf).1]
      exact ⟨by simp, rfl⟩
    | some f =>
      rw [if_pos (by rfl)]
      refine ⟨?_, ?_⟩
      · simp only [List.mem_filter, decide_eq_true_eq, List.mem_cons, not_or, and_assoc]
      · unfold contents; rw [hf]

/-- A process for the example: a mapped chipper for two points, a byte stored in its last vector. -/
def mappedProcess : Process :=
  let q := (run (Process.start fun _ => []) ⟨false, true, "map"⟩ 2 true true).2.2
  store q ⟨2, 64, 32⟩ 5 7

/-- The hypotheses above are met: the process is reachable, holds three regions, and the last one has the stored byte; a
second chipper for three points then clears it, one for one point makes it unreadable. -/
example : Reach mappedProcess ∧ mappedProcess.file = some "map" ∧
    mappedProcess.regions = [⟨0, 0, 32⟩, ⟨1, 32, 32⟩, ⟨2, 64, 32⟩] ∧
    contents mappedProcess ⟨2, 64, 32⟩ = .ok ((List.replicate 32 0#8).set 5 7) ∧
    contents (run mappedProcess ⟨false, true, "map"⟩ 3 true true).2.2 ⟨2, 64, 32⟩ = .ok (List.replicate 32 0#8) ∧
    contents (run mappedProcess ⟨false, true, "map"⟩ 1 true true).2.2 ⟨2, 64, 32⟩ = .ub := by
  refine ⟨Reach.store (p := (run (Process.start fun _ => []) ⟨false, true, "map"⟩ 2 true true).2.2) ⟨2, 64, 32⟩ 5 7
    (Reach.run ⟨false, true, "map"⟩ 2 true true (Reach.start _) (by omega)) (by decide +kernel), by decide +kernel,
    by decide +kernel, by decide +kernel, by decide +kernel, by decide +kernel⟩

end LibLAS.MapAlloc
