import Verif.Props.IndexWindow
/-
C44 and cells that take more than a record.
-/
namespace LibLAS.Index
open Spec

/-- The cells of an index: two empty cells, then one of 14000 runs of one point, with the even ids. -/
def longIndex : List ((Nat × Nat) × Cell) := [((0, 0), Cell.new), ((0, 1), Cell.new), ((1, 0), (longCell 14000).2)]

/-- 28000 points at (7,1,1), in cell (1,0) of the sample grid. -/
def longPts : List Pt := List.replicate 28000 (pt 7 1 1)

theorem longIndex_groups : groups longIndex = [⟨(0, 0), (0, 0), [((1, 0), (longCell 14000).2)]⟩] := by
  have hsz : (Grp.mk (0, 0) (0, 0) []).size = 24 := rfl
  have hf : Fits ((1, 0), (longCell 14000).2) := by
    have := longCell_fits (n := 14000) (by norm_num)
    obtain ⟨a, b, c, d, e, f, g⟩ := this
    exact ⟨by decide, by decide, c, d, e, f, g⟩
  have hlen : Grouping.entryLen ((1, 0), (longCell 14000).2) = 28 + 5 * 14000 := by
    rw [entryLen_eq hf]; exact longCell_size _
  have hnum : (longCell 14000).2.numPoints = 14000 := rfl
  unfold groups longIndex
  simp only [List.foldl_cons, List.foldl_nil]
  have s1 : Grouping.step Grouping.start ((0, 0), Cell.new) = ⟨[], some ⟨(0, 0), (0, 0), []⟩⟩ := rfl
  have s2 : Grouping.step ⟨[], some ⟨(0, 0), (0, 0), []⟩⟩ ((0, 1), Cell.new) = ⟨[], some ⟨(0, 0), (0, 0), []⟩⟩ := rfl
  rw [s1, s2]
  unfold Grouping.step
  simp only [Option.getD_some]
  rw [if_neg (by rw [hnum]; norm_num)]
  unfold Grouping.flush Grouping.add
  simp only [ne_eq, not_true_eq_false, false_and, if_false]
  rw [hlen, hsz, if_neg (by decide)]
  rfl

theorem longCell_sound {n m : Nat} (h : 2 * n ≤ m) : Sound m (longCell n).2 := by
  have hids : cellIds (longCell n).2 = (List.range n).flatMap fun i => [2 * i] := by
    simp [cellIds, longCell, Spec.ids, List.flatMap_map]
  refine ⟨?_, ?_, Or.inr ⟨rfl, rfl⟩, ?_⟩
  · show (cellIds (longCell n).2).length = n
    rw [hids]; simp
  · intro i hi
    rw [hids] at hi
    simp only [List.mem_flatMap, List.mem_range, List.mem_singleton] at hi
    obtain ⟨j, hj, rfl⟩ := hi
    omega
  · rintro r (rfl | ⟨k, hk⟩ | ⟨k, hk⟩) e he
    · simp only [longCell, List.mem_map] at he
      obtain ⟨j, -, rfl⟩ := he
      exact Nat.one_pos
    · simp [longCell] at hk
    · simp [longCell] at hk

theorem new_sound (n : Nat) : Sound n Cell.new := by
  refine ⟨rfl, by simp [cellIds, Cell.new, Spec.ids], Or.inl rfl, ?_⟩
  rintro r (rfl | ⟨k, hk⟩ | ⟨k, hk⟩) e he <;> simp [Cell.new] at *

theorem new_fits {x y : Nat} (hx : x < 2 ^ 32) (hy : y < 2 ^ 32) : Fits ((x, y), Cell.new) :=
  ⟨hx, hy, by show (0 : Nat) < _; decide, ⟨by show (0 : Nat) < _; decide, by simp [Cell.new]⟩, ⟨by show (0 : Nat) < _; decide, by simp [Cell.new]⟩,
    ⟨by show (0 : Nat) < _; decide, by simp [Cell.new]⟩, Or.inl rfl⟩

theorem longIndex_cells : ∀ e ∈ longIndex, Fits e ∧ Sound longPts.length e.2 ∧ 24 + cellSize e.2 < 2 ^ 32 := by
  intro e he
  have hlen : longPts.length = 28000 := List.length_replicate
  rw [hlen]
  simp only [longIndex, List.mem_cons, List.not_mem_nil, or_false] at he
  rcases he with rfl | rfl | rfl
  · exact ⟨new_fits (by decide) (by decide), new_sound _, by decide⟩
  · exact ⟨new_fits (by decide) (by decide), new_sound _, by decide⟩
  · have := longCell_fits (n := 14000) (by norm_num)
    obtain ⟨a, b, c, d, e, f, g⟩ := this
    refine ⟨⟨by show (1 : Nat) < _; decide, by show (0 : Nat) < _; decide, c, d, e, f, g⟩, longCell_sound (by norm_num), ?_⟩
    have := longCell_size 14000
    generalize (longCell 14000) = l at *
    simp only
    omega

/-- Fourth: a cell that takes more than 65511 bytes is written under the name of the empty cells before it, and a query on its place passes it over:
every point is in the window, none is returned. -/
theorem index_query_refuted_long : ∃ dvs q, outputIndex longIndex = .ok dvs ∧ (∀ e ∈ longIndex, Fits e ∧ Sound longPts.length e.2) ∧
    QueryOK sampleGrid q ∧ (∀ p ∈ longPts, DeepIn sampleGrid q p) ∧ ∀ r, filter longPts (headerRecord sampleIndexInfo :: (dvs ++ [])) q r = .ok [] := by
  have hcell := longIndex_cells
  obtain ⟨dvs, v1, -, -⟩ := index_records (fun e he => (hcell e he).1) fun e he => (hcell e he).2.2
  have hq : QueryOK sampleGrid sampleLate := query_int (by decide) (by decide) (by decide)
  refine ⟨dvs, sampleLate, v1, fun e he => ⟨(hcell e he).1, (hcell e he).2.1⟩, hq, ?_, fun r => ?_⟩
  · intro p hp
    rw [List.eq_of_mem_replicate hp]
    exact ⟨fun _ => ⟨0, 10, 6, 8, 7, by decide +kernel, by decide +kernel, by decide +kernel, by decide +kernel, by decide +kernel, Or.inr (by decide +kernel), Or.inr (by decide +kernel)⟩,
      fun _ => ⟨0, 10, 0, 2, 1, by decide +kernel, by decide +kernel, by decide +kernel, by decide +kernel, by decide +kernel, Or.inr (by decide +kernel), Or.inr (by decide +kernel)⟩,
      fun h => by cases h⟩
  · obtain ⟨vss, hx⟩ := indexed (pre := []) (post := []) (pts := longPts) (hdr := headerRecord sampleIndexInfo) (count := 28000) (fun e he => (hcell e he).1)
      (fun e he => (hcell e he).2.2) (fun e he => (hcell e he).2.1) v1 (by simp) (by simp) (headerRecord_name _) rfl
      (by show (0 : Nat) + (0 + (14000 + 0)) ≤ 28000; norm_num) (by norm_num) (by unfold longPts; rw [List.length_replicate]; norm_num)
    have hset : setCellBounds sampleGrid sampleLate = .ok (⟨2, 0, 1, 1, .fin (900719925474099 / 4503599627370496), .fin (1351079888211149 / 2251799813685248)⟩,
        ⟨0, -1, 0, 0, .fin 0, .fin (3602879701896397 / 9007199254740992)⟩, ⟨0, -1, 0, -1, .fin 0, .fin 1⟩) := by
      decide +kernel
    have hR := filter_whole hx (header_window (i := sampleIndexInfo) (g := sampleGrid) (by constructor <;> decide) (Or.inr ⟨rfl, le_refl _⟩) sample_describes hq hset) r
    rw [List.nil_append] at hR
    rw [hR, longIndex_groups]
    simp only [whole, allItems, grpItems, List.flatMap_cons, List.flatMap_nil]
    rw [if_neg (by decide)]
    simp [accepted]

end LibLAS.Index
