import Verif.Spec.Schema
import Mathlib.Data.List.Nodup
import Mathlib.Data.List.Basic
import Mathlib.Tactic.Ring
import Mathlib.Tactic.Linarith
namespace LibLAS

/-- A dimension without its computed offsets. -/
def Dim.core (d : Dim) : Dim := { d with byteOffset := 0, bitOffset := 0 }

theorem Dim.core_name (d : Dim) : d.core.name = d.name := rfl
theorem Dim.core_position (d : Dim) : d.core.position = d.position := rfl
theorem Dim.core_bitSize (d : Dim) : d.core.bitSize = d.bitSize := rfl
theorem Dim.core_required (d : Dim) : d.core.required = d.required := rfl

namespace Schema

theorem sizeStep_core (st : Sizes) (d : Dim) : (sizeStep st d).1.core = d.core := by
  unfold sizeStep Dim.core; dsimp only; split <;> rfl

theorem sizeStep_congr (st : Sizes) {d e : Dim} (h : d.core = e.core) : sizeStep st d = sizeStep st e := by
  obtain ⟨n, b, r, a, p, o, q⟩ := d
  obtain ⟨n', b', r', a', p', o', q'⟩ := e
  simp only [Dim.core, Dim.mk.injEq] at h
  obtain ⟨rfl, rfl, rfl, rfl, rfl, -, -⟩ := h
  rfl

theorem sizeLoop_cons (st : Sizes) (d : Dim) (ds : List Dim) :
    sizeLoop st (d :: ds) =
      ((sizeStep st d).1 :: (sizeLoop (sizeStep st d).2 ds).1, (sizeLoop (sizeStep st d).2 ds).2) := rfl

theorem sizeLoop_core (st : Sizes) (ds : List Dim) : (sizeLoop st ds).1.map Dim.core = ds.map Dim.core := by
  induction ds generalizing st with
  | nil => rfl
  | cons d ds ih => rw [sizeLoop_cons]; simp [ih, sizeStep_core]

theorem sizeLoop_congr (st : Sizes) {a b : List Dim} (h : a.map Dim.core = b.map Dim.core) :
    sizeLoop st a = sizeLoop st b := by
  induction a generalizing st b with
  | nil => cases b with
    | nil => rfl
    | cons x y => simp at h
  | cons d a ih =>
    cases b with
    | nil => simp at h
    | cons e b =>
      simp only [List.map_cons, List.cons.injEq] at h
      rw [sizeLoop_cons, sizeLoop_cons, sizeStep_congr st h.1, ih _ h.2]

theorem sizeLoop_append (st : Sizes) (a b : List Dim) :
    sizeLoop st (a ++ b) =
      ((sizeLoop st a).1 ++ (sizeLoop (sizeLoop st a).2 b).1, (sizeLoop (sizeLoop st a).2 b).2) := by
  induction a generalizing st with
  | nil => rfl
  | cons d a ih => rw [List.cons_append, sizeLoop_cons, sizeLoop_cons, ih]; rfl

theorem map_core_name {a b : List Dim} (h : a.map Dim.core = b.map Dim.core) : a.map Dim.name = b.map Dim.name := by
  have := congrArg (List.map Dim.name) h
  simpa [List.map_map, Function.comp_def, Dim.core_name] using this

theorem map_core_position {a b : List Dim} (h : a.map Dim.core = b.map Dim.core) :
    a.map Dim.position = b.map Dim.position := by
  have := congrArg (List.map Dim.position) h
  simpa [List.map_map, Function.comp_def, Dim.core_position] using this

theorem map_core_required {a b : List Dim} (h : a.map Dim.core = b.map Dim.core) :
    a.map Dim.required = b.map Dim.required := by
  have := congrArg (List.map Dim.required) h
  simpa [List.map_map, Function.comp_def, Dim.core_required] using this

theorem sizeLoop_names (st : Sizes) (ds : List Dim) : (sizeLoop st ds).1.map Dim.name = ds.map Dim.name :=
  map_core_name (sizeLoop_core st ds)

theorem sizeLoop_positions (st : Sizes) (ds : List Dim) :
    (sizeLoop st ds).1.map Dim.position = ds.map Dim.position := map_core_position (sizeLoop_core st ds)

/-- In a list with distinct names, finding by name finds the element itself. -/
theorem find_name_of_mem {l : List Dim} (h : (l.map Dim.name).Nodup) {d : Dim} (hd : d ∈ l) :
    l.find? (fun e => e.name == d.name) = some d := by
  induction l with
  | nil => simp at hd
  | cons a l ih =>
    rw [List.map_cons, List.nodup_cons] at h
    rcases List.mem_cons.1 hd with rfl | hd
    · simp
    · have : a.name ≠ d.name := fun e => h.1 (e ▸ List.mem_map_of_mem hd)
      rw [List.find?_cons_of_neg (by simpa using this)]
      exact ih h.2 hd

/-- Replacing each element by the one of the same name in a list with the same names gives that list. -/
theorem map_find_self {l m : List Dim} (h : (m.map Dim.name).Nodup) (hn : m.map Dim.name = l.map Dim.name) :
    l.map (fun e => (m.find? fun d => d.name == e.name).getD e) = m := by
  induction l generalizing m with
  | nil => cases m with
    | nil => rfl
    | cons _ _ => simp at hn
  | cons a l ih =>
    cases m with
    | nil => simp at hn
    | cons b m =>
      simp only [List.map_cons, List.cons.injEq] at hn
      rw [List.map_cons, List.nodup_cons] at h
      have hb : (b.name == a.name) = true := by simp [hn.1]
      rw [List.map_cons, List.find?_cons_of_pos (p := fun d : Dim => d.name == a.name) (a := b) hb]
      rw [Option.getD_some]
      congr 1
      conv_rhs => rw [← ih h.2 hn.2]
      apply List.map_congr_left
      intro e he
      have : b.name ≠ e.name := by
        intro e'
        exact h.1 (hn.2 ▸ e' ▸ List.mem_map_of_mem he)
      rw [List.find?_cons_of_neg (by simpa using this)]

/-- Strictly increasing positions. -/
def Sorted (l : List Dim) : Prop := l.Pairwise fun a b => a.position < b.position

theorem byPosition_sorted {l : List Dim} (h : Sorted l) : IndexMap.byPosition l = l :=
  List.Pairwise.insertionSort_eq (h.imp fun h => Nat.le_of_lt h)

theorem calculateSizes_sorted (s : Schema) (h : Sorted s.dims) (hn : (s.dims.map Dim.name).Nodup) :
    calculateSizes s =
      { s with
        bitSize := (sizeLoop ⟨0, 0, 0, 0⟩ s.dims).2.total
        baseBitSize := (sizeLoop ⟨0, 0, 0, 0⟩ s.dims).2.base
        dims := (sizeLoop ⟨0, 0, 0, 0⟩ s.dims).1 } := by
  unfold calculateSizes
  rw [byPosition_sorted h]
  have := map_find_self (l := s.dims) (m := (sizeLoop ⟨0, 0, 0, 0⟩ s.dims).1)
    (by rw [sizeLoop_names]; exact hn) (sizeLoop_names _ _)
  simp only [this]

theorem byPosition_perm (l : List Dim) : (IndexMap.byPosition l).Perm l := List.perm_insertionSort _ _

theorem byPosition_pairwise (l : List Dim) :
    (IndexMap.byPosition l).Pairwise fun a b => a.position ≤ b.position := by
  have : Std.Total (fun a b : Dim => a.position ≤ b.position) := ⟨fun a b => Nat.le_total _ _⟩
  have : IsTrans Dim (fun a b : Dim => a.position ≤ b.position) := ⟨fun a b c => Nat.le_trans⟩
  exact List.pairwise_insertionSort _ _

/-- `CalculateSizes` changes only offsets. -/
theorem calculateSizes_core (s : Schema) (hn : (s.dims.map Dim.name).Nodup) :
    (calculateSizes s).dims.map Dim.core = s.dims.map Dim.core := by
  unfold calculateSizes
  simp only [List.map_map]
  apply List.map_congr_left
  intro e he
  simp only [Function.comp]
  cases hf : (sizeLoop ⟨0, 0, 0, 0⟩ (IndexMap.byPosition s.dims)).1.find? (fun d => d.name == e.name) with
  | none => rfl
  | some d =>
    have hd := List.mem_of_find?_eq_some hf
    have hne := List.find?_some hf
    have : d.core ∈ (IndexMap.byPosition s.dims).map Dim.core := by
      rw [← sizeLoop_core ⟨0, 0, 0, 0⟩]; exact List.mem_map_of_mem hd
    obtain ⟨e', he', hc⟩ := List.mem_map.1 this
    have he'' : e' ∈ s.dims := (byPosition_perm _).mem_iff.1 he'
    have hnm : e'.name = e.name := by
      rw [← Dim.core_name e', hc, Dim.core_name]; simpa using hne
    have : e' = e := List.inj_on_of_nodup_map hn he'' he hnm
    rw [Option.getD_some, ← hc, this]

/-- No two dimensions share a name or a position. -/
def Uniq (s : Schema) : Prop := (s.dims.map Dim.name).Nodup ∧ (s.dims.map Dim.position).Nodup

theorem Uniq.calculateSizes {s : Schema} (h : Uniq s) : Uniq s.calculateSizes := by
  have := calculateSizes_core s h.1
  exact ⟨by rw [map_core_name this]; exact h.1, by rw [map_core_position this]; exact h.2⟩

theorem clash_false {m : List Dim} {d : Dim} (h : IndexMap.clash m d = false) :
    d.name ∉ m.map Dim.name ∧ d.position ∉ m.map Dim.position := by
  simp only [IndexMap.clash, List.any_eq_false, Bool.or_eq_true, beq_iff_eq, not_or] at h
  constructor
  · intro hh
    obtain ⟨e, he, e'⟩ := List.mem_map.1 hh
    exact (h e he).2 e'
  · intro hh
    obtain ⟨e, he, e'⟩ := List.mem_map.1 hh
    exact (h e he).1 e'

theorem uniq_insert {s : Schema} (h : Uniq s) (d : Dim) : Uniq { s with dims := IndexMap.insertDim s.dims d } := by
  unfold IndexMap.insertDim Uniq
  split
  · exact h
  · rename_i hc
    obtain ⟨h1, h2⟩ := clash_false (by simpa using hc)
    simp only [List.map_append, List.map_cons, List.map_nil]
    exact ⟨List.nodup_append.2 ⟨h.1, by simp, by intro a ha b hb; simp at hb; subst hb; exact fun e => h1 (e ▸ ha)⟩,
      List.nodup_append.2 ⟨h.2, by simp, by intro a ha b hb; simp at hb; subst hb; exact fun e => h2 (e ▸ ha)⟩⟩

theorem nodup_map_replace {α : Type} [DecidableEq α] (g : Dim → α) (n : String) (d : Dim) (l : List Dim)
    (hn : (l.map Dim.name).Nodup) (h : (l.map g).Nodup) (hd : g d ∉ (l.filter fun e => e.name != n).map g) :
    ((l.map fun e => if e.name == n then d else e).map g).Nodup := by
  induction l with
  | nil => simp
  | cons a l ih =>
    rw [List.map_cons, List.nodup_cons] at h hn
    rw [List.map_cons, List.map_cons, List.nodup_cons]
    by_cases ha : a.name = n
    · have hk : ∀ e ∈ l, e.name ≠ n := by
        intro e he e'; exact hn.1 (by rw [ha, ← e']; exact List.mem_map_of_mem he)
      have hl : (l.map fun e => if e.name == n then d else e) = l := by
        conv_rhs => rw [← List.map_id l]
        apply List.map_congr_left
        intro e he; simp [hk e he]
      have hf : (l.filter fun e => e.name != n) = l := by
        rw [List.filter_eq_self]; intro e he; simp [hk e he]
      rw [hl]
      refine ⟨?_, h.2⟩
      rw [List.filter_cons_of_neg (by simp [ha]), hf] at hd
      simpa [ha] using hd
    · rw [List.filter_cons_of_pos (by simp [ha]), List.map_cons, List.mem_cons, not_or] at hd
      refine ⟨?_, ih hn.2 h.2 hd.2⟩
      simp only [ha, beq_iff_eq, if_false]
      intro hm
      obtain ⟨x, hx, hx'⟩ := List.mem_map.1 hm
      obtain ⟨y, hy, rfl⟩ := List.mem_map.1 hx
      split at hx'
      · exact hd.1 hx'
      · exact h.1 (hx' ▸ List.mem_map_of_mem hy)

theorem uniq_replace {s : Schema} (h : Uniq s) (n : String) (d : Dim) :
    Uniq { s with dims := IndexMap.replaceNamed s.dims n d } := by
  unfold IndexMap.replaceNamed Uniq
  split
  · exact h
  · rename_i hc
    obtain ⟨h1, h2⟩ := clash_false (by simpa using hc)
    exact ⟨nodup_map_replace _ _ _ _ h.1 h.1 h1, nodup_map_replace _ _ _ _ h.1 h.2 h2⟩

theorem Uniq.addDimension {s : Schema} (h : Uniq s) (d : Dim) : Uniq (s.addDimension d) := by
  unfold Schema.addDimension
  dsimp only
  split
  · exact Uniq.calculateSizes (uniq_replace (s := { s with nextPos := (s.nextPos + 1) % 2 ^ 32 }) h _ _)
  · exact Uniq.calculateSizes (uniq_insert (s := { s with nextPos := (s.nextPos + 1) % 2 ^ 32 }) h _)

theorem Uniq.foldl {s : Schema} (h : Uniq s) (ds : List Dim) : Uniq (ds.foldl Schema.addDimension s) := by
  induction ds generalizing s with
  | nil => exact h
  | cons d ds ih => exact ih (h.addDimension d)

theorem Uniq.removeDimension {s : Schema} (h : Uniq s) (d : Dim) : Uniq (s.removeDimension d) := by
  unfold Schema.removeDimension IndexMap.erasePosition
  apply Uniq.calculateSizes
  exact ⟨(h.1.sublist (List.filter_sublist.map _)), h.2.sublist (List.filter_sublist.map _)⟩

theorem Uniq.setDimension {s : Schema} (h : Uniq s) (d : Dim) : Uniq (s.setDimension d).1 := by
  unfold Schema.setDimension
  split
  · exact uniq_replace h _ _
  · exact h

theorem Uniq.addRecord0 {s : Schema} (h : Uniq s) : Uniq s.addRecord0 := by
  unfold Schema.addRecord0
  have : Uniq (record0.foldl (fun s d => s.addDimension { name := d.1, bitSize := d.2 }) s) := by
    generalize record0 = l
    induction l generalizing s with
    | nil => exact h
    | cons d l ih => exact ih (h.addDimension _)
  unfold Uniq at this ⊢
  simpa [List.map_map, Function.comp_def] using this

theorem Uniq.addTime {s : Schema} (h : Uniq s) : Uniq s.addTime := h.addDimension _

theorem Uniq.addColor {s : Schema} (h : Uniq s) : Uniq s.addColor :=
  ((h.addDimension _).addDimension _).addDimension _

theorem Uniq.updateRequired {s : Schema} (f : PointFormat) : Uniq (s.updateRequired f).1 := by
  have h0 : Uniq (Schema.addRecord0 { s with dims := [], nextPos := 0 }) :=
    Uniq.addRecord0 ⟨List.nodup_nil, List.nodup_nil⟩
  unfold Schema.updateRequired
  generalize Schema.addRecord0 { s with dims := [], nextPos := 0 } = s0 at h0 ⊢
  cases f <;> dsimp only
  · exact (h0.foldl _).calculateSizes
  · exact (h0.addTime.foldl _).calculateSizes
  · exact (h0.addColor.foldl _).calculateSizes
  · exact (h0.addTime.addColor.foldl _).calculateSizes
  · exact h0
  · exact h0

theorem Uniq.setDataFormatId {s : Schema} (f : PointFormat) : Uniq (s.setDataFormatId f).1 := by
  have h := Uniq.updateRequired (s := s) f
  unfold Schema.setDataFormatId
  generalize s.updateRequired f = r at h ⊢
  obtain ⟨s', o⟩ := r
  cases o with
  | ok u => exact Uniq.calculateSizes (s := { s' with fmt := f }) h
  | throw e => exact h
  | ub => exact h

theorem Uniq.make {f : PointFormat} {s : Schema} (h : Schema.make f = .ok s) : Uniq s := by
  have hu := Uniq.updateRequired (s := ⟨f, 0, 0, 0, []⟩) f
  unfold Schema.make at h
  generalize Schema.updateRequired ⟨f, 0, 0, 0, []⟩ f = r at h hu
  obtain ⟨s', o⟩ := r
  cases o <;> simp_all

end Schema
end LibLAS
