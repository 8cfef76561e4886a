import Verif.Lemmas.Schema
import Verif.Lemmas.Point
namespace LibLAS
namespace Schema
open Spec

/-- Consecutive positions from `n` on. -/
def renumber : Nat → List Dim → List Dim
  | _, [] => []
  | n, d :: ds => { d with position := n } :: renumber (n + 1) ds

theorem renumber_map_name (n : Nat) (ds : List Dim) : (renumber n ds).map Dim.name = ds.map Dim.name := by
  induction ds generalizing n with
  | nil => rfl
  | cons d ds ih => simp [renumber, ih]

theorem renumber_length (n : Nat) (ds : List Dim) : (renumber n ds).length = ds.length := by
  induction ds generalizing n with
  | nil => rfl
  | cons d ds ih => simp [renumber, ih]

theorem renumber_pos {n : Nat} {ds : List Dim} {d : Dim} (h : d ∈ renumber n ds) :
    n ≤ d.position ∧ d.position < n + ds.length := by
  induction ds generalizing n with
  | nil => simp [renumber] at h
  | cons e ds ih =>
    rcases List.mem_cons.1 h with rfl | h
    · simp
    · have := ih h
      simp only [List.length_cons]
      omega

theorem renumber_sorted (n : Nat) (ds : List Dim) : Sorted (renumber n ds) := by
  induction ds generalizing n with
  | nil => exact List.Pairwise.nil
  | cons d ds ih =>
    refine List.Pairwise.cons ?_ (ih _)
    intro e he
    have := (renumber_pos he).1
    simp only
    omega

theorem renumber_append (n : Nat) (a b : List Dim) :
    renumber n (a ++ b) = renumber n a ++ renumber (n + a.length) b := by
  induction a generalizing n with
  | nil => simp [renumber]
  | cons d a ih =>
    simp only [List.cons_append, renumber, ih, List.length_cons]
    rw [show n + 1 + a.length = n + (a.length + 1) by omega]

/-- The dimensions are `L` up to offsets, in position order, with the next position free. -/
structure Canon (s : Schema) (L : List Dim) : Prop where
  core : s.dims.map Dim.core = L.map Dim.core
  sorted : Sorted L
  names : (L.map Dim.name).Nodup
  pos : ∀ d ∈ L, d.position < s.nextPos

/-- Additionally, offsets and sizes are those of `L`. -/
structure Laid (s : Schema) (L : List Dim) : Prop extends Canon s L where
  dims : s.dims = (sizeLoop ⟨0, 0, 0, 0⟩ L).1
  bits : s.bitSize = (sizeLoop ⟨0, 0, 0, 0⟩ L).2.total
  base : s.baseBitSize = (sizeLoop ⟨0, 0, 0, 0⟩ L).2.base

theorem sorted_congr {a b : List Dim} (h : a.map Dim.core = b.map Dim.core) (hb : Sorted b) : Sorted a := by
  have := map_core_position h
  have hb' : (b.map Dim.position).Pairwise (· < ·) := List.pairwise_map.2 hb
  rw [← this] at hb'
  exact List.pairwise_map.1 hb'

theorem Canon.laid {s : Schema} {L : List Dim} (h : Canon s L) : Laid s.calculateSizes L := by
  have hs := sorted_congr h.core h.sorted
  have hn : (s.dims.map Dim.name).Nodup := by rw [map_core_name h.core]; exact h.names
  rw [calculateSizes_sorted s hs hn, sizeLoop_congr _ h.core]
  exact ⟨⟨by simpa using sizeLoop_core _ _, h.sorted, h.names, h.pos⟩, rfl, rfl, rfl⟩

theorem named_none {m : List Dim} {n : String} (h : n ∉ m.map Dim.name) : IndexMap.named m n = none := by
  unfold IndexMap.named
  rw [List.find?_eq_none]
  intro e he hh
  exact h (by simp at hh; exact hh ▸ List.mem_map_of_mem he)

theorem clash_false_of {m : List Dim} {d : Dim} (h1 : d.name ∉ m.map Dim.name)
    (h2 : d.position ∉ m.map Dim.position) : IndexMap.clash m d = false := by
  simp only [IndexMap.clash, List.any_eq_false, Bool.or_eq_true, beq_iff_eq, not_or]
  intro e he
  exact ⟨fun hh => h2 (hh ▸ List.mem_map_of_mem he), fun hh => h1 (hh ▸ List.mem_map_of_mem he)⟩

theorem addDimension_fmt (s : Schema) (d : Dim) : (s.addDimension d).fmt = s.fmt := by
  unfold addDimension; dsimp only; split <;> rfl

theorem addDimension_nextPos (s : Schema) (d : Dim) : (s.addDimension d).nextPos = (s.nextPos + 1) % 2 ^ 32 := by
  unfold addDimension; dsimp only; split <;> rfl

theorem Canon.addDimension {s : Schema} {L : List Dim} (h : Canon s L) {d : Dim} (hd : d.name ∉ L.map Dim.name)
    (hp : s.nextPos + 1 < 2 ^ 32) : Laid (s.addDimension d) (L ++ [{ d with position := s.nextPos }]) := by
  have hd' : d.name ∉ s.dims.map Dim.name := by rw [map_core_name h.core]; exact hd
  have hpos : ∀ p ∈ s.dims.map Dim.position, p < s.nextPos := by
    rw [map_core_position h.core]
    intro p hp
    obtain ⟨e, he, rfl⟩ := List.mem_map.1 hp
    exact h.pos e he
  unfold Schema.addDimension
  dsimp only
  rw [named_none hd']
  dsimp only
  apply Canon.laid
  have hc : IndexMap.clash s.dims { d with position := s.nextPos } = false :=
    clash_false_of hd' fun hh => Nat.lt_irrefl _ (hpos _ hh)
  constructor
  · simp only [IndexMap.insertDim, hc, Bool.false_eq_true, if_false, List.map_append, h.core]
  · refine List.pairwise_append.2 ⟨h.sorted, List.pairwise_singleton _ _, ?_⟩
    intro a ha b hb
    simp only [List.mem_singleton] at hb
    subst hb
    exact h.pos a ha
  · rw [List.map_append, List.nodup_append]
    refine ⟨h.names, by simp, ?_⟩
    intro a ha b hb
    simp only [List.map_cons, List.map_nil, List.mem_singleton] at hb
    subst hb
    exact fun e => hd (e ▸ ha)
  · intro e he
    show e.position < (s.nextPos + 1) % 2 ^ 32
    rw [Nat.mod_eq_of_lt hp]
    rcases List.mem_append.1 he with he | he
    · have := h.pos e he; omega
    · simp only [List.mem_singleton] at he
      subst he
      simp

theorem foldl_fmt (s : Schema) (ds : List Dim) : (ds.foldl Schema.addDimension s).fmt = s.fmt := by
  induction ds generalizing s with
  | nil => rfl
  | cons d ds ih => rw [List.foldl_cons, ih, addDimension_fmt]

theorem Canon.foldl {s : Schema} {L : List Dim} (h : Canon s L) {ds : List Dim} (hn : (ds.map Dim.name).Nodup)
    (hd : ∀ d ∈ ds, d.name ∉ L.map Dim.name) (hp : s.nextPos + ds.length < 2 ^ 32) :
    Canon (ds.foldl Schema.addDimension s) (L ++ renumber s.nextPos ds) ∧
      (ds.foldl Schema.addDimension s).nextPos = s.nextPos + ds.length := by
  induction ds generalizing s L with
  | nil => simpa [renumber] using h
  | cons d ds ih =>
    rw [List.map_cons, List.nodup_cons] at hn
    rw [List.length_cons] at hp
    have h1 := h.addDimension (hd d (by simp)) (by omega)
    have hnp : (s.addDimension d).nextPos = s.nextPos + 1 := by
      rw [addDimension_nextPos, Nat.mod_eq_of_lt (by omega)]
    have := ih h1.toCanon hn.2 (by
      intro e he hm
      rw [List.map_append, List.mem_append] at hm
      rcases hm with hm | hm
      · exact hd e (by simp [he]) hm
      · simp only [List.map_cons, List.map_nil, List.mem_singleton] at hm
        exact hn.1 (hm ▸ List.mem_map_of_mem he)) (by omega)
    rw [hnp] at this
    refine ⟨?_, ?_⟩
    · simpa [renumber, List.append_assoc] using this.1
    · rw [List.foldl_cons, this.2, List.length_cons]; omega

/-- The standard dimensions of a format. -/
def stdL (f : PointFormat) : List Dim :=
  renumber 0 ((stdDims f).map fun p => { name := p.1, bitSize := p.2.2, required := true, active := true })

theorem addRecord0_eq (s : Schema) : Schema.addRecord0 { s with dims := [], nextPos := 0 } =
    Schema.addRecord0 ⟨s.fmt, 0, 0, 0, []⟩ := rfl

/-- Schema with the standard dimensions, before the user dimensions are added back. -/
def stdBase (fm f : PointFormat) : Schema :=
  let s := Schema.addRecord0 ⟨fm, 0, 0, 0, []⟩
  match f with
  | .f3 => s.addTime.addColor
  | .f2 => s.addColor
  | .f1 => s.addTime
  | _ => s

set_option maxRecDepth 10000 in
theorem stdBase_facts (fm f : PointFormat) (hf : f.std = true) :
    (stdBase fm f).dims.map Dim.core = (stdL f).map Dim.core ∧ ((stdL f).map Dim.name).Nodup ∧
    (∀ d ∈ stdL f, d.position < (stdBase fm f).nextPos) ∧ (stdBase fm f).nextPos = (stdL f).length ∧
    (stdL f).length ≤ 16 ∧ (∀ n ∈ (stdL f).map Dim.name, n ∈ stdNames) ∧ (stdBase fm f).fmt = fm := by
  cases fm <;> cases f <;> first | (exact absurd hf (by decide)) | decide +kernel

theorem stdBase_canon (fm f : PointFormat) (hf : f.std = true) : Canon (stdBase fm f) (stdL f) :=
  have h := stdBase_facts fm f hf
  ⟨h.1, renumber_sorted _ _, h.2.1, h.2.2.1⟩

theorem updateRequired_std (s : Schema) (f : PointFormat) (hf : f.std = true) :
    s.updateRequired f =
      (calculateSizes (((IndexMap.byPosition s.dims).filter fun d => !d.required).foldl Schema.addDimension
        (stdBase s.fmt f)), .ok ()) := by
  unfold Schema.updateRequired stdBase
  rw [addRecord0_eq]
  generalize Schema.addRecord0 ⟨s.fmt, 0, 0, 0, []⟩ = s0
  cases f <;> first | rfl | (exact absurd hf (by decide))

theorem updateRequired_laid (s : Schema) (f : PointFormat) (hf : f.std = true) {us : List Dim}
    (hus : us = (IndexMap.byPosition s.dims).filter fun d => !d.required)
    (hn : (us.map Dim.name).Nodup) (hd : ∀ d ∈ us, d.name ∉ stdNames) (hl : us.length < 2 ^ 32 - 16) :
    Laid (s.updateRequired f).1 (stdL f ++ renumber (stdL f).length us) ∧ (s.updateRequired f).2 = .ok () ∧
      (s.updateRequired f).1.fmt = s.fmt ∧ (s.updateRequired f).1.nextPos = (stdL f).length + us.length := by
  obtain ⟨-, -, -, hnp, h16, hsn, hfm⟩ := stdBase_facts s.fmt f hf
  have hc := stdBase_canon s.fmt f hf
  rw [updateRequired_std s f hf, ← hus]
  have h := hc.foldl hn (fun d hd' hm => hd d hd' (hsn _ hm)) (by rw [hnp]; omega)
  rw [hnp] at h
  exact ⟨h.1.laid, rfl, by rw [← foldl_fmt (stdBase s.fmt f) us] at hfm; exact hfm, h.2⟩

theorem make_laid (f : PointFormat) (hf : f.std = true) :
    ∃ s, Schema.make f = .ok s ∧ Laid s (stdL f) ∧ s.fmt = f ∧ s.nextPos = (stdL f).length := by
  have h := updateRequired_laid ⟨f, 0, 0, 0, []⟩ f hf (us := []) rfl (by simp) (by simp) (by simp)
  unfold Schema.make
  generalize Schema.updateRequired ⟨f, 0, 0, 0, []⟩ f = r at h
  obtain ⟨s', o⟩ := r
  obtain ⟨h1, h2, h3, h4⟩ := h
  simp only at h1 h2 h3 h4
  subst h2
  refine ⟨s', rfl, ?_, h3, h4⟩
  simpa [renumber] using h1

theorem Laid.foldl {s : Schema} {L : List Dim} (h : Laid s L) {ds : List Dim} (hn : (ds.map Dim.name).Nodup)
    (hd : ∀ d ∈ ds, d.name ∉ L.map Dim.name) (hp : s.nextPos + ds.length < 2 ^ 32) :
    Laid (ds.foldl Schema.addDimension s) (L ++ renumber s.nextPos ds) := by
  induction ds generalizing s L with
  | nil => simpa [renumber] using h
  | cons d ds ih =>
    rw [List.map_cons, List.nodup_cons] at hn
    rw [List.length_cons] at hp
    have h1 := h.toCanon.addDimension (hd d (by simp)) (by omega)
    have hnp : (s.addDimension d).nextPos = s.nextPos + 1 := by
      rw [addDimension_nextPos, Nat.mod_eq_of_lt (by omega)]
    have := ih h1 hn.2 (by
      intro e he hm
      rw [List.map_append, List.mem_append] at hm
      rcases hm with hm | hm
      · exact hd e (by simp [he]) hm
      · simp only [List.map_cons, List.map_nil, List.mem_singleton] at hm
        exact hn.1 (hm ▸ List.mem_map_of_mem he)) (by omega)
    rw [hnp] at this
    simpa [renumber, List.append_assoc] using this

/-- The state of the size loop after the standard dimensions, and their offsets. -/
theorem stdL_sizes (f : PointFormat) (hf : f.std = true) :
    (sizeLoop ⟨0, 0, 0, 0⟩ (stdL f)).2 = ⟨8 * formatSize f, 8 * formatSize f, formatSize f, 0⟩ ∧
    (sizeLoop ⟨0, 0, 0, 0⟩ (stdL f)).1.map (fun d => (d.name, d.byteOffset, d.bitSize)) = stdDims f := by
  cases f <;> first | (exact absurd hf (by decide)) | decide +kernel

/-- Offsets of whole-byte dimensions. -/
def placed : Nat → List Dim → List Dim
  | _, [] => []
  | o, d :: ds => { d with byteOffset := o, bitOffset := 0 } :: placed (o + d.bitSize / 8) ds

theorem totalBytes_cons (d : Dim) (ds : List Dim) : totalBytes (d :: ds) = d.bitSize / 8 + totalBytes ds := by
  simp [totalBytes]

theorem sizeLoop_aligned (t b o : Nat) (ds : List Dim) (ha : ∀ d ∈ ds, Aligned d)
    (ht : t + 8 * totalBytes ds < 2 ^ 64) (ho : o + totalBytes ds < 2 ^ 64) (hr : ∀ d ∈ ds, d.required = false) :
    sizeLoop ⟨t, b, o, 0⟩ ds = (placed o ds, ⟨t + 8 * totalBytes ds, b, o + totalBytes ds, 0⟩) := by
  induction ds generalizing t o with
  | nil => simp [sizeLoop, placed, totalBytes]
  | cons d ds ih =>
    obtain ⟨h0, h8⟩ := ha d (by simp)
    have hrd := hr d (by simp)
    rw [totalBytes_cons] at ht ho
    have hs : sizeStep ⟨t, b, o, 0⟩ d =
        ({ d with byteOffset := o, bitOffset := 0 }, ⟨t + d.bitSize, b, o + d.bitSize / 8, 0⟩) := by
      unfold sizeStep Dim.byteSize
      simp only [h8, hrd]
      simp
      omega
    rw [sizeLoop_cons, hs]
    dsimp only
    rw [ih (t + d.bitSize) (o + d.bitSize / 8) (fun e he => ha e (by simp [he])) (by omega) (by omega)
      (fun e he => hr e (by simp [he])), totalBytes_cons]
    simp only [placed]
    congr 1
    congr 1 <;> omega

theorem sizeLoop_total (st : Sizes) (ds : List Dim) (h : st.total + (ds.map Dim.bitSize).sum < 2 ^ 64) :
    (sizeLoop st ds).2.total = st.total + (ds.map Dim.bitSize).sum := by
  induction ds generalizing st with
  | nil => simp [sizeLoop]
  | cons d ds ih =>
    simp only [List.map_cons, List.sum_cons] at h ⊢
    have ht : (sizeStep st d).2.total = st.total + d.bitSize := by
      unfold sizeStep; dsimp only
      have : (st.total + d.bitSize) % 2 ^ 64 = st.total + d.bitSize := Nat.mod_eq_of_lt (by omega)
      split <;> simpa using this
    rw [sizeLoop_cons]
    dsimp only
    rw [ih _ (by rw [ht]; omega), ht]
    omega

theorem totalBytes_renumber (n : Nat) (ds : List Dim) : totalBytes (renumber n ds) = totalBytes ds := by
  induction ds generalizing n with
  | nil => rfl
  | cons d ds ih => rw [renumber, totalBytes_cons, totalBytes_cons, ih]

theorem renumber_forall {P : Dim → Prop} (hP : ∀ (d : Dim) n, P d → P { d with position := n }) (n : Nat)
    {ds : List Dim} (h : ∀ d ∈ ds, P d) : ∀ d ∈ renumber n ds, P d := by
  induction ds generalizing n with
  | nil => simp [renumber]
  | cons e ds ih =>
    intro d hd
    rcases List.mem_cons.1 hd with rfl | hd
    · exact hP _ _ (h e (by simp))
    · exact ih _ (fun d hd => h d (by simp [hd])) d hd

theorem placed_append (o : Nat) (a b : List Dim) :
    placed o (a ++ b) = placed o a ++ placed (o + totalBytes a) b := by
  induction a generalizing o with
  | nil => simp [placed, totalBytes]
  | cons d a ih => rw [List.cons_append, placed, placed, ih, totalBytes_cons, List.cons_append, Nat.add_assoc]

end Schema
end LibLAS
