import Verif.Lemmas.SchemaLayout
/-
C16, C17, C18: schemas.
-/
namespace LibLAS
open Spec Schema

/-- One edit; the schema after it and whether it threw. -/
def Schema.edit (s : Schema) : SchemaOp → Schema × Outcome Unit
  | .add d => (s.addDimension d, .ok ())
  | .remove d => (s.removeDimension d, .ok ())
  | .set d => s.setDimension d
  | .format f => s.setDataFormatId f

/-- A schema obtained from a constructor by any sequence of edits (exceptions are caught and the object is used on). -/
inductive Schema.Reachable : Schema → Prop
  | make {f s} : Schema.make f = .ok s → Reachable s
  | edit {s} (op : SchemaOp) : Reachable s → Reachable (s.edit op).1

/-- The schema of format `f` with the dimensions `ds` added. -/
def Schema.withDims (f : PointFormat) (ds : List Dim) : Outcome Schema := do
  let s ← Schema.make f
  pure (ds.foldl addDimension s)

theorem Schema.withDims_laid (f : PointFormat) (hf : f.std = true) (ds : List Dim) (hu : UserDims ds)
    (hl : ds.length < 2 ^ 32 - 16) :
    ∃ s, Schema.withDims f ds = .ok s ∧ Laid s (stdL f ++ renumber (stdL f).length ds) := by
  obtain ⟨s, h1, h2, -, h4⟩ := make_laid f hf
  obtain ⟨-, -, -, -, h16, hsn, -⟩ := stdBase_facts f f hf
  refine ⟨_, by unfold Schema.withDims; rw [h1]; rfl, ?_⟩
  rw [← h4]
  exact h2.foldl hu.2 (fun d hd hm => (hu.1 d hd).2 (hsn _ hm)) (by omega)

theorem length_le_totalBytes (ds : List Dim) (ha : ∀ d ∈ ds, Aligned d) : ds.length ≤ totalBytes ds := by
  induction ds with
  | nil => simp
  | cons d ds ih =>
    rw [totalBytes_cons, List.length_cons]
    have := ha d (by simp)
    have := ih fun e he => ha e (by simp [he])
    unfold Aligned at *
    omega

/-- The layout of whole-byte user dimensions behind the standard ones. -/
theorem Schema.withDims_sizes (f : PointFormat) (hf : f.std = true) (ds : List Dim) (hu : UserDims ds)
    (ha : ∀ d ∈ ds, Aligned d) (hsz : formatSize f + totalBytes ds ≤ 65535) :
    ∃ s, Schema.withDims f ds = .ok s ∧ s.byteSize = formatSize f + totalBytes ds ∧
      s.baseByteSize = formatSize f ∧
      s.dims = (sizeLoop ⟨0, 0, 0, 0⟩ (stdL f)).1 ++ placed (formatSize f) (renumber (stdL f).length ds) ∧
      (s.dims.map Dim.name).Nodup := by
  have hlen := length_le_totalBytes ds ha
  obtain ⟨s, h1, h2⟩ := Schema.withDims_laid f hf ds hu (by omega)
  have hstd := (stdL_sizes f hf).1
  have hal := sizeLoop_aligned (8 * formatSize f) (8 * formatSize f) (formatSize f) (renumber (stdL f).length ds)
    (renumber_forall (P := Aligned) (fun d n h => h) _ ha) (by rw [totalBytes_renumber]; omega)
    (by rw [totalBytes_renumber]; omega)
    (renumber_forall (P := fun d => d.required = false) (fun d n h => h) _ fun d hd => (hu.1 d hd).1)
  refine ⟨s, h1, ?_, ?_, ?_, ?_⟩
  · unfold byteSize; rw [h2.bits, sizeLoop_append, hstd, hal, totalBytes_renumber]; simp only; omega
  · unfold baseByteSize; rw [h2.base, sizeLoop_append, hstd, hal]; simp only; omega
  · rw [h2.dims, sizeLoop_append, hstd, hal]
  · have := h2.core
    rw [map_core_name h2.core]; exact h2.names

/-- C16: the advertised record length is the size of the standard attributes plus the sizes of the added dimensions. -/
theorem record_length_is_sum (f : PointFormat) (hf : f.std = true) (ds : List Dim) (hu : UserDims ds)
    (ha : ∀ d ∈ ds, Aligned d) (hsz : formatSize f + totalBytes ds ≤ 65535) :
    ∃ s, Schema.withDims f ds = .ok s ∧ s.dataRecordLength = formatSize f + totalBytes ds ∧
      s.baseByteSize = formatSize f := by
  obtain ⟨s, h1, h2, h3, -⟩ := Schema.withDims_sizes f hf ds hu ha hsz
  exact ⟨s, h1, by unfold dataRecordLength; rw [h2]; exact Nat.mod_eq_of_lt (by omega), h3⟩

/-- C16: whatever is added, the standard dimensions stay at the offsets of the LAS layout, which are those the point
accessors use (`observe_is_las_layout`). -/
theorem standard_dimension_offsets (f : PointFormat) (hf : f.std = true) (ds : List Dim) (hu : UserDims ds)
    (hl : ds.length < 2 ^ 32 - 16) :
    ∃ s, Schema.withDims f ds = .ok s ∧ ∀ n off bits, (n, off, bits) ∈ stdDims f →
      ∃ d, s.getDimension n = some d ∧ d.name = n ∧ d.byteOffset = off ∧ d.bitSize = bits := by
  obtain ⟨s, h1, h2⟩ := Schema.withDims_laid f hf ds hu hl
  refine ⟨s, h1, ?_⟩
  intro n off bits hm
  rw [← (stdL_sizes f hf).2] at hm
  obtain ⟨d, hd, he⟩ := List.mem_map.1 hm
  simp only [Prod.mk.injEq] at he
  have hd' : d ∈ s.dims := by rw [h2.dims, sizeLoop_append]; exact List.mem_append_left _ hd
  refine ⟨d, ?_, he.1, he.2.1, he.2.2⟩
  unfold getDimension IndexMap.named
  rw [← he.1]
  exact find_name_of_mem (by rw [map_core_name h2.core]; exact h2.names) hd'

/-- C16: user dimensions follow the standard attributes in the order they were added, without gaps or overlap. -/
theorem user_dimension_offsets (f : PointFormat) (hf : f.std = true) (a b : List Dim) (d : Dim)
    (hu : UserDims (a ++ d :: b)) (ha : ∀ e ∈ a ++ d :: b, Aligned e)
    (hsz : formatSize f + totalBytes (a ++ d :: b) ≤ 65535) :
    ∃ s, Schema.withDims f (a ++ d :: b) = .ok s ∧ ∃ e, s.getDimension d.name = some e ∧
      e.byteOffset = formatSize f + totalBytes a ∧ e.bitOffset = 0 ∧ e.bitSize = d.bitSize := by
  obtain ⟨s, h1, -, -, h4, h5⟩ := Schema.withDims_sizes f hf _ hu ha hsz
  refine ⟨s, h1, { d with position := (stdL f).length + a.length, byteOffset := formatSize f + totalBytes a,
                          bitOffset := 0 }, ?_, rfl, rfl, rfl⟩
  unfold getDimension IndexMap.named
  apply find_name_of_mem h5
    (d := { d with position := (stdL f).length + a.length, byteOffset := formatSize f + totalBytes a, bitOffset := 0 })
  rw [h4, renumber_append, placed_append, totalBytes_renumber]
  simp [renumber, placed]

/-- C16, any sizes: the total size in bits is the sum of the sizes in bits, so the record length is that sum rounded
DOWN to whole bytes. -/
theorem record_bits_is_sum (f : PointFormat) (hf : f.std = true) (ds : List Dim) (hu : UserDims ds)
    (hl : ds.length < 2 ^ 32 - 16) (hsz : 8 * formatSize f + (ds.map Dim.bitSize).sum < 2 ^ 64) :
    ∃ s, Schema.withDims f ds = .ok s ∧ s.bitSize = 8 * formatSize f + (ds.map Dim.bitSize).sum := by
  obtain ⟨s, h1, h2⟩ := Schema.withDims_laid f hf ds hu hl
  refine ⟨s, h1, ?_⟩
  have hr : ∀ n, (renumber n ds).map Dim.bitSize = ds.map Dim.bitSize := by
    intro n
    clear hu hl hsz h1 h2
    induction ds generalizing n with
    | nil => rfl
    | cons d ds ih => simp [renumber, ih]
  rw [h2.bits, sizeLoop_append, (stdL_sizes f hf).1]
  dsimp only
  rw [sizeLoop_total _ _ (by rw [hr]; exact hsz), hr]

/-- A dimension list to which the theorems above apply. -/
example : UserDims [{ name := "Pulse Width", bitSize := 16 }, { name := "Deviation", bitSize := 32 }] ∧
    ∀ d ∈ [({ name := "Pulse Width", bitSize := 16 } : Dim), { name := "Deviation", bitSize := 32 }], Aligned d := by
  unfold UserDims Aligned; decide

/-- Offsets of dimensions packed into one byte, from bit `k` of byte `o` on. -/
def Schema.packed : Nat → Nat → List Dim → List Dim
  | _, _, [] => []
  | o, k, d :: ds => { d with byteOffset := o, bitOffset := k + d.bitSize } :: packed o (k + d.bitSize) ds

theorem sizeLoop_packed (ds : List Dim) : ∀ (t b o k : Nat), (∀ d ∈ ds, 0 < d.bitSize ∧ d.bitSize < 8) →
    k + (ds.map Dim.bitSize).sum ≤ 8 → (sizeLoop ⟨t, b, o, k⟩ ds).1 = Schema.packed o k ds := by
  induction ds with
  | nil => intros; rfl
  | cons d ds ih =>
    intro t b o k hd hs
    simp only [List.map_cons, List.sum_cons] at hs
    obtain ⟨h1, h2⟩ := hd d (by simp)
    rw [sizeLoop_cons]
    have hm : d.bitSize % 8 = d.bitSize := Nat.mod_eq_of_lt h2
    cases ds with
    | nil =>
      simp only [sizeLoop, Schema.packed]
      congr 1
      unfold sizeStep; dsimp only; rw [hm]; split <;> rfl
    | cons e es =>
      obtain ⟨e1, -⟩ := hd e (by simp)
      simp only [List.map_cons, List.sum_cons] at hs
      have hne : ¬ (k + d.bitSize) % 8 = 0 := by omega
      have hst : sizeStep ⟨t, b, o, k⟩ d = ({ d with byteOffset := o, bitOffset := k + d.bitSize },
          ⟨(t + d.bitSize) % 2 ^ 64, if d.required then (b + d.bitSize) % 2 ^ 64 else b, o, k + d.bitSize⟩) := by
        unfold sizeStep; dsimp only; rw [hm, if_neg hne]
      rw [hst]
      dsimp only
      rw [ih _ _ _ _ (fun x hx => hd x (by simp [hx])) (by simp only [List.map_cons, List.sum_cons]; omega)]
      rfl

theorem packed_append (o : Nat) (a b : List Dim) : ∀ k, Schema.packed o k (a ++ b) =
    Schema.packed o k a ++ Schema.packed o (k + (a.map Dim.bitSize).sum) b := by
  induction a with
  | nil => intro k; simp [Schema.packed]
  | cons d a ih => intro k; simp [Schema.packed, ih, Nat.add_assoc]

theorem renumber_bits (ds : List Dim) : ∀ n, (renumber n ds).map Dim.bitSize = ds.map Dim.bitSize := by
  induction ds with
  | nil => intro n; rfl
  | cons d ds ih => intro n; simp [renumber, ih]

/-- C16, bit fields: dimensions of less than a byte which fit into one byte together are placed in that byte, behind the
whole-byte dimensions. The bit offset recorded for each is where it ENDS (the sizes up to and including its own), which
is also how the standard bit fields are recorded. -/
theorem packed_dimension_offsets (f : PointFormat) (hf : f.std = true) (ds a b : List Dim) (d : Dim)
    (hu : UserDims (ds ++ (a ++ d :: b))) (ha : ∀ e ∈ ds, Aligned e)
    (hb : ∀ e ∈ a ++ d :: b, 0 < e.bitSize ∧ e.bitSize < 8) (h8 : ((a ++ d :: b).map Dim.bitSize).sum ≤ 8)
    (hsz : formatSize f + totalBytes ds ≤ 65535) :
    ∃ s, Schema.withDims f (ds ++ (a ++ d :: b)) = .ok s ∧ ∃ e, s.getDimension d.name = some e ∧
      e.byteOffset = formatSize f + totalBytes ds ∧
      e.bitOffset = (a.map Dim.bitSize).sum + d.bitSize ∧ e.bitSize = d.bitSize := by
  have hlen := length_le_totalBytes ds ha
  have hlen2 : ∀ l : List Dim, (∀ e ∈ l, 0 < e.bitSize ∧ e.bitSize < 8) → l.length ≤ (l.map Dim.bitSize).sum := by
    intro l
    induction l with
    | nil => simp
    | cons x xs ih =>
      intro h
      have h1 := (h x (by simp)).1
      have := ih fun e he => h e (by simp [he])
      simp only [List.length_cons, List.map_cons, List.sum_cons]; omega
  have hl2 := hlen2 _ hb
  obtain ⟨s, h1, h2⟩ := Schema.withDims_laid f hf _ hu (by rw [List.length_append]; omega)
  have hstd := (stdL_sizes f hf).1
  have hal := sizeLoop_aligned (8 * formatSize f) (8 * formatSize f) (formatSize f) (renumber (stdL f).length ds)
    (renumber_forall (P := Aligned) (fun d n h => h) _ ha) (by rw [totalBytes_renumber]; omega)
    (by rw [totalBytes_renumber]; omega)
    (renumber_forall (P := fun d => d.required = false) (fun d n h => h) _ fun d hd => (hu.1 d (by simp [hd])).1)
  let e : Dim :=
    { d with
      position := (stdL f).length + ds.length + a.length
      byteOffset := formatSize f + totalBytes ds
      bitOffset := (a.map Dim.bitSize).sum + d.bitSize }
  refine ⟨s, h1, e, ?_, rfl, rfl, rfl⟩
  unfold getDimension IndexMap.named
  apply find_name_of_mem (d := e)
  · rw [map_core_name h2.core]; exact h2.names
  · rw [h2.dims, sizeLoop_append, hstd]
    apply List.mem_append_right
    rw [renumber_append, sizeLoop_append, hal]
    apply List.mem_append_right
    dsimp only
    rw [sizeLoop_packed _ _ _ _ _ (renumber_forall (P := fun d => 0 < d.bitSize ∧ d.bitSize < 8) (fun d n h => h) _ hb)
      (by rw [renumber_bits]; omega), renumber_append, packed_append, renumber_bits, totalBytes_renumber]
    simp [renumber, Schema.packed, e]

/-- Two half-byte dimensions behind a 2-byte one. -/
example : UserDims ([({ name := "Pulse Width", bitSize := 16 } : Dim)] ++
      ([({ name := "Low", bitSize := 4 } : Dim)] ++ ({ name := "High", bitSize := 4 } : Dim) :: [])) ∧
    (([({ name := "Low", bitSize := 4 } : Dim)] ++ ({ name := "High", bitSize := 4 } : Dim) :: []).map Dim.bitSize).sum ≤ 8 := by
  unfold UserDims; decide

/-- C16 fails for dimensions that are not whole bytes: a 12-bit dimension needs 2 bytes, the record grows by 1. -/
theorem record_length_not_sum_unaligned :
    (Schema.withDims .f0 [{ name := "Odd", bitSize := 12 }]).bind (fun s => .ok s.dataRecordLength) = .ok 21 ∧
    ({ name := "Odd", bitSize := 12 } : Dim).byteSize = 2 := by decide +kernel

/-- C16 fails when the sizes exceed 65535 bytes: the record length is truncated to 16 bits, here below the size of
the standard attributes, so a point of that header is too short for its own accessors. -/
theorem record_length_truncates :
    (Schema.withDims .f0 [{ name := "Waveform", bitSize := 8 * 65517 }]).bind
      (fun s => .ok s.dataRecordLength) = .ok 1 := by decide +kernel

/-- C16 fails after `SetDimension` with another size: the sizes are not recomputed. -/
theorem record_length_stale_after_set :
    ((Schema.withDims .f0 [{ name := "Extra", bitSize := 8 }]).bind fun s =>
      match s.getDimension "Extra" with
      | some d => .ok ((s.edit (.set { d with bitSize := 32 })).1.dataRecordLength,
          ((s.edit (.set { d with bitSize := 32 })).1.dims.map Dim.byteSize).getLast?,
          (s.edit (.set { d with bitSize := 32 })).2)
      | none => .throw .runtimeError) = .ok (21, some 4, .ok ()) := by decide +kernel

/-- C17: names and positions stay unique over every history of edits. -/
theorem schema_names_positions_unique {s : Schema} (h : s.Reachable) :
    (s.dims.map Dim.name).Nodup ∧ (s.dims.map Dim.position).Nodup := by
  have : Uniq s := by
    induction h with
    | make h => exact Uniq.make h
    | edit op _ ih =>
      cases op with
      | add d => exact ih.addDimension d
      | remove d => exact ih.removeDimension d
      | set d => exact ih.setDimension d
      | format f => exact Uniq.setDataFormatId f
  exact this

/-- C17: lookup by name finds exactly the dimension of that name. -/
theorem schema_lookup_exact {s : Schema} (h : s.Reachable) (n : String) (d : Dim) :
    s.getDimension n = some d ↔ d ∈ s.dims ∧ d.name = n := by
  have hn := (schema_names_positions_unique h).1
  unfold getDimension IndexMap.named
  constructor
  · intro hh
    exact ⟨List.mem_of_find?_eq_some hh, by simpa using List.find?_some hh⟩
  · rintro ⟨hd, rfl⟩
    exact find_name_of_mem hn hd

/-- C17: lookup by index below the number of dimensions succeeds; at the number of dimensions it throws instead of
reporting absence; beyond it reports absence. -/
theorem schema_lookup_by_index (s : Schema) (t : Nat) :
    (t < s.dims.length → ∃ d ∈ s.dims, s.getDimensionAt t = .ok (some d)) ∧
    (t = s.dims.length → s.getDimensionAt t = .throw .outOfRange) ∧
    (s.dims.length < t → s.getDimensionAt t = .ok none) := by
  unfold getDimensionAt
  refine ⟨fun h => ⟨s.dims[t], List.getElem_mem h, ?_⟩, fun h => ?_, fun h => ?_⟩
  · rw [if_pos (Nat.le_of_lt h), List.getElem?_eq_getElem h]
  · rw [if_pos (Nat.le_of_eq h), List.getElem?_eq_none (by omega)]
  · rw [if_neg (by omega)]

/-- C17: enumeration lists every dimension once, in strictly increasing position. -/
theorem schema_enumeration_ordered {s : Schema} (h : s.Reachable) :
    ∃ l : List Dim, s.getDimensionNames = l.map Dim.name ∧ l.Perm s.dims ∧
      l.Pairwise (fun a b => a.position < b.position) := by
  refine ⟨IndexMap.byPosition s.dims, rfl, byPosition_perm _, ?_⟩
  have hp : ((IndexMap.byPosition s.dims).map Dim.position).Nodup :=
    (((byPosition_perm s.dims).map Dim.position).nodup_iff).2 (schema_names_positions_unique h).2
  have h1 := byPosition_pairwise s.dims
  have h2 : (IndexMap.byPosition s.dims).Pairwise fun a b => a.position ≠ b.position := by
    have := List.nodup_iff_pairwise_ne.1 hp
    exact List.pairwise_map.1 this
  exact (h1.and h2).imp fun h => Nat.lt_of_le_of_ne h.1 h.2

/-- A reachable schema that went through every kind of edit. -/
example : Schema.Reachable ((((Schema.withDims .f3 [{ name := "A", bitSize := 8 }]).bind fun s =>
    .ok ((((s.edit (.remove { name := "", bitSize := 1, position := 3 })).1.edit (.format .f1)).1.edit (.set { name := "A", bitSize := 16, position := 40 })).1)) : Outcome Schema) |> fun
    | .ok s => s
    | _ => ⟨.f0, 0, 0, 0, []⟩) := by
  obtain ⟨s, h, -⟩ := make_laid .f3 rfl
  unfold Schema.withDims
  rw [h]
  exact .edit _ (.edit _ (.edit _ (.edit (.add _) (.make h))))

/-- The dimensions of a schema that were added by a user, in position order. -/
def Schema.userDims (s : Schema) : List Dim := (IndexMap.byPosition s.dims).filter fun d => !d.required

/-- C18: setting a supported format keeps all user dimensions, in order and with their sizes, behind the standard
dimensions of the new format. -/
theorem set_format_keeps_user_dims {s : Schema} (hs : s.Reachable) (f : PointFormat) (hf : f.std = true)
    (hn : ∀ d ∈ s.userDims, d.name ∉ stdNames) (hl : s.userDims.length < 2 ^ 32 - 16) :
    (s.setDataFormatId f).2 = .ok () ∧ (s.setDataFormatId f).1.fmt = f ∧
    (s.setDataFormatId f).1.getDimensionNames = (stdDims f).map Prod.fst ++ s.userDims.map Dim.name ∧
    (s.setDataFormatId f).1.userDims.map (fun d => (d.name, d.bitSize)) =
      s.userDims.map (fun d => (d.name, d.bitSize)) := by
  have hu := schema_names_positions_unique hs
  have hnd : (s.userDims.map Dim.name).Nodup := by
    have : ((IndexMap.byPosition s.dims).map Dim.name).Nodup :=
      (((byPosition_perm s.dims).map Dim.name).nodup_iff).2 hu.1
    exact this.sublist (List.filter_sublist.map _)
  obtain ⟨h1, h2, h3, h4⟩ := updateRequired_laid s f hf (us := s.userDims) rfl hnd hn hl
  unfold Schema.setDataFormatId
  generalize s.updateRequired f = r at h1 h2 h3 h4
  obtain ⟨s', o⟩ := r
  simp only at h1 h2 h3 h4
  subst h2
  have hc : Canon { s' with fmt := f } (stdL f ++ renumber (stdL f).length s.userDims) :=
    ⟨h1.core, h1.sorted, h1.names, h1.pos⟩
  have hl := hc.laid
  have hsorted := sorted_congr hl.core hl.sorted
  refine ⟨rfl, rfl, ?_, ?_⟩
  · show (IndexMap.byPosition (calculateSizes { s' with fmt := f }).dims).map Dim.name = _
    rw [byPosition_sorted hsorted, map_core_name hl.core, List.map_append, renumber_map_name]
    congr 1
    unfold stdL
    rw [renumber_map_name, List.map_map]
    rfl
  · show ((IndexMap.byPosition (calculateSizes { s' with fmt := f }).dims).filter fun d => !d.required).map _ = _
    rw [byPosition_sorted hsorted]
    have key : ∀ l : List Dim, (l.filter fun d => !d.required).map (fun d => (d.name, d.bitSize)) =
        ((l.map Dim.core).filter fun d => !d.required).map (fun d => (d.name, d.bitSize)) := by
      intro l
      rw [List.filter_map, List.map_map]
      rfl
    rw [key, hl.core, ← key, List.filter_append, List.map_append]
    have hreq : (stdL f).filter (fun d => !d.required) = [] := by
      cases f <;> first | (exact absurd hf (by decide)) | decide +kernel
    have hnr : ∀ n (l : List Dim), (∀ d ∈ l, d.required = false) →
        ((renumber n l).filter fun d => !d.required).map (fun d => (d.name, d.bitSize)) =
          l.map (fun d => (d.name, d.bitSize)) := by
      intro n l
      induction l generalizing n with
      | nil => intro _; rfl
      | cons d l ih =>
        intro hd
        rw [renumber, List.filter_cons_of_pos (by simp [hd d (by simp)]), List.map_cons, List.map_cons,
          ih _ fun e he => hd e (by simp [he])]
    rw [hreq, hnr]
    · rfl
    · intro d hd
      have := (List.mem_filter.1 hd).2
      simpa using this

/-- C18 fails for an unsupported format: it throws, but only after time, colour and every user dimension have been
discarded, so the header is not as it was. -/
theorem set_unsupported_format_destroys (s : Schema) (f : PointFormat) (hf : f.std = false) :
    (s.setDataFormatId f).2 = .throw .runtimeError ∧ (s.setDataFormatId f).1.fmt = s.fmt ∧
    (s.setDataFormatId f).1.getDimensionNames = (stdDims .f0).map Prod.fst := by
  have h : (s.setDataFormatId f) = (Schema.addRecord0 ⟨s.fmt, 0, 0, 0, []⟩, .throw .runtimeError) := by
    unfold Schema.setDataFormatId Schema.updateRequired
    rw [addRecord0_eq]
    generalize Schema.addRecord0 ⟨s.fmt, 0, 0, 0, []⟩ = s0
    cases f <;> first | rfl | (exact absurd hf (by decide))
  rw [h]
  generalize s.fmt = fm
  cases fm <;> decide +kernel

/-- A concrete loss: a format-3 header with a user dimension, after a rejected request for format 4. -/
example : ((Schema.withDims .f3 [{ name := "Extra", bitSize := 16 }]).bind fun s =>
    .ok (s.dataRecordLength, (s.setDataFormatId .f4).2, (s.setDataFormatId .f4).1.fmt,
      (s.setDataFormatId .f4).1.dataRecordLength)) = .ok (36, .throw .runtimeError, .f3, 20) := by decide +kernel

theorem find_congr {l : List Dim} {p q : Dim → Bool} (h : ∀ e ∈ l, p e = q e) : l.find? p = l.find? q := by
  induction l with
  | nil => rfl
  | cons a l ih =>
    rw [List.find?_cons, List.find?_cons, h a (by simp), ih fun e he => h e (by simp [he])]

/-- What a lookup reveals apart from offsets. -/
def Schema.lookupCore (s : Schema) (n : String) : Option Dim := (s.getDimension n).map Dim.core

theorem lookupCore_congr {a b : List Dim} (h : a.map Dim.core = b.map Dim.core) (n : String) :
    (IndexMap.named a n).map Dim.core = (IndexMap.named b n).map Dim.core := by
  induction a generalizing b with
  | nil => cases b with
    | nil => rfl
    | cons _ _ => simp at h
  | cons x a ih =>
    cases b with
    | nil => simp at h
    | cons y b =>
      simp only [List.map_cons, List.cons.injEq] at h
      have hxy : x.name = y.name := by rw [← Dim.core_name, h.1, Dim.core_name]
      unfold IndexMap.named at ih ⊢
      by_cases hn : x.name = n
      · rw [List.find?_cons_of_pos (by simp [hn]), List.find?_cons_of_pos (by simp [← hxy, hn])]
        simp [h.1]
      · rw [List.find?_cons_of_neg (by simp [hn]), List.find?_cons_of_neg (by simp [← hxy, hn])]
        exact ih h.2

/-- C48 (partial): removing a dimension object obtained from the schema removes exactly the dimension of that name. -/
theorem remove_obtained_dimension_partial {s : Schema} (hs : s.Reachable) {n : String} {d : Dim}
    (hd : s.getDimension n = some d) :
    (s.removeDimension d).getDimension n = none ∧
    ∀ m, m ≠ n → (s.removeDimension d).lookupCore m = s.lookupCore m := by
  have hu := schema_names_positions_unique hs
  obtain ⟨hmem, hname⟩ := (schema_lookup_exact hs n d).1 hd
  have hsub : ((IndexMap.erasePosition s.dims d.position).map Dim.name).Nodup :=
    hu.1.sublist (List.filter_sublist.map _)
  have hcore : (s.removeDimension d).dims.map Dim.core = (IndexMap.erasePosition s.dims d.position).map Dim.core :=
    calculateSizes_core { s with dims := IndexMap.erasePosition s.dims d.position } hsub
  have hpos : ∀ e ∈ s.dims, e.position = d.position → e = d := fun e he h => List.inj_on_of_nodup_map hu.2 he hmem h
  constructor
  · have : n ∉ (s.removeDimension d).dims.map Dim.name := by
      rw [map_core_name hcore]
      intro hm
      obtain ⟨e, he, hen⟩ := List.mem_map.1 hm
      obtain ⟨he1, he2⟩ := List.mem_filter.1 he
      have : e = d := List.inj_on_of_nodup_map hu.1 he1 hmem (hen.trans hname.symm)
      subst this
      simp at he2
    exact named_none this
  · intro m hm
    unfold Schema.lookupCore Schema.getDimension
    rw [lookupCore_congr hcore]
    congr 1
    unfold IndexMap.named IndexMap.erasePosition
    rw [List.find?_filter]
    apply find_congr
    intro e he
    by_cases hen : e.name = m
    · have : e.position ≠ d.position := by
        intro h
        rw [hpos e he h, hname] at hen
        exact hm hen.symm
      simp [hen, this]
    · simp [hen]

/-- C48 fails for a dimension object built by the caller: whatever its name, its position is 0 and the dimension at
position 0, `X`, is removed. -/
theorem remove_fresh_dimension_removes_X :
    (Schema.withDims .f0 [{ name := "Extra", bitSize := 16 }]).bind (fun s =>
      .ok ((s.removeDimension { name := "Extra", bitSize := 16 }).getDimensionNames)) =
    .ok ["Y", "Z", "Intensity", "Return Number", "Number of Returns", "Scan Direction", "Flightline Edge",
      "Classification", "Scan Angle Rank", "User Data", "Point Source ID", "Extra"] := by decide +kernel

/-- C48: adding a dimension with a new name to a schema built by additions appends it. -/
theorem add_new_dimension (f : PointFormat) (hf : f.std = true) (ds : List Dim) (d : Dim) (hu : UserDims (ds ++ [d]))
    (hl : ds.length < 2 ^ 32 - 17) :
    ∃ s s', Schema.withDims f ds = .ok s ∧ Schema.withDims f (ds ++ [d]) = .ok s' ∧ s' = s.addDimension d ∧
      s'.getDimensionNames = s.getDimensionNames ++ [d.name] ∧ ∀ m, m ≠ d.name → s'.lookupCore m = s.lookupCore m := by
  have hu' : UserDims ds := ⟨fun e he => hu.1 e (by simp [he]), by
    have := hu.2; rw [List.map_append, List.nodup_append] at this; exact this.1⟩
  obtain ⟨s, h1, h2⟩ := Schema.withDims_laid f hf ds hu' (by omega)
  obtain ⟨s', h3, h4⟩ := Schema.withDims_laid f hf (ds ++ [d]) hu (by simp; omega)
  have hdims : s'.dims.map Dim.core = s.dims.map Dim.core ++ [{ d with position := (stdL f).length + ds.length }.core] := by
    rw [h4.core, h2.core, renumber_append]; simp [renumber]
  refine ⟨s, s', h1, h3, ?_, ?_, ?_⟩
  · unfold Schema.withDims at h1 h3
    cases hm : Schema.make f with
    | ok s0 =>
      rw [hm] at h1 h3
      simp only [Outcome.bind_ok, Outcome.pure_eq, Outcome.ok.injEq] at h1 h3
      rw [← h3, ← h1, List.foldl_append]; rfl
    | throw e => rw [hm] at h1; cases h1
    | ub => rw [hm] at h1; cases h1
  · unfold Schema.getDimensionNames
    rw [byPosition_sorted (sorted_congr h4.core h4.sorted), byPosition_sorted (sorted_congr h2.core h2.sorted)]
    have := map_core_name (a := s'.dims) (b := s.dims ++ [{ d with position := (stdL f).length + ds.length }])
      (by rw [hdims, List.map_append]; rfl)
    rw [this]; simp
  · intro m hm
    unfold Schema.lookupCore Schema.getDimension
    rw [lookupCore_congr (a := s'.dims) (b := s.dims ++ [{ d with position := (stdL f).length + ds.length }])
      (by rw [hdims, List.map_append]; rfl)]
    unfold IndexMap.named
    rw [List.find?_append]
    have : List.find? (fun e : Dim => e.name == m) [{ d with position := (stdL f).length + ds.length }] = none := by
      simp [Ne.symm hm]
    rw [this, Option.or_none]

/-- C48 fails when the name exists: the new definition, whose position is 0, is silently refused by the unique
position index and the old one stays. -/
theorem add_existing_dimension_ignored :
    (Schema.withDims .f0 [{ name := "Extra", bitSize := 8 }, { name := "Extra", bitSize := 32 }]).bind (fun s =>
      .ok ((s.getDimension "Extra").map Dim.bitSize, s.dataRecordLength)) = .ok (some 8, 21) := by decide +kernel

/-- C48: replacing an unknown dimension throws and changes nothing. -/
theorem set_unknown_dimension (s : Schema) (d : Dim) (h : s.getDimension d.name = none) :
    s.setDimension d = (s, .throw .runtimeError) := by
  unfold Schema.setDimension Schema.getDimension at *
  rw [h]

/-- Schema comparison looks at a prefix only: every schema "equals" one that extends it ... -/
theorem schema_equality_prefix (s o : Schema) (more : List Dim) (h : o.dims = s.dims ++ more) : s.eq o = .ok true := by
  unfold Schema.eq
  rw [h]
  generalize s.dims = l
  clear h
  induction l with
  | nil => rfl
  | cons a l ih => simp [Schema.eq.go, ih]

/-- ... and comparing the longer one with its proper prefix reads past the end. -/
theorem schema_equality_ub (s o : Schema) (d : Dim) (more : List Dim) (h : s.dims = o.dims ++ d :: more) :
    s.eq o = .ub := by
  unfold Schema.eq
  rw [h]
  generalize o.dims = l
  clear h
  induction l with
  | nil => rfl
  | cons a l ih => simp [Schema.eq.go, ih]

/-- **C48.** A dimension of zero bits is refused with an exception; any other is made with the name and size asked for, and
takes the least number of bytes that holds its bits. -/
theorem dimension_made (name : String) (bits : Nat) :
    (bits = 0 → Dim.make name bits = .throw .runtimeError) ∧
    (0 < bits → ∃ d, Dim.make name bits = .ok d ∧ d.name = name ∧ d.bitSize = bits ∧ bits ≤ 8 * d.byteSize ∧
      8 * d.byteSize < bits + 8) := by
  refine ⟨fun h => by unfold Dim.make; rw [if_pos h], fun h => ⟨{ name := name, bitSize := bits }, ?_, rfl, rfl, ?_⟩⟩
  · unfold Dim.make
    rw [if_neg (by omega)]
  · unfold Dim.byteSize
    dsimp only
    split
    · split <;> omega
    · omega

example : (∃ d, Dim.make "X" 12 = .ok d ∧ d.byteSize = 2) ∧ Dim.make "X" 0 = .throw .runtimeError :=
  ⟨⟨⟨"X", 12, false, false, 0, 0, 0⟩, rfl, rfl⟩, rfl⟩

end LibLAS
