import Verif.Props.Schema
import Verif.Props.RoundTrip
import Verif.Model.Header
/-
C68: giving a schema to a header.
-/
namespace LibLAS
open Spec Schema

/-- Adding a dimension the schema has already keeps all dimensions, up to byte offsets. -/
private theorem readd_core {s : Schema} (hs : s.Reachable) {d : Dim} (hd : d ∈ s.dims) :
    (s.addDimension d).dims.map Dim.core = s.dims.map Dim.core := by
  obtain ⟨hnd, hpd⟩ := schema_names_positions_unique hs
  have hfind : IndexMap.named s.dims d.name = some d := find_name_of_mem hnd hd
  have hclash : IndexMap.clash (s.dims.filter fun e => e.name != d.name) d = false := by
    apply clash_false_of
    · intro hm
      obtain ⟨e, he, hee⟩ := List.mem_map.1 hm
      rw [List.mem_filter] at he
      simp [hee] at he
    · intro hm
      obtain ⟨e, he, hee⟩ := List.mem_map.1 hm
      rw [List.mem_filter] at he
      have : e = d := List.inj_on_of_nodup_map hpd he.1 hd hee
      rw [this] at he
      simp at he
  have hmap : s.dims.map (fun e => if e.name == d.name then d else e) = s.dims := by
    conv_rhs => rw [← List.map_id s.dims]
    apply List.map_congr_left
    intro e he
    by_cases hee : e.name = d.name
    · have : e = d := List.inj_on_of_nodup_map hnd he hd hee
      simp [this]
    · simp [hee]
  have hadd : s.addDimension d = calculateSizes { s with nextPos := (s.nextPos + 1) % 2 ^ 32 } := by
    unfold Schema.addDimension
    dsimp only
    rw [hfind]
    dsimp only
    unfold IndexMap.replaceNamed
    rw [hclash, hmap]
    simp
  rw [hadd]
  exact calculateSizes_core { s with nextPos := (s.nextPos + 1) % 2 ^ 32 } hnd

private theorem has_of_core {s t : Schema} (h : t.dims.map Dim.core = s.dims.map Dim.core) {n : String} {d : Dim}
    (hd : s.getDimension n = some d) : ∃ e, t.getDimension n = some e := by
  have := lookupCore_congr h n
  unfold Schema.getDimension at hd ⊢
  rw [hd] at this
  cases hn : IndexMap.named t.dims n with
  | none => rw [hn] at this; cases this
  | some e => exact ⟨e, rfl⟩

/-- C68: a schema with the three coordinates, whatever its history, is taken: every dimension can be looked up in the header's schema
as in the one given, the names are listed in the same order, and nothing else of the header changes. -/
theorem set_schema_taken {s : Schema} (hs : s.Reachable) (h : Header) {x y z : Dim} (hx : s.getDimension "X" = some x)
    (hy : s.getDimension "Y" = some y) (hz : s.getDimension "Z" = some z) :
    ∃ s', h.setSchema s = ({ h with schema := s' }, .ok ()) ∧ s'.Reachable ∧ s'.fmt = s.fmt ∧
      (∀ n, s'.lookupCore n = s.lookupCore n) ∧ s'.getDimensionNames = s.getDimensionNames := by
  have h1 : (s.addDimension x).Reachable := .edit (.add x) hs
  have c1 := readd_core hs ((schema_lookup_exact hs _ _).1 hx).1
  obtain ⟨y', hy'⟩ := has_of_core c1 hy
  have h2 : ((s.addDimension x).addDimension y').Reachable := .edit (.add y') h1
  have c2 := readd_core h1 ((schema_lookup_exact h1 _ _).1 hy').1
  obtain ⟨z', hz'⟩ := has_of_core (c2.trans c1) hz
  have h3 : (((s.addDimension x).addDimension y').addDimension z').Reachable := .edit (.add z') h2
  have c3 := readd_core h2 ((schema_lookup_exact h2 _ _).1 hz').1
  have c := c3.trans (c2.trans c1)
  refine ⟨_, ?_, h3, by rw [addDimension_fmt, addDimension_fmt, addDimension_fmt], fun n => lookupCore_congr c n, ?_⟩
  · unfold Header.setSchema
    rw [hx]; dsimp only
    rw [hy']; dsimp only
    rw [hz']
  · unfold Schema.getDimensionNames
    have key : ∀ (a b : List Dim), a.map Dim.core = b.map Dim.core →
        (IndexMap.byPosition a).map Dim.core = (IndexMap.byPosition b).map Dim.core := by
      intro a b hab
      unfold IndexMap.byPosition
      have hsort : ∀ l : List Dim, (l.insertionSort fun a b => a.position ≤ b.position).map Dim.core =
          (l.map Dim.core).insertionSort fun a b => a.position ≤ b.position := by
        intro l
        exact List.map_insertionSort _ _ Dim.core l (fun a _ b _ => by rw [Dim.core_position, Dim.core_position])
      rw [hsort, hsort, hab]
    exact map_core_name (key _ _ c)

/-- C68: without an X dimension the call throws; the header has the schema nevertheless. -/
theorem set_schema_without_x (h : Header) (s : Schema) (hx : s.getDimension "X" = none) :
    h.setSchema s = ({ h with schema := s }, .throw .liblasError) := by
  unfold Header.setSchema
  rw [hx]

/-- C68 refuted: without Y or Z the call is undefined instead of an exception. -/
theorem set_schema_without_yz_ub {s : Schema} (hs : s.Reachable) (h : Header) {x : Dim} (hx : s.getDimension "X" = some x)
    (hyz : s.getDimension "Y" = none ∨ s.getDimension "Z" = none) : (h.setSchema s).2 = .ub := by
  have c1 := readd_core hs ((schema_lookup_exact hs _ _).1 hx).1
  have h1 : (s.addDimension x).Reachable := .edit (.add x) hs
  unfold Header.setSchema
  rw [hx]; dsimp only
  cases hy : (s.addDimension x).getDimension "Y" with
  | none => rfl
  | some y =>
    dsimp only
    have c2 := readd_core h1 ((schema_lookup_exact h1 _ _).1 hy).1
    obtain ⟨y0, hy0⟩ := has_of_core c1.symm hy
    rcases hyz with hh | hh
    · rw [hh] at hy0; cases hy0
    · cases hz : ((s.addDimension x).addDimension y).getDimension "Z" with
      | none => rfl
      | some z =>
        obtain ⟨z0, hz0⟩ := has_of_core (c2.trans c1).symm hz
        rw [hh] at hz0; cases hz0

/-- The three theorems apply: to a schema with a user dimension, and to what is left of format 0 after removing X, or Z. -/
example : (∃ s x y z, Schema.Reachable s ∧ s.getDimension "X" = some x ∧ s.getDimension "Y" = some y ∧ s.getDimension "Z" = some z ∧
      s.getDimensionNames.length = 13) ∧
    (∃ s, Schema.Reachable s ∧ s.getDimension "X" = none ∧ s.dims ≠ []) ∧
    (∃ s x, Schema.Reachable s ∧ s.getDimension "X" = some x ∧ s.getDimension "Z" = none) := by
  obtain ⟨s, h, -⟩ := make_laid .f0 rfl
  have hr : s.Reachable := .make h
  have e : Schema.make .f0 = .ok s := h
  refine ⟨⟨s.addDimension { name := "A", bitSize := 8 }, ?_⟩, ⟨s.removeDimension { name := "", bitSize := 1, position := 0 },
    .edit (.remove _) hr, ?_⟩, ⟨s.removeDimension { name := "", bitSize := 1, position := 2 }, ?_⟩⟩
  · have : ((Schema.make .f0).check fun s => ((s.addDimension { name := "A", bitSize := 8 }).getDimension "X").isSome &&
        ((s.addDimension { name := "A", bitSize := 8 }).getDimension "Y").isSome &&
        ((s.addDimension { name := "A", bitSize := 8 }).getDimension "Z").isSome &&
        (s.addDimension { name := "A", bitSize := 8 }).getDimensionNames.length == 13) = true := by decide +kernel
    rw [e] at this
    simp only [Outcome.check, Bool.and_eq_true, beq_iff_eq, Option.isSome_iff_exists] at this
    obtain ⟨⟨⟨⟨x, hx⟩, ⟨y, hy⟩⟩, ⟨z, hz⟩⟩, hn⟩ := this
    exact ⟨x, y, z, .edit (.add _) hr, hx, hy, hz, hn⟩
  · have : ((Schema.make .f0).check fun s => ((s.removeDimension { name := "", bitSize := 1, position := 0 }).getDimension "X").isNone &&
        !(s.removeDimension { name := "", bitSize := 1, position := 0 }).dims.isEmpty) = true := by decide +kernel
    rw [e] at this
    simpa [Outcome.check] using this
  · have : ((Schema.make .f0).check fun s => ((s.removeDimension { name := "", bitSize := 1, position := 2 }).getDimension "X").isSome &&
        ((s.removeDimension { name := "", bitSize := 1, position := 2 }).getDimension "Z").isNone) = true := by decide +kernel
    rw [e] at this
    simp only [Outcome.check, Bool.and_eq_true, Option.isSome_iff_exists, Option.isNone_iff_eq_none] at this
    obtain ⟨⟨x, hx⟩, hz⟩ := this
    exact ⟨x, .edit (.remove _) hr, hx, hz⟩

end LibLAS
