import Verif.Lemmas.SchemaLayout
import Verif.Lemmas.NewFile
import Verif.Model.Reader
namespace LibLAS
open Spec Schema

theorem sizeLoop_total_mod (st : Sizes) (ds : List Dim) (h : st.total < 2 ^ 64) :
    (sizeLoop st ds).2.total = (st.total + (ds.map Dim.bitSize).sum) % 2 ^ 64 := by
  induction ds generalizing st with
  | nil => exact (Nat.mod_eq_of_lt h).symm
  | cons d ds ih =>
    have ht : (sizeStep st d).2.total = (st.total + d.bitSize) % 2 ^ 64 := by
      unfold sizeStep; dsimp only
      split <;> rfl
    rw [sizeLoop_cons]
    dsimp only
    rw [ih _ (by rw [ht]; exact Nat.mod_lt _ (by norm_num)), ht, List.map_cons, List.sum_cons, Nat.mod_add_mod, Nat.add_assoc]

namespace Schema

theorem Laid.bits_eq {s : Schema} {L : List Dim} (h : Laid s L) : s.bitSize = (L.map Dim.bitSize).sum % 2 ^ 64 := by
  rw [h.bits, sizeLoop_total_mod _ _ (by norm_num)]; simp

theorem Laid.names_eq {s : Schema} {L : List Dim} (h : Laid s L) : s.dims.map Dim.name = L.map Dim.name :=
  map_core_name h.core

theorem Laid.getDimension {s : Schema} {L : List Dim} (h : Laid s L) {n : String} (hn : n ∈ L.map Dim.name) :
    ∃ d, s.getDimension n = some d ∧ d ∈ s.dims ∧ d.name = n := by
  rw [← h.names_eq] at hn
  obtain ⟨d, hd, rfl⟩ := List.mem_map.1 hn
  exact ⟨d, find_name_of_mem (by rw [h.names_eq]; exact h.names) hd, hd, rfl⟩

/-- Re-adding an existing dimension changes nothing but the next position. -/
theorem Laid.readd {s : Schema} {L : List Dim} (h : Laid s L) {d : Dim} (hd : d ∈ s.dims) (hp : s.nextPos + 1 < 2 ^ 32) :
    Laid (s.addDimension d) L ∧ (s.addDimension d).fmt = s.fmt ∧ (s.addDimension d).nextPos = s.nextPos + 1 := by
  have hnd : (s.dims.map Dim.name).Nodup := by rw [h.names_eq]; exact h.names
  have hpd : (s.dims.map Dim.position).Nodup := by
    rw [map_core_position h.core]
    have : (L.map Dim.position).Pairwise (· < ·) := List.pairwise_map.2 h.sorted
    exact this.imp fun h => Nat.ne_of_lt h
  have hfind : IndexMap.named s.dims d.name = some d := find_name_of_mem hnd hd
  have hclash : IndexMap.clash (s.dims.filter fun e => e.name != d.name) d = false := by
    apply clash_false_of
    · intro hm
      obtain ⟨e, he, hee⟩ := List.mem_map.1 hm
      rw [List.mem_filter] at he
      simp [hee] at he
    · intro hm
      obtain ⟨e, he, hee⟩ := List.mem_map.1 hm
      rw [List.mem_filter] at he
      have : e = d := List.inj_on_of_nodup_map hpd he.1 hd hee
      rw [this] at he
      simp at he
  have hmap : s.dims.map (fun e => if e.name == d.name then d else e) = s.dims := by
    conv_rhs => rw [← List.map_id s.dims]
    apply List.map_congr_left
    intro e he
    by_cases hee : e.name = d.name
    · have : e = d := List.inj_on_of_nodup_map hnd he hd hee
      simp [this]
    · simp [hee]
  have hadd : s.addDimension d = calculateSizes { s with nextPos := (s.nextPos + 1) % 2 ^ 32 } := by
    unfold Schema.addDimension
    dsimp only
    rw [hfind]
    dsimp only
    unfold IndexMap.replaceNamed
    rw [hclash, hmap]
    simp
  have hc : Canon { s with nextPos := (s.nextPos + 1) % 2 ^ 32 } L := by
    refine ⟨h.core, h.sorted, h.names, ?_⟩
    intro e he
    have := h.pos e he
    show e.position < (s.nextPos + 1) % 2 ^ 32
    rw [Nat.mod_eq_of_lt hp]; omega
  refine ⟨by rw [hadd]; exact hc.laid, addDimension_fmt s d, ?_⟩
  rw [addDimension_nextPos, Nat.mod_eq_of_lt hp]

/-- `SetSchema` with a laid-out schema that has the coordinates. -/
theorem Laid.setSchema {s : Schema} {L : List Dim} (h : Laid s L) (hx : "X" ∈ L.map Dim.name) (hy : "Y" ∈ L.map Dim.name)
    (hz : "Z" ∈ L.map Dim.name) (hp : s.nextPos + 3 < 2 ^ 32) (g : Header) :
    ∃ s', g.setSchema s = ({ g with schema := s' }, .ok ()) ∧ Laid s' L ∧ s'.fmt = s.fmt ∧ s'.nextPos = s.nextPos + 3 := by
  obtain ⟨x, x1, x2, -⟩ := h.getDimension hx
  obtain ⟨a1, a2, a3⟩ := h.readd x2 (by omega)
  obtain ⟨y, y1, y2, -⟩ := a1.getDimension hy
  obtain ⟨b1, b2, b3⟩ := a1.readd y2 (by omega)
  obtain ⟨z, z1, z2, -⟩ := b1.getDimension hz
  obtain ⟨c1, c2, c3⟩ := b1.readd z2 (by omega)
  refine ⟨_, ?_, c1, by rw [c2, b2, a2], by omega⟩
  unfold Header.setSchema
  rw [x1]
  dsimp only
  rw [y1]
  dsimp only
  rw [z1]

end Schema

theorem stdL_names (f : PointFormat) (hf : f.std = true) :
    "X" ∈ (stdL f).map Dim.name ∧ "Y" ∈ (stdL f).map Dim.name ∧ "Z" ∈ (stdL f).map Dim.name ∧
    "extra" ∉ (stdL f).map Dim.name ∧ ((stdL f).map Dim.bitSize).sum = 8 * formatSize f := by
  cases f <;> first | (exact absurd hf (by decide)) | decide +kernel

/-- The default header's schema has no user dimensions. -/
theorem new_schema_user (d y : BitVec 16) :
    (IndexMap.byPosition (Header.new d y).schema.dims).filter (fun d => !d.required) = [] := by
  show (IndexMap.byPosition (Header.new 0 0).schema.dims).filter (fun d => !d.required) = []
  decide +kernel

theorem setDataFormatId_noUser {s : Schema} (f : PointFormat) (hf : f.std = true)
    (hu : (IndexMap.byPosition s.dims).filter (fun d => !d.required) = []) :
    ∃ s', s.setDataFormatId f = (s', .ok ()) ∧ Laid s' (stdL f) ∧ s'.fmt = f ∧ s'.nextPos = (stdL f).length := by
  have h := updateRequired_laid s f hf (us := []) hu.symm (by simp) (by simp) (by simp)
  unfold Schema.setDataFormatId
  generalize s.updateRequired f = r at h
  obtain ⟨s', o⟩ := r
  obtain ⟨h1, h2, h3, h4⟩ := h
  simp only at h1 h2 h3 h4
  subst h2
  have hc : Canon { s' with fmt := f } (stdL f) := by
    have := h1.toCanon
    simp only [renumber, List.append_nil] at this
    exact ⟨this.core, this.sorted, this.names, this.pos⟩
  exact ⟨_, rfl, hc.laid, rfl, h4⟩

/-- The default header with its format set. -/
theorem new_setDataFormatId (d y : BitVec 16) (f : PointFormat) (hf : f.std = true) :
    ∃ s', (Header.new d y).schema.setDataFormatId f = (s', .ok ()) ∧ Laid s' (stdL f) ∧ s'.fmt = f ∧
      s'.nextPos = (stdL f).length := setDataFormatId_noUser f hf (new_schema_user d y)

/-- A schema that is the standard one of its format. -/
def StdSchema (s : Schema) : Prop := s.fmt.std = true ∧ Laid s (stdL s.fmt) ∧ s.nextPos ≤ 100

theorem StdSchema.byteSize {s : Schema} (h : StdSchema s) : s.byteSize = formatSize s.fmt ∧ s.dataRecordLength = formatSize s.fmt := by
  obtain ⟨h1, h2, -⟩ := h
  have hb : s.bitSize = 8 * formatSize s.fmt := by
    rw [h2.bits_eq, (stdL_names s.fmt h1).2.2.2.2]
    apply Nat.mod_eq_of_lt
    cases s.fmt <;> decide
  have : s.byteSize = formatSize s.fmt := by unfold Schema.byteSize; omega
  refine ⟨this, ?_⟩
  unfold Schema.dataRecordLength; rw [this]
  apply Nat.mod_eq_of_lt
  cases s.fmt <;> decide

theorem StdSchema.setSchema {s : Schema} (h : StdSchema s) (hp : s.nextPos ≤ 90) (g : Header) :
    ∃ s', g.setSchema s = ({ g with schema := s' }, .ok ()) ∧ StdSchema s' ∧ s'.fmt = s.fmt ∧ s'.nextPos = s.nextPos + 3 := by
  obtain ⟨hx, hy, hz, -, -⟩ := stdL_names s.fmt h.1
  obtain ⟨s', a, b, c, d⟩ := h.2.1.setSchema hx hy hz (by omega) g
  refine ⟨s', a, ⟨by rw [c]; exact h.1, by rw [c]; exact b, by omega⟩, c, d⟩

theorem make_std (f : PointFormat) (hf : f.std = true) : ∃ s, Schema.make f = .ok s ∧ StdSchema s ∧ s.fmt = f ∧ s.nextPos ≤ 16 := by
  obtain ⟨s, h1, h2, h3, h4⟩ := make_laid f hf
  have := (stdBase_facts f f hf).2.2.2.2.1
  exact ⟨s, h1, ⟨by rw [h3]; exact hf, by rw [h3]; exact h2, by omega⟩, h3, by omega⟩

theorem Schema.Laid.user {s : Schema} {L : List Dim} (h : Laid s L) :
    ((IndexMap.byPosition s.dims).filter fun d => !d.required).map Dim.core = (L.filter fun d => !d.required).map Dim.core := by
  rw [byPosition_sorted (sorted_congr h.core h.sorted)]
  have : ∀ l : List Dim, (l.filter fun d => !d.required).map Dim.core = (l.map Dim.core).filter fun d => !d.required := by
    intro l
    rw [List.filter_map]
    rfl
  rw [this, this, h.core]

theorem stdL_required (f : PointFormat) (hf : f.std = true) : (stdL f).filter (fun d => !d.required) = [] := by
  cases f <;> first | (exact absurd hf (by decide)) | decide +kernel

theorem Schema.Laid.user_nil {s : Schema} {f : PointFormat} (h : Laid s (stdL f)) (hf : f.std = true) :
    (IndexMap.byPosition s.dims).filter (fun d => !d.required) = [] := by
  have := h.user
  rw [stdL_required f hf] at this
  simpa using this

theorem Schema.Laid.user_one {s : Schema} {f : PointFormat} {d : Dim} (h : Laid s (stdL f ++ [d])) (hf : f.std = true)
    (hd : d.required = false) :
    ∃ d', (IndexMap.byPosition s.dims).filter (fun d => !d.required) = [d'] ∧ d'.core = d.core := by
  have := h.user
  rw [List.filter_append, stdL_required f hf, List.nil_append] at this
  rw [List.filter_cons_of_pos (by simp [hd]), List.filter_nil, List.map_cons, List.map_nil] at this
  obtain ⟨d', l', e1, e2, e3⟩ := List.map_eq_cons_iff.1 this
  rw [List.map_eq_nil_iff] at e3
  exact ⟨d', by rw [e1, e3], e2⟩

/-- The user dimensions a schema read from a file without a schema record can have: none, or the dimension "extra" that
makes the record `rl` bytes long. -/
def UserOK (f : PointFormat) (rl : Nat) (s : Schema) : Prop :=
  (IndexMap.byPosition s.dims).filter (fun d => !d.required) = [] ∨
  ∃ d, (IndexMap.byPosition s.dims).filter (fun d => !d.required) = [d] ∧ d.name = "extra" ∧
    (8 * formatSize f + d.bitSize) % 2 ^ 64 = 8 * rl

/-- The dimensions "Time" and "Red" are there exactly when the format has them. -/
def Named (f : PointFormat) (s : Schema) : Prop :=
  (s.getDimension "Time").isSome = hasTime f ∧ (s.getDimension "Red").isSome = hasColor f

theorem Schema.Laid.isSome {s : Schema} {L : List Dim} (h : Laid s L) (n : String) :
    (s.getDimension n).isSome = (L.map Dim.name).contains n := by
  by_cases hn : n ∈ L.map Dim.name
  · obtain ⟨d, hd, -⟩ := h.getDimension hn
    rw [hd, List.contains_iff_mem.2 hn]; rfl
  · have h1 : (L.map Dim.name).contains n = false := by
      rw [Bool.eq_false_iff]; intro hc; exact hn (List.contains_iff_mem.1 hc)
    rw [h1]
    unfold Schema.getDimension IndexMap.named
    rw [Option.isSome_eq_false_iff, Option.isNone_iff_eq_none, List.find?_eq_none]
    intro d hd hc
    exact hn (by rw [← h.names_eq]; exact List.mem_map.2 ⟨d, hd, by simpa using hc⟩)

theorem stdL_named (f : PointFormat) (hf : f.std = true) (us : List Dim) (hu : ∀ d ∈ us, d.name ≠ "Time" ∧ d.name ≠ "Red") :
    ((stdL f ++ us).map Dim.name).contains "Time" = hasTime f ∧ ((stdL f ++ us).map Dim.name).contains "Red" = hasColor f := by
  have h1 : ((stdL f).map Dim.name).contains "Time" = hasTime f ∧ ((stdL f).map Dim.name).contains "Red" = hasColor f := by
    cases f <;> first | (exact absurd hf (by decide)) | decide +kernel
  have h2 : ∀ n, (n = "Time" ∨ n = "Red") → (us.map Dim.name).contains n = false := by
    intro n hn
    rw [Bool.eq_false_iff]
    intro hc
    obtain ⟨d, hd, e⟩ := List.mem_map.1 (List.contains_iff_mem.1 hc)
    have := hu d hd
    rcases hn with rfl | rfl
    · exact this.1 e
    · exact this.2 e
  have h3 : ∀ (a b : List String) n, (a ++ b).contains n = (a.contains n || b.contains n) := by
    intro a b n; simp [List.contains_eq_mem, Bool.decide_or]
  rw [List.map_append, h3, h3, h1.1, h1.2, h2 _ (Or.inl rfl), h2 _ (Or.inr rfl), Bool.or_false, Bool.or_false]
  exact ⟨rfl, rfl⟩

theorem Schema.Laid.named {s : Schema} {f : PointFormat} {us : List Dim} (h : Laid s (stdL f ++ us)) (hf : f.std = true)
    (hu : ∀ d ∈ us, d.name ≠ "Time" ∧ d.name ≠ "Red") : Named f s := by
  have := stdL_named f hf us hu
  exact ⟨by rw [h.isSome]; exact this.1, by rw [h.isSome]; exact this.2⟩

theorem StdSchema.named {s : Schema} (h : StdSchema s) : Named s.fmt s :=
  Schema.Laid.named (us := []) (by rw [List.append_nil]; exact h.2.1) h.1 (by simp)

/-- A stored record length other than the standard one is made up for by a dimension "extra". -/
theorem addExtra_std {g : Header} (h : StdSchema g.schema) (hp : g.schema.nextPos ≤ 90) (rl : Nat) (hrl : rl < 2 ^ 16) :
    ∃ s', HeaderReader.addExtra g rl = .ok { g with schema := s' } ∧ s'.fmt = g.schema.fmt ∧
      s'.byteSize = rl ∧ s'.dataRecordLength = rl ∧ (rl = formatSize g.schema.fmt → s' = g.schema) ∧
      UserOK g.schema.fmt rl s' ∧ Named g.schema.fmt s' := by
  have hlen := h.byteSize.2
  unfold HeaderReader.addExtra
  by_cases heq : g.dataRecordLength = rl
  · rw [if_neg (by simpa using heq)]
    have e : formatSize g.schema.fmt = rl := by rw [← hlen]; exact heq
    exact ⟨g.schema, rfl, rfl, by rw [h.byteSize.1, e], heq, fun _ => rfl, Or.inl (h.2.1.user_nil h.1), h.named⟩
  · rw [if_pos heq]
    have hne : ¬ rl = formatSize g.schema.fmt := by
      intro hh; apply heq; show g.schema.dataRecordLength = rl; rw [hlen, hh]
    have hgd : g.dataRecordLength = formatSize g.schema.fmt := hlen
    have hsmall : formatSize g.schema.fmt ≤ 63 := by cases g.schema.fmt <;> decide
    rw [hgd]
    generalize hF : formatSize g.schema.fmt = F at *
    have hbits : HeaderReader.extraBits rl F ≠ 0 ∧ (8 * F + HeaderReader.extraBits rl F) % 2 ^ 64 = 8 * rl := by
      unfold HeaderReader.extraBits
      constructor <;> omega
    unfold Dim.make
    rw [if_neg hbits.1]
    simp only [Outcome.bind_ok]
    obtain ⟨hx, hy, hz, hex, hsum⟩ := stdL_names g.schema.fmt h.1
    have hl := h.2.1.toCanon.addDimension (d := { name := "extra", bitSize := HeaderReader.extraBits rl F, required := false, active := true })
      hex (by omega)
    obtain ⟨s', a, b, c, d⟩ := hl.setSchema (by simp only [List.map_append, List.mem_append]; exact Or.inl hx)
      (by simp only [List.map_append, List.mem_append]; exact Or.inl hy)
      (by simp only [List.map_append, List.mem_append]; exact Or.inl hz)
      (by rw [addDimension_nextPos]; omega) g
    have hb : s'.bitSize = 8 * rl := by
      rw [b.bits_eq, List.map_append, List.sum_append, hsum]
      simp only [List.map_cons, List.map_nil, List.sum_cons, List.sum_nil, Nat.add_zero]
      rw [hF]; exact hbits.2
    have hbs : s'.byteSize = rl := by unfold Schema.byteSize; omega
    refine ⟨s', ?_, by rw [c, addDimension_fmt], hbs, ?_, fun hh => absurd hh hne, Or.inr ?_, b.named h.1 (by simp)⟩
    · rw [a]; rfl
    · unfold Schema.dataRecordLength; rw [hbs]; exact Nat.mod_eq_of_lt hrl
    · obtain ⟨d', u1, u2⟩ := b.user_one h.1 rfl
      exact ⟨d', u1, by rw [← Dim.core_name, u2]; rfl, by rw [← Dim.core_bitSize, u2]; rw [hF]; exact hbits.2⟩

end LibLAS
