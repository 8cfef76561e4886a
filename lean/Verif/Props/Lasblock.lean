import Verif.Model.Lasblock
import Verif.Spec.Lasblock
import Verif.Props.Chipper
import Verif.Props.Las2lasCases
import Verif.Props.MakeNew
import Verif.Props.Reading
import Verif.Lemmas.FloatText
/-
C71: lasblock distributes the points of a file over tiles.
-/
namespace LibLAS
open Spec Point

namespace Lasblock

/-- The coordinates of a record. -/
def xy (b : Build) (src : PHeader) (p : List Byte) : Fl × Fl :=
  (scaled (view b src.fmt p).rawX src.scale.x src.offset.x, scaled (view b src.fmt p).rawY src.scale.y src.offset.y)

theorem get_xy (b : Build) {src : PHeader} {p : List Byte} (h : (⟨p, src⟩ : Point).WF) :
    Point.getX b ⟨p, src⟩ = .ok (xy b src p).1 ∧ Point.getY b ⟨p, src⟩ = .ok (xy b src p).2 := by
  obtain ⟨hs, hl⟩ := h
  have h20 : 20 ≤ p.length := by
    cases hf : src.fmt <;> simp_all [formatSize, PointFormat.std] <;> omega
  unfold Point.getX Point.getY getRawX getRawY
  rw [getInt_eq (by simp; omega), getInt_eq (by simp; omega)]
  exact ⟨rfl, rfl⟩

theorem xy_number (b : Build) {src : PHeader} (ho : OrdinaryScaling src) (p : List Byte) :
    (xy b src p).1 ≠ .nan ∧ (xy b src p).2 ≠ .nan := by
  obtain ⟨⟨sx, ox, hsx, hox, px, lx, ax⟩, ⟨sy, oy, hsy, hoy, py, ly, ay⟩, -⟩ := ho
  unfold xy
  rw [hsx, hox, hsy, hoy]
  refine ⟨?_, ?_⟩
  · show scaled _ (.fin sx) (.fin ox) ≠ _
    rw [(scaled_fin _ (by rw [abs_of_pos px]; exact lx) ax).1]; simp
  · show scaled _ (.fin sy) (.fin oy) ≠ _
    rw [(scaled_fin _ (by rw [abs_of_pos py]; exact ly) ay).1]; simp

theorem loadLoop_ok (b : Build) {src : PHeader} : ∀ (ps : List (List Byte)) (r : Reader) (fuel : Nat), delivers r ps →
    (∀ p ∈ ps, (⟨p, src⟩ : Point).WF) → r.hdr.toP = src → ps.length < fuel →
    loadLoop b fuel r = .ok (readRun r (List.replicate (ps.length + 1) .next), ps.map (xy b src)) := by
  intro ps
  induction ps with
  | nil =>
    intro r fuel hd _ _ hf
    obtain ⟨k, rfl⟩ : ∃ k, fuel = k + 1 := ⟨fuel - 1, by simp at hf; omega⟩
    unfold loadLoop
    rcases hx : r.readNext with ⟨r', o⟩
    have h2 : r.readNext.2 = .ok false := hd
    rw [hx] at h2
    dsimp only at h2
    subst h2
    dsimp only
    have : readRun r (List.replicate (([] : List (List Byte)).length + 1) .next) = r.readNext.1 := rfl
    rw [this, hx]; rfl
  | cons p ps ih =>
    intro r fuel hd hw hh hf
    obtain ⟨k, rfl⟩ : ∃ k, fuel = k + 1 := ⟨fuel - 1, by simp at hf; omega⟩
    obtain ⟨h1, h2, h3⟩ := hd
    have hfw := (Reader.readNext_forward r).1
    have hrun : readRun r (List.replicate ((p :: ps).length + 1) .next) = readRun r.readNext.1 (List.replicate (ps.length + 1) .next) := rfl
    have hi := ih r.readNext.1 k h3 (fun q hq => hw q (List.mem_cons_of_mem _ hq)) (by rw [hfw.hdr]; exact hh) (by simp at hf; omega)
    rw [hrun]
    unfold loadLoop
    rcases hx : r.readNext with ⟨r', o⟩
    rw [hx] at h1 h2 hfw hi
    dsimp only at h1 h2 hfw hi
    subst h1
    dsimp only
    obtain ⟨g1, g2⟩ := get_xy b (hw p List.mem_cons_self)
    rw [h2, hfw.hdr, hh, g1, g2, Outcome.bind_ok, Outcome.bind_ok, hi, Outcome.bind_ok]
    rfl

theorem writeIds_ok (b : Build) {input : List Byte} {off len n : Nat} {h : Header} (hin : off + n * len ≤ input.length) :
    ∀ (ids : List Nat) (r : Reader) (w w' : Writer) (s s' : CoordinateSummary), r.Ready input off len n → r.hdr = h →
      r.xform = none → (∀ i ∈ ids, i < n) → w.writePoints (ids.map (record input off len)) = .ok w' →
      CoordinateSummary.addAll b (ids.map fun i => ⟨record input off len i, h.toP⟩) s = .ok s' →
      ∃ r', writeIds b ids r w s = .ok (r', w', s') ∧ r'.Ready input off len n ∧ r'.hdr = h ∧ r'.xform = none := by
  intro ids
  induction ids with
  | nil =>
    intro r w w' s s' hr hh hx _ hw hs
    cases hw; cases hs
    exact ⟨r, rfl, hr, hh, hx⟩
  | cons i ids ih =>
    intro r w w' s s' hr hh hx hi hw hs
    have hin' : off + (i + 1) * len ≤ input.length := by
      have : (i + 1) * len ≤ n * len := Nat.mul_le_mul_right _ (hi i List.mem_cons_self)
      omega
    have hat := Reader.readAt_hit hr.on (hi i List.mem_cons_self) hin'
    have hxf : r.xf (record input off len i) = record input off len i := by unfold Reader.xf; rw [hx]
    rw [hxf] at hat
    have hready : ({ r with ifs := ⟨input, off + (i + 1) * len, false, false⟩, point := record input off len i } : Reader).Ready input off len n := by
      have : (r.readAt i).1.Ready input off len n := readStep_ready hr (op := .at i) trivial
      rw [hat] at this
      exact this
    rw [List.map_cons, Writer.writePoints] at hw
    rw [List.map_cons, CoordinateSummary.addAll] at hs
    obtain ⟨s1, es, hs⟩ := bind_eq_ok hs
    obtain ⟨w1, ew, hw⟩ := bind_eq_ok hw
    obtain ⟨r', e, h1, h2, h3⟩ := ih _ w1 w' s1 s' hready hh hx (fun j hj => hi j (List.mem_cons_of_mem _ hj)) hw hs
    refine ⟨r', ?_, h1, h2, h3⟩
    unfold writeIds
    rw [hat]
    dsimp only
    rw [hh, es, Outcome.bind_ok, ew, Outcome.bind_ok]
    rw [← hh]; exact e

/-- A file that can be tiled: it opens and is complete, has an ordinary scale and offset, a record long enough for its
format, no readable schema record, at least one point, and a header from which new files can be made (C66). -/
structure Input (env : Env) (today : BitVec 16 × BitVec 16) (input : List Byte) (r : Reader) : Prop where
  opens : Reader.make env today (IStream.onFile input) = .ok r
  long : 227 ≤ input.length
  schema : NoSchema env r.hdr.vlrs
  ordinary : OrdinaryScaling r.hdr.toP
  format : formatSize r.hdr.schema.fmt ≤ r.hdr.dataRecordLength
  complete : r.hdr.dataOffset.toNat + r.hdr.pointCount.toNat * r.hdr.dataRecordLength ≤ input.length
  some : 0 < r.hdr.pointCount.toNat
  size : 227 ≤ r.hdr.headerSize.toNat
  text : r.hdr.schema.isCustom = true → (env.xml r.hdr.schema).length ≤ 65535
  outSchema : NoSchema env (outputRecords env r.hdr)
  small : r.hdr.headerSize.toNat + recordBytes (outputRecords env r.hdr) + 4 < 2 ^ 31
  offset : r.hdr.dataOffset.toNat < 2 ^ 31
  padding : r.hdr.headerSize.toNat + recordBytes (outputRecords env r.hdr) ≤ r.hdr.dataOffset.toNat → r.hdr.padding.toNat < 2 ^ 31
  filler : fillerBytes r.hdr (r.hdr.headerSize.toNat + recordBytes (outputRecords env r.hdr)) ≤ 2

section
variable {env : Env} {today : BitVec 16 × BitVec 16} {input : List Byte} {r₀ : Reader}

theorem Input.sane (hi : Input env today input r₀) : SaneLength r₀ ∧ 0 < r₀.hdr.dataRecordLength := by
  have ho := open_file hi.long hi.opens hi.schema
  have hpos : 0 < r₀.hdr.dataRecordLength := by
    have h1 := hi.format
    have h2 := ho.std
    have : 0 < formatSize r₀.hdr.schema.fmt := by cases r₀.hdr.schema.fmt <;> simp [formatSize]
    omega
  have hm := make_made hi.opens
  have e : r₀.hdr.schema.byteSize = (got 16 (slice input 105 2)).toNat := by rw [← hm.recordSize, ho.recordSize]
  have e2 := ho.recordLength
  exact ⟨⟨by omega, by rw [e]; exact (got 16 (slice input 105 2)).isLt⟩, hpos⟩

/-- New files can be made with any bounds in the header. -/
theorem Input.target (hi : Input env today input r₀) (e : Bounds) :
    ∃ w, Las2las.Target env (withExtent r₀.hdr e) w ∧ w.hdr.vlrs = outputRecords env r₀.hdr := by
  have hw := read_header_writable hi.long hi.opens hi.schema hi.size hi.text
  have hst := hw.storable
  have hw' : Writable env (withExtent r₀.hdr e) :=
    ⟨⟨hst.signature, hst.guid, hst.systemId, hst.softwareId, hst.major, hst.minor, hst.size, hst.format, hst.records⟩, hw.plain,
      hw.returns, hw.schemaText⟩
  obtain ⟨hex, -⟩ := new_writer_exactly env hw' hi.small hi.offset hi.padding
  obtain ⟨w, e1, e2⟩ := hex hi.filler
  have e2 : w.hdr.vlrs = outputRecords env r₀.hdr := e2
  obtain ⟨hs, hp⟩ := hi.sane
  exact ⟨w, ⟨hw'.storable, e1, by rw [e2]; exact hi.small, by rw [e2]; exact hi.outSchema, hp, hs.fits⟩, e2⟩

theorem record_length {f : List Byte} {off len n i : Nat} (hin : off + n * len ≤ f.length) (hi : i < n) :
    (record f off len i).length = len := by
  have : (i + 1) * len ≤ n * len := Nat.mul_le_mul_right _ hi
  rw [Nat.succ_mul] at this
  exact slice_length_of_le (by omega)

theorem Input.wf (hi : Input env today input r₀) {i : Nat} (h : i < r₀.hdr.pointCount.toNat) :
    (⟨record input r₀.hdr.dataOffset.toNat r₀.hdr.dataRecordLength i, r₀.hdr.toP⟩ : Point).WF := by
  have ho := open_file hi.long hi.opens hi.schema
  refine ⟨ho.std, ?_⟩
  show formatSize r₀.hdr.schema.fmt ≤ (record input _ _ i).length
  rw [record_length hi.complete h]; exact hi.format

theorem writeTile_ok (b : Build) (hi : Input env today input r₀) {st : Chipper.St} {blk : Chipper.Block} {ids : List Nat}
    (hid : Chipper.getIDs st blk = .ok ids) (hlt : ∀ i ∈ ids, i < r₀.hdr.pointCount.toNat) (hne : 0 < ids.length)
    (hfew : ids.length < 2 ^ 32)
    {r : Reader} (hr : r.Ready input r₀.hdr.dataOffset.toNat r₀.hdr.dataRecordLength r₀.hdr.pointCount.toNat)
    (hh : r.hdr = r₀.hdr) (hx : r.xform = none) :
    ∃ r' f, writeTile env today b st r₀.hdr r blk = .ok (r', f) ∧ TileOf env today b r₀.hdr input f ids ∧
      r'.Ready input r₀.hdr.dataOffset.toNat r₀.hdr.dataRecordLength r₀.hdr.pointCount.toNat ∧ r'.hdr = r₀.hdr ∧ r'.xform = none := by
  obtain ⟨w, ht, hv⟩ := hi.target blk.bounds
  obtain ⟨hw, hl, -⟩ := ht.writing
  have hl : w.hdr.dataRecordLength = r₀.hdr.dataRecordLength := hl
  generalize hrec : record input r₀.hdr.dataOffset.toNat r₀.hdr.dataRecordLength = rec at *
  have hhand : ∀ p ∈ ids.map rec, Handled id r₀.hdr.toP w.hdr.dataRecordLength p := by
    intro p hp
    obtain ⟨i, hm, rfl⟩ := List.mem_map.1 hp
    rw [← hrec]
    refine ⟨hi.wf (hlt i hm), ?_⟩
    rw [id, record_length hi.complete (hlt i hm), hl]
  have hlen : (ids.map rec).length = ids.length := by simp
  obtain ⟨as, has⟩ := observed b hhand
  obtain ⟨s', hs'⟩ := summary_ok b hhand
  obtain ⟨w', hw', -⟩ := hw.finish (ids.map rec) (fun p hp => (hhand p hp).len) (by rw [hlen]; simpa using hfew)
  obtain ⟨g0, g1, f, rr, q1, q2, q3, q4, q5⟩ := repaired_file today hw ht.schema hi.ordinary
    (by intro h; rw [h] at hlen; simp at hlen; omega) hhand (by rw [hlen]; exact hfew) has (by rw [List.map_id]; exact hw') hs'
  rw [List.map_map] at hs'
  obtain ⟨r', e, h1, h2, h3⟩ := writeIds_ok b (h := r₀.hdr) hi.complete ids r w w' .new s' hr hh hx hlt (by rw [hrec]; exact hw')
    (by rw [hrec]; exact hs')
  refine ⟨r', f, ?_, ?_, h1, h2, h3⟩
  · unfold writeTile
    rw [ht.make, Outcome.bind_ok, hid, Outcome.bind_ok, e, Outcome.bind_ok]
    dsimp only
    rw [q1, Outcome.bind_ok, q2, Outcome.bind_ok, q3]
    rfl
  · have q4 := Las2las.toFile ht q4
    rw [List.map_id] at q4
    refine ⟨rr, ?_, ?_⟩
    · rw [hrec]
      exact ⟨q4.opens, q4.points, q4.count, q4.recordLength, q4.format, q4.scale, q4.offset, q4.version, q4.system, q4.software,
        q4.day, q4.year, q4.records, q4.bytes⟩
    · intro as' h'
      rw [hrec] at h'
      rw [List.map_map] at has
      have hinj : Function.Injective (Outcome.ok : Attrs → Outcome Attrs) := fun _ _ h => by cases h; rfl
      have : as = as' := List.map_injective_iff.2 hinj (has.symm.trans h')
      rw [← this]; exact q5

theorem writeTiles_ok (b : Build) (hi : Input env today input r₀) {st : Chipper.St} :
    ∀ (blks : List Chipper.Block) (r : Reader), (∀ blk ∈ blks, Chipper.getIDs st blk = .ok (Chipper.ids st blk)) →
      (∀ blk ∈ blks, 0 < (Chipper.ids st blk).length ∧ (Chipper.ids st blk).length < 2 ^ 32 ∧
        ∀ i ∈ Chipper.ids st blk, i < r₀.hdr.pointCount.toNat) →
      r.Ready input r₀.hdr.dataOffset.toNat r₀.hdr.dataRecordLength r₀.hdr.pointCount.toNat → r.hdr = r₀.hdr → r.xform = none →
      ∃ fs, writeTiles env today b st r₀.hdr r blks = .ok fs ∧
        List.Forall₂ (TileOf env today b r₀.hdr input) fs (blks.map (Chipper.ids st)) := by
  intro blks
  induction blks with
  | nil => intro r _ _ _ _ _; exact ⟨[], rfl, .nil⟩
  | cons blk blks ih =>
    intro r h1 h2 hr hh hx
    obtain ⟨a1, a2, a3⟩ := h2 blk List.mem_cons_self
    obtain ⟨r', f, e, hf, hr', hh', hx'⟩ := writeTile_ok b hi (h1 blk List.mem_cons_self) a3 a1 a2 hr hh hx
    obtain ⟨fs, e2, hfs⟩ := ih r' (fun k hk => h1 k (List.mem_cons_of_mem _ hk)) (fun k hk => h2 k (List.mem_cons_of_mem _ hk)) hr' hh' hx'
    refine ⟨f :: fs, ?_, .cons hf hfs⟩
    unfold writeTiles
    rw [e, Outcome.bind_ok]
    dsimp only
    rw [e2, Outcome.bind_ok]
    rfl

/-- **C71** Every point of the input is in exactly one tile (the numbers of the points in the tiles are together a
rearrangement of `0 .. n-1`), no tile is empty or has more points than the capacity, and the header of each tile describes
its points. Missing: sizes where the floating point partition table of the chipper is not exact (C37), compression. -/
theorem tiles_partial (b : Build) (hi : Input env today input r₀) {sort : Chipper.Sorter} (hsort : IsSort sort) {capacity : BitVec 64}
    {c : Nat} (hcap : c = capacity.toNat % 2 ^ 32) (hpos : 0 < c)
    (hsize : r₀.hdr.pointCount.toNat * (r₀.hdr.pointCount.toNat / c + 1) ≤ 2 ^ 48) :
    ∃ files tiles, main env today b sort capacity input = .ok files ∧
      tiles.flatten.Perm (List.range r₀.hdr.pointCount.toNat) ∧
      (∀ t ∈ tiles, 0 < t.length ∧ t.length ≤ c) ∧
      List.Forall₂ (TileOf env today b r₀.hdr input) files tiles := by
  obtain ⟨hs, hlen⟩ := hi.sane
  obtain ⟨h1, h2, h3⟩ := (make_made hi.opens).on hs.pos hs.fits
  have hmade := make_made hi.opens
  have hopen := open_file hi.long hi.opens hi.schema
  have hxn : r₀.xform = none := hopen.xform
  have hfn : r₀.filter = none := hopen.filter
  generalize hn : r₀.hdr.pointCount.toNat = n at *
  have hxf : r₀.xf = id := by funext p; unfold Reader.xf; rw [hxn]; rfl
  have hdel := Reader.delivers_all (hn ▸ hi.complete) n r₀ 0 h1 h2 (by omega) hfn h3
  rw [hxf, List.map_id] at hdel
  generalize hps : recordsFrom input r₀.hdr.dataOffset.toNat r₀.hdr.dataRecordLength 0 n = ps at *
  have hpl : ps.length = n := by rw [← hps]; simp [recordsFrom]
  have hwf : ∀ p ∈ ps, (⟨p, r₀.hdr.toP⟩ : Point).WF := by
    intro p hp
    rw [← hps] at hp
    obtain ⟨j, hj, rfl⟩ := List.mem_map.1 hp
    rw [Nat.zero_add]
    exact hi.wf (by rw [hn]; exact List.mem_range.1 hj)
  have hload := loadLoop_ok b ps r₀ (r₀.size + 1) hdel hwf rfl (by rw [h1.size, hpl]; omega)
  have hready := readRun_ready (List.replicate (ps.length + 1) .next) ⟨h1, h3⟩ (by
    intro op hop; rw [(List.mem_replicate.1 hop).2]; trivial)
  have hsame : ∀ (k : Nat) (r : Reader), (readRun r (List.replicate k .next)).hdr = r.hdr ∧ (readRun r (List.replicate k .next)).xform = r.xform := by
    intro k
    induction k with
    | zero => intro r; exact ⟨rfl, rfl⟩
    | succ k ih =>
      intro r
      have := ih r.readNext.1
      have hf := (Reader.readNext_forward r).1
      exact ⟨this.1.trans hf.hdr, this.2.trans hf.xform⟩
  obtain ⟨k1, k2⟩ := hsame (ps.length + 1) r₀
  generalize readRun r₀ (List.replicate (ps.length + 1) .next) = r1 at *
  have hn32 : n < 2 ^ 32 := by rw [← hn]; exact BitVec.isLt _
  have hthr : (capacity.setWidth 32).toNat = c := by rw [BitVec.toNat_setWidth, hcap]
  have hch : Chipper.Chippable { threshold := (capacity.setWidth 32).toNat } r1.hdr.pointCount.toNat (ps.map (xy b r₀.hdr.toP)) := by
    refine ⟨?_, by show 0 < (capacity.setWidth 32).toNat; omega, ?_, ?_, ?_, ?_⟩
    · have := hi.some
      intro h
      have h := congrArg List.length h
      rw [List.length_map] at h
      simp at h
      rw [h] at hpl; simp at hpl; omega
    · intro p hp
      obtain ⟨q, -, rfl⟩ := List.mem_map.1 hp
      exact xy_number b hi.ordinary q
    · rw [k1, List.length_map, hpl, hn]
    · rw [List.length_map, hpl]; exact hn32
    · rw [List.length_map, hpl]
      show n * (n / (capacity.setWidth 32).toNat + 1) ≤ _
      rw [hthr]; exact hsize
  obtain ⟨st, e, a1, a2, a3⟩ := Chipper.chip_run hsort hch
  rw [List.length_map, hpl] at a2
  have hmem : ∀ blk ∈ st.blocks, ∀ i ∈ Chipper.ids st blk, i < n := by
    intro blk hb i him
    have : i ∈ List.range n := (a2.mem_iff).1 (List.mem_flatMap.2 ⟨blk, hb, him⟩)
    exact List.mem_range.1 this
  obtain ⟨fs, e2, hfs⟩ := writeTiles_ok b hi st.blocks r1 a1 (by
    intro blk hb
    obtain ⟨c1, c2, -⟩ := a3 blk hb
    refine ⟨c1, ?_, by rw [hn]; exact hmem blk hb⟩
    have : (Chipper.ids st blk).length ≤ c := by rw [← hthr]; exact c2
    have : c < 2 ^ 32 := by rw [hcap]; exact Nat.mod_lt _ (by norm_num)
    omega) (by rw [hn]; exact hready) k1 (k2.trans hxn)
  refine ⟨fs, st.blocks.map (Chipper.ids st), ?_, ?_, ?_, hfs⟩
  · unfold main
    rw [hi.opens, Outcome.bind_ok, hload, Outcome.bind_ok]
    dsimp only
    rw [e, Outcome.bind_ok, k1]
    exact e2
  · rw [← List.flatMap_def]; exact a2
  · intro t ht
    obtain ⟨blk, hb, rfl⟩ := List.mem_map.1 ht
    obtain ⟨c1, c2, -⟩ := a3 blk hb
    exact ⟨c1, by rw [← hthr]; exact c2⟩

/-- C71 refuted for a file without points: the chipper reads outside its lists. -/
theorem empty_input_undefined (b : Build) (sort : Chipper.Sorter) {capacity : BitVec 64}
    (hopen : Reader.make env today (IStream.onFile input) = .ok r₀) (hs : SaneLength r₀) (hnone : r₀.hdr.pointCount = 0)
    (hcap : capacity.toNat % 2 ^ 32 ≠ 0) : main env today b sort capacity input = .ub := by
  obtain ⟨h1, h2, h3⟩ := (make_made hopen).on hs.pos hs.fits
  have hd : delivers r₀ [] := Reader.readNext_end h1 h2 (by rw [hnone]; simp)
  have hload := loadLoop_ok b [] r₀ (r₀.size + 1) hd (by simp) rfl (by simp)
  unfold main
  rw [hopen, Outcome.bind_ok, hload, Outcome.bind_ok]
  dsimp only
  rw [List.map_nil, Chipper.chip_empty_undefined]
  · rfl
  · show 0 < (capacity.setWidth 32).toNat
    rw [BitVec.toNat_setWidth]; omega

/-- A capacity that is a multiple of 2^32, 0 among them, is a division by zero. -/
theorem zero_capacity_undefined (b : Build) (hi : Input env today input r₀) {sort : Chipper.Sorter} (hsort : IsSort sort)
    {capacity : BitVec 64} (hcap : capacity.toNat % 2 ^ 32 = 0) : main env today b sort capacity input = .ub := by
  obtain ⟨hs, hlen⟩ := hi.sane
  obtain ⟨h1, h2, h3⟩ := (make_made hi.opens).on hs.pos hs.fits
  have hopen := open_file hi.long hi.opens hi.schema
  have hdel := Reader.delivers_all hi.complete r₀.hdr.pointCount.toNat r₀ 0 h1 h2 (by omega) hopen.filter h3
  have hxf : r₀.xf = id := by funext p; unfold Reader.xf; rw [hopen.xform]; rfl
  rw [hxf, List.map_id] at hdel
  have hload := loadLoop_ok (src := r₀.hdr.toP) b _ r₀ (r₀.size + 1) hdel (by
    intro p hp
    obtain ⟨j, hj, rfl⟩ := List.mem_map.1 hp
    rw [Nat.zero_add]
    exact hi.wf (List.mem_range.1 hj)) rfl (by rw [h1.size]; simp [recordsFrom])
  have hthr : (capacity.setWidth 32).toNat = 0 := by rw [BitVec.toNat_setWidth]; exact hcap
  unfold main
  rw [hi.opens, Outcome.bind_ok, hload, Outcome.bind_ok]
  dsimp only
  rw [hthr]
  obtain ⟨s, e, -⟩ := Chipper.load_spec hsort { threshold := 0 }
    (readRun r₀ (List.replicate ((recordsFrom input r₀.hdr.dataOffset.toNat r₀.hdr.dataRecordLength 0 r₀.hdr.pointCount.toNat).length + 1) .next)).hdr.pointCount.toNat _
    (by
      intro p hp
      obtain ⟨q, -, rfl⟩ := List.mem_map.1 hp
      exact xy_number b hi.ordinary q)
  unfold Chipper.chip
  rw [e]
  rfl

end

/-- The hypotheses are met by a file of five points. -/
example : ∃ r, Input plainEnv (1, 2000) (sampleFile Las2las.casePoints) r ∧ r.hdr.pointCount.toNat = 5 := by
  obtain ⟨r, e, h⟩ : ∃ r, Reader.make plainEnv (1, 2000) (IStream.onFile (sampleFile Las2las.casePoints)) = .ok r ∧
      (227 ≤ (sampleFile Las2las.casePoints).length ∧ r.hdr.vlrs.find? VLR.isSchema = none ∧
      (Las2las.ordinaryAxis r.hdr.toP.scale.x r.hdr.toP.offset.x = true ∧ Las2las.ordinaryAxis r.hdr.toP.scale.y r.hdr.toP.offset.y = true ∧
        Las2las.ordinaryAxis r.hdr.toP.scale.z r.hdr.toP.offset.z = true) ∧
      formatSize r.hdr.schema.fmt ≤ r.hdr.dataRecordLength ∧
      r.hdr.dataOffset.toNat + r.hdr.pointCount.toNat * r.hdr.dataRecordLength ≤ (sampleFile Las2las.casePoints).length ∧
      r.hdr.pointCount.toNat = 5 ∧ 227 ≤ r.hdr.headerSize.toNat ∧ r.hdr.schema.isCustom = false ∧
      (outputRecords plainEnv r.hdr).find? VLR.isSchema = none ∧
      r.hdr.headerSize.toNat + recordBytes (outputRecords plainEnv r.hdr) + 4 < 2 ^ 31 ∧
      r.hdr.dataOffset.toNat < 2 ^ 31 ∧ r.hdr.padding.toNat < 2 ^ 31 ∧
      fillerBytes r.hdr (r.hdr.headerSize.toNat + recordBytes (outputRecords plainEnv r.hdr)) ≤ 2) :=
    Outcome.exists_of_check (by decide +kernel)
  obtain ⟨h1, h2, ⟨h3, h4, h5⟩, h6, h7, h8, h9, h10, h11, h12, h13, h14, h15⟩ := h
  exact ⟨r, ⟨e, h1, noSchema_none h2, ⟨Las2las.ordinaryAxis_spec h3, Las2las.ordinaryAxis_spec h4, Las2las.ordinaryAxis_spec h5⟩, h6, h7,
    by omega, h9, by rw [h10]; simp, noSchema_none h11, h12, h13, fun _ => h14, h15⟩, h8⟩

/-- An insertion sort, for a run. -/
def insertionSorter : Chipper.Sorter := fun lt l =>
  let rec ins (a : Chipper.PtRef) : List Chipper.PtRef → List Chipper.PtRef
    | [] => [a]
    | c :: cs => if lt c a then c :: ins a cs else a :: c :: cs
  l.foldr ins []

/-- The five points in tiles of at most two: the raw x coordinates (35, 1, 100, 4, 60 in the input) tile by tile. -/
theorem tiles_run : ∃ files, main plainEnv (1, 2000) ⟨.little, false⟩ insertionSorter 2 (sampleFile Las2las.casePoints) = .ok files ∧
    files.map (fun f => (List.range ((f.length - 284) / 28)).map fun i => fileNat f (284 + 28 * i) 4) = [[1, 4], [35], [60, 100]] :=
  Outcome.exists_of_check (by decide +kernel)

end Lasblock
end LibLAS
