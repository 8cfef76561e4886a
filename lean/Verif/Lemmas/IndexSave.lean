import Verif.Lemmas.IndexLife
import Verif.Props.IndexGrid
import Verif.Props.Lasblock
/-
The life of an index: the file that is written, and what `Prep` makes of it.
-/
namespace LibLAS.Index
open Spec Point

variable {env : Env} {today : BitVec 16 × BitVec 16} {b : LibLAS.Build} {input : List Byte} {r : Reader} {s : Setup}

/-- A new file, written and opened again. -/
theorem written {h : LibLAS.Header} {w : Writer} (ht : Las2las.Target env h w) {ps : List (List Byte)} (hp : ∀ p ∈ ps, p.length = h.dataRecordLength)
    (hn : ps.length < 2 ^ 32) : ∃ w' r, w.writePoints ps = .ok w' ∧ FileWith env today h (outputRecords env h) w'.close.buf ps r ∧
      r.hdr.min = h.min ∧ r.hdr.max = h.max ∧ r.hdr.vlrs = (outputRecords env h).map VLR.canon ∧ r.hdr.recordsCount.toNat = r.hdr.vlrs.length := by
  obtain ⟨hw, hl, -, -, -, -, hmin, hmax, -⟩ := ht.writing
  obtain ⟨pad, hnf⟩ := new_file (StorableHeader.good ht.storable) ht.storable.size ht.make ht.small
  have ev : w.hdr.vlrs = outputRecords env h := newVLRs_eq hnf.vlrs
  have hp' : ∀ p ∈ ps, w.hdr.dataRecordLength ≤ p.length := fun p h' => by rw [hl, hp p h']
  obtain ⟨w', e1, e2, -⟩ := hw.finish ps hp' (by simpa using hn)
  obtain ⟨r1, f1, m1, m2, -⟩ := plain_file today hw ht.schema hp' hn e1
  rw [List.nil_append] at e2
  obtain ⟨r, q1, q2, -⟩ := e2.read today
  have : r1 = r := by
    have := f1.opens
    rw [q1] at this
    injection this with this
    exact this.symm
  subst this
  obtain ⟨srs, sch, eh, -⟩ := q2.hdr
  have hv : r1.hdr.vlrs = (outputRecords env h).map VLR.canon := by rw [eh, ← ev]
  refine ⟨w', r1, e1, Las2las.toFile ht f1, by rw [m1, hmin], by rw [m2, hmax], hv, ?_⟩
  have hlen : 227 ≤ w'.close.buf.length := by have := f1.bytes; omega
  have ns : NoSchema env r1.hdr.vlrs := by
    have := ht.schema
    rw [ev] at this
    unfold NoSchema at this ⊢
    rw [hv, schemaFromVLRs_canon]
    exact this
  have ho := open_file hlen q1 ns
  rw [ho.numbered, ho.records]

/-- Two headers with the same attributes of points. -/
theorem toP_of_file {h : LibLAS.Header} {vs : List VLR} {f : List Byte} {ps : List (List Byte)} {r : Reader} (hf : FileWith env today h vs f ps r) :
    xyz b r.hdr.toP = xyz b h.toP := by
  funext p
  unfold xyz
  have e : r.hdr.toP.fmt = h.toP.fmt ∧ r.hdr.toP.scale = h.toP.scale ∧ r.hdr.toP.offset = h.toP.offset := by
    unfold LibLAS.Header.toP
    rw [hf.format, hf.scale, hf.offset]
    exact ⟨rfl, rfl, rfl⟩
  rw [e.1, e.2.1, e.2.2]

theorem sane (hi : Copyable env today b input r) : 0 < r.hdr.schema.byteSize ∧ r.hdr.schema.byteSize < 2 ^ 16 ∧ 0 < r.hdr.dataRecordLength ∧
    r.hdr.schema.fmt.std = true := by
  have ho := open_file hi.long hi.opens hi.schema
  have hpos : 0 < r.hdr.dataRecordLength := by
    have h1 := hi.format
    have : 0 < formatSize r.hdr.schema.fmt := by cases r.hdr.schema.fmt <;> simp [formatSize]
    omega
  have hm := make_made hi.opens
  have e : r.hdr.schema.byteSize = (got 16 (slice input 105 2)).toNat := by rw [← hm.recordSize, ho.recordSize]
  have e2 := ho.recordLength
  exact ⟨by omega, by rw [e]; exact (got 16 (slice input 105 2)).isLt, hpos, ho.std⟩

theorem ready (hi : Copyable env today b input r) : r.Ready input r.hdr.dataOffset.toNat r.hdr.dataRecordLength r.hdr.pointCount.toNat := by
  obtain ⟨h1, h2, -, -⟩ := sane hi
  obtain ⟨k1, -, k3⟩ := (make_made hi.opens).on h1 h2
  exact ⟨k1, k3⟩

theorem pointRecords_facts (hi : Copyable env today b input r) : (pointRecords input r.hdr).length = r.hdr.pointCount.toNat ∧
    ∀ p ∈ pointRecords input r.hdr, p.length = r.hdr.dataRecordLength ∧ (⟨p, r.hdr.toP⟩ : Point).WF := by
  obtain ⟨-, -, -, hstd⟩ := sane hi
  have hin := hi.complete
  unfold pointRecords
  refine ⟨by simp [recordsFrom], ?_⟩
  intro p hp
  have : p.length = r.hdr.dataRecordLength := by
    obtain ⟨k, hk, rfl⟩ := List.mem_map.1 hp
    rw [List.mem_range] at hk
    exact Lasblock.record_length hin (by omega)
  refine ⟨this, hstd, ?_⟩
  show formatSize r.hdr.schema.fmt ≤ p.length
  rw [this]; exact hi.format

/-- The grid of a file that can be indexed. -/
structure GridFor (b : LibLAS.Build) (s : Setup) (input : List Byte) (h : LibLAS.Header) (g : Grid) : Prop where
  chosen : chooseGrid s h = .ok (some g)
  ok : GridOK g
  temp : g.temp = s.temp
  zPos : 0 < g.cellsZ
  zSmall : g.cellsZ < 2 ^ 29
  inside : AllInside g (pointsOf b input h)
  fits : InfoFits (newInfo s h g 43)
  describes : Describes (newInfo s h g 43) g
  min : g.min = ⟨Fl.ofBits h.min.x, Fl.ofBits h.min.y, Fl.ofBits h.min.z⟩
  max : g.max = ⟨Fl.ofBits h.max.x, Fl.ofBits h.max.y, Fl.ofBits h.max.z⟩
  finite : ∀ v, v = h.min.x ∨ v = h.min.y ∨ v = h.min.z ∨ v = h.max.x ∨ v = h.max.y ∨ v = h.max.z → ∃ q, Fl.ofBits v = .fin q

theorem pointsOf_length (hi : Copyable env today b input r) : (pointsOf b input r.hdr).length = r.hdr.pointCount.toNat := by
  unfold pointsOf
  rw [List.length_map, (pointRecords_facts hi).1]

theorem grid_for (hi : Copyable env today b input r) {σ z0 z1 : ℚ} (hh : Heights b s input r.hdr σ z0 z1) : ∃ g, GridFor b s input r.hdr g := by
  have hne : ∃ p, p ∈ pointsOf b input r.hdr := by
    have := pointsOf_length hi
    have h0 := hi.some
    exact List.exists_mem_of_length_pos (by omega)
  obtain ⟨p, hp⟩ := hne
  obtain ⟨⟨x0, x1, -, ex0, ex1, -, -, -, -, -, dx⟩, ⟨y0, y1, -, ey0, ey1, -, -, -, -, -, dy⟩⟩ := hi.inside p hp
  have t0 : (0 : ℚ) < 1 / 2 ^ 900 := by positivity
  generalize (1 : ℚ) / 2 ^ 900 = ε at dx dy t0
  have hx : x0 < x1 := by linarith
  have hy : y0 < y1 := by linarith
  have hzs : 1 / 2 ^ 52 < σ → ∃ c, Fl.sub (.fin z1) (.fin z0) = .fin c ∧ 0 ≤ c ∧ c / σ ≤ 2 ^ 31 := by
    intro h1
    rcases hh.layers with k | ⟨c, c1, c2, c3, -⟩
    · linarith
    · have : 0 < σ := lt_trans (by positivity) h1
      refine ⟨c, c1, ?_, c3.trans (by norm_num)⟩
      by_contra hc
      rw [not_le] at hc
      have := div_neg_of_neg_of_pos hc this
      have : (0 : ℚ) < 1 / 2 ^ 20 := by positivity
      linarith
  obtain ⟨g, g1, g2, g3, g4, g5, g6, g7, g8, g9, g10, g11, -⟩ := index_grid ex0 ex1 ey0 ey1 hh.min hh.max hx hy hh.order hh.size hh.rep hzs
  have hcx : g.cellsX ≤ 250000 := (Nat.le_mul_of_pos_right _ g6).trans g7
  have hcy : g.cellsY ≤ 250000 := (Nat.le_mul_of_pos_left _ g5).trans g7
  have emin : g.min = ⟨Fl.ofBits r.hdr.min.x, Fl.ofBits r.hdr.min.y, Fl.ofBits r.hdr.min.z⟩ := by rw [g2, ex0, ey0, hh.min]
  have emax : g.max = ⟨Fl.ofBits r.hdr.max.x, Fl.ofBits r.hdr.max.y, Fl.ofBits r.hdr.max.z⟩ := by rw [g3, ex1, ey1, hh.max]
  have hz : 0 < g.cellsZ ∧ g.cellsZ < 2 ^ 29 ∧ (1 < g.cellsZ → ∀ p ∈ pointsOf b input r.hdr, Between (.fin z0) (.fin z1) p.z) := by
    rw [hh.size] at g8
    rcases g8 with ⟨k1, k2⟩ | ⟨a, s', k1, k2, k3, k4, k5⟩
    · rw [k2]; exact ⟨by norm_num, by norm_num, by omega⟩
    · injection k2 with k2
      subst k2
      rcases hh.layers with k | ⟨c, c1, c2, c3, c4⟩
      · linarith
      · rw [k1] at c1
        injection c1 with c1
        subst c1
        refine ⟨?_, ?_, fun _ => c4⟩
        · by_contra hc
          have : g.cellsZ = 0 := by omega
          rw [this] at k5
          push_cast at k5
          linarith
        · have : (g.cellsZ : ℚ) < 2 ^ 29 := by
            generalize a / σ = t at c3 k4
            rw [show (2 : ℚ) ^ 28 = 268435456 by norm_num] at c3
            rw [show (1 : ℚ) / 2 ^ 20 = 1 / 1048576 by norm_num] at k4
            rw [show (2 : ℚ) ^ 29 = 536870912 by norm_num]
            linarith
          exact_mod_cast this
  refine ⟨g, g1, ⟨g5, g6, by omega⟩, g4, hz.1, hz.2.1, ?_, ?_, ?_, emin, emax, ?_⟩
  · intro p hp
    obtain ⟨i1, i2⟩ := hi.inside p hp
    rw [emin, emax]
    refine ⟨i1, i2, fun h1 => ?_⟩
    show Between (Fl.ofBits r.hdr.min.z) (Fl.ofBits r.hdr.max.z) p.z
    rw [hh.min, hh.max]
    exact hz.2.2 h1 p hp
  · refine ⟨show 1 < 2 ^ 8 by norm_num, show 2 < 2 ^ 8 by norm_num, show 43 < 2 ^ 32 by norm_num, r.hdr.pointCount.isLt, ?_, ?_, ?_⟩
    · show g.cellsX < 2 ^ 32; omega
    · show g.cellsY < 2 ^ 32; omega
    · show g.cellsZ < 2 ^ 32; omega
  · exact ⟨by rw [emin]; rfl, by rw [emax]; rfl, rfl, rfl, rfl⟩
  · rintro v (rfl | rfl | rfl | rfl | rfl | rfl)
    exacts [⟨_, ex0⟩, ⟨_, ey0⟩, ⟨_, hh.min⟩, ⟨_, ex1⟩, ⟨_, ey1⟩, ⟨_, hh.max⟩]

/-- Two lists of ranges without undefined ends. -/
theorem bounds_self {h : LibLAS.Header} {i : Info} (hx : i.minX = h.min.x ∧ i.minY = h.min.y ∧ i.minZ = h.min.z ∧ i.maxX = h.max.x ∧ i.maxY = h.max.y ∧ i.maxZ = h.max.z)
    (hf : ∀ v, v = h.min.x ∨ v = h.min.y ∨ v = h.min.z ∨ v = h.max.x ∨ v = h.max.y ∨ v = h.max.z → ∃ q, Fl.ofBits v = .fin q) :
    i.bounds.equal (headerBounds h) = .ok true := by
  have e : i.bounds = headerBounds h := by
    unfold Info.bounds Info.grid headerBounds
    simp only
    rw [hx.1, hx.2.1, hx.2.2.1, hx.2.2.2.1, hx.2.2.2.2.1, hx.2.2.2.2.2]
  obtain ⟨a1, h1⟩ := hf _ (Or.inl rfl)
  obtain ⟨a2, h2⟩ := hf _ (Or.inr (Or.inl rfl))
  obtain ⟨a3, h3⟩ := hf _ (Or.inr (Or.inr (Or.inl rfl)))
  obtain ⟨a4, h4⟩ := hf _ (Or.inr (Or.inr (Or.inr (Or.inl rfl))))
  obtain ⟨a5, h5⟩ := hf _ (Or.inr (Or.inr (Or.inr (Or.inr (Or.inl rfl)))))
  obtain ⟨a6, h6⟩ := hf _ (Or.inr (Or.inr (Or.inr (Or.inr (Or.inr rfl)))))
  rw [e]
  unfold headerBounds
  rw [h1, h2, h3, h4, h5, h6]
  have er : ∀ u v : ℚ, Range.equal ⟨.fin u, .fin v⟩ ⟨.fin u, .fin v⟩ = true := by
    intro u v
    unfold Range.equal
    simp only [compareDistance_self]
    rfl
  unfold Bounds.equal Bounds.make3
  simp only
  unfold Bounds.scan Bounds.scan Bounds.scan Bounds.scan
  simp only [er]
  rfl

theorem bindOk {α β : Type} (a : α) (f : α → Outcome β) : (Outcome.ok a).bind f = f a := rfl

/-- An index header in front of which there is no other is accepted, if it has the bounds and the number of points of the file. -/
theorem prep_accepts {ih : LibLAS.Header} {idx : Option LibLAS.Header} (hidx : idx.getD r.hdr = ih) (hs : s.forceNew = false) {i : Info} (hf : InfoFits i)
    {pre post : List VLR} (hv : ih.vlrs = pre ++ headerRecord i :: post) (hn : ih.recordsCount.toNat = ih.vlrs.length) (hp : ∀ v ∈ pre, NotIndex v)
    (hb : i.bounds.equal (headerBounds r.hdr) = .ok true) (hc : r.hdr.pointCount.toNat = i.points) :
    prep env b s r idx = .ok ⟨true, ih, some (keptInfo i), none⟩ := by
  unfold prep
  simp only
  rw [hidx, hn, hv, findHeader_hit (headerRecord_isHeader i) hp _ 0 (by simp; omega) (by omega)]
  rw [bindOk]
  dsimp only
  rw [index_header hf, bindOk]
  dsimp only
  rw [hs, if_neg (by simp)]
  have : validate (keptInfo i) r.hdr = .ok true := by
    unfold validate
    have e : (keptInfo i).bounds = i.bounds := rfl
    rw [e, hb]
    show Outcome.ok (true && decide (r.hdr.pointCount.toNat = i.points)) = _
    rw [hc]; simp
  rw [this, bindOk, if_pos rfl]

theorem recordBytes_append (u v : List VLR) : recordBytes (u ++ v) = recordBytes u + recordBytes v := by
  unfold recordBytes; rw [List.map_append, List.sum_append]

/-- A header with index records added to it is one a file can be made from. -/
theorem index_target (hi : Copyable env today b input r) {i : Info} {dvs : List VLR} (hd : ∀ v ∈ dvs, Plain v) (hst : ∀ v ∈ dvs, StorableRecord v)
    (hsmall : r.hdr.headerSize.toNat + recordBytes (outputRecords env r.hdr) + recordBytes (headerRecord i :: dvs) + 4 < 2 ^ 31) :
    ∃ w, Las2las.Target env ((headerRecord i :: dvs).foldl LibLAS.Header.addVLR r.hdr) w ∧
      outputRecords env ((headerRecord i :: dvs).foldl LibLAS.Header.addVLR r.hdr) =
        callersRecords r.hdr.schema.isCustom r.hdr.vlrs ++ (headerRecord i :: dvs) ++ laterRecords env r.hdr := by
  have hw := read_header_writable hi.long hi.opens hi.schema hi.size hi.text
  have hst0 := hw.storable
  have ho := open_file hi.long hi.opens hi.schema
  have hidx : ∀ v ∈ headerRecord i :: dvs, IsIndex v := by
    intro v hv
    rcases List.mem_cons.1 hv with rfl | hv
    · exact ⟨headerRecord_name i, Or.inl rfl⟩
    · exact ⟨(plain_name (hd v hv)).1, Or.inr (plain_name (hd v hv)).2⟩
  have hout := outputRecords_index env r.hdr hidx
  have eout : outputRecords env r.hdr = callersRecords r.hdr.schema.isCustom r.hdr.vlrs ++ laterRecords env r.hdr := by
    unfold outputRecords laterRecords; simp
  have hbytes : recordBytes (callersRecords r.hdr.schema.isCustom r.hdr.vlrs ++ (headerRecord i :: dvs) ++ laterRecords env r.hdr) =
      recordBytes (outputRecords env r.hdr) + recordBytes (headerRecord i :: dvs) := by
    rw [eout, recordBytes_append, recordBytes_append, recordBytes_append]; omega
  have h54 : 54 ≤ recordBytes (headerRecord i :: dvs) := by
    unfold recordBytes; simp; omega
  have hnew : Writable env ((headerRecord i :: dvs).foldl LibLAS.Header.addVLR r.hdr) := by
    rw [foldl_addVLR]
    refine ⟨⟨hst0.signature, hst0.guid, hst0.systemId, hst0.softwareId, hst0.major, hst0.minor, hst0.size, hst0.format, ?_⟩, hw.plain, hw.returns, hw.schemaText⟩
    intro v hv
    rcases List.mem_append.1 hv with hv | hv
    · rcases List.mem_append.1 hv with hv | hv
      · exact hst0.records v (List.mem_append_left _ hv)
      · rcases List.mem_cons.1 hv with rfl | hv
        · exact (headerRecord_storable i).1
        · exact hst v hv
    · exact hst0.records v (List.mem_append_right _ hv)
  have hroom := hi.room
  have hoff : r.hdr.headerSize.toNat ≤ r.hdr.dataOffset.toNat := by rw [ho.headerSize, ho.dataOffset]; exact ho.offsetOk
  have e1 : ((headerRecord i :: dvs).foldl LibLAS.Header.addVLR r.hdr).headerSize = r.hdr.headerSize := by rw [foldl_addVLR]
  have e2 : ((headerRecord i :: dvs).foldl LibLAS.Header.addVLR r.hdr).dataOffset = r.hdr.dataOffset := by rw [foldl_addVLR]
  have e3 : ((headerRecord i :: dvs).foldl LibLAS.Header.addVLR r.hdr).schema = r.hdr.schema := by rw [foldl_addVLR]
  have e4 : ((headerRecord i :: dvs).foldl LibLAS.Header.addVLR r.hdr).padding = r.hdr.padding := by rw [foldl_addVLR]
  generalize hg : (headerRecord i :: dvs).foldl LibLAS.Header.addVLR r.hdr = h' at *
  have hd54 : 55 ≤ recordBytes (headerRecord i :: dvs) := by
    have : recordBytes (headerRecord i :: dvs) = 54 + (headerRecord i).data.length + recordBytes dvs := by unfold recordBytes; simp
    have h2 : 1 ≤ (headerRecord i).data.length := by
      have e : (headerRecord i).data = putInfo i := rfl
      rw [e]
      unfold putInfo
      simp only [List.length_append, put_length]
      omega
    omega
  obtain ⟨hex, -⟩ := new_writer_exactly env hnew (by rw [hout, hbytes, e1]; omega) (by rw [e2]; omega) (by rw [hout, hbytes, e1, e2]; omega)
  obtain ⟨w, m1, m2⟩ := hex (by unfold fillerBytes; rw [hout, hbytes, e1, e2]; rw [if_neg (by omega)]; omega)
  obtain ⟨-, hby, hpos, -⟩ := sane hi
  refine ⟨w, ⟨hnew.storable, m1, by rw [m2, hout, hbytes, e1]; omega, ?_, ?_, by rw [e3]; exact hby⟩, hout⟩
  · rw [m2, hout]
    unfold NoSchema
    rw [schemaFrom_skip env hidx, ← eout]
    exact hi.outSchema
  · show 0 < h'.schema.byteSize % 2 ^ 16
    rw [e3]
    exact hpos

end LibLAS.Index
