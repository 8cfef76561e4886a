import Verif.Spec.IndexLife
import Verif.Props.IndexWindow
import Verif.Props.IndexHeader
import Verif.Props.MakeNew
import Verif.Props.Las2las
import Verif.Props.Reading
/-
The life of an index: reading the points, the records of the new file, and the search for an index in a header.
-/
namespace LibLAS.Index
open Spec Point

theorem get_xyz (b : LibLAS.Build) {src : PHeader} {p : List Byte} (h : (⟨p, src⟩ : Point).WF) :
    Point.getX b ⟨p, src⟩ = .ok (xyz b src p).x ∧ Point.getY b ⟨p, src⟩ = .ok (xyz b src p).y ∧ Point.getZ b ⟨p, src⟩ = .ok (xyz b src p).z := by
  obtain ⟨hs, hl⟩ := h
  have h20 : 20 ≤ p.length := by
    cases hf : src.fmt <;> simp_all [formatSize, PointFormat.std] <;> omega
  unfold Point.getX Point.getY Point.getZ getRawX getRawY getRawZ
  rw [getInt_eq (by simp; omega), getInt_eq (by simp; omega), getInt_eq (by simp; omega)]
  exact ⟨rfl, rfl, rfl⟩

theorem coordsLoop_ok (b : LibLAS.Build) {src : PHeader} : ∀ (ps : List (List Byte)) (r : Reader) (fuel : Nat), delivers r ps →
    (∀ p ∈ ps, (⟨p, src⟩ : Point).WF) → r.hdr.toP = src → ps.length < fuel →
    coordsLoop b fuel r = .ok (readRun r (List.replicate (ps.length + 1) .next), ps.map (xyz b src)) := by
  intro ps
  induction ps with
  | nil =>
    intro r fuel hd _ _ hf
    obtain ⟨k, rfl⟩ : ∃ k, fuel = k + 1 := ⟨fuel - 1, by simp at hf; omega⟩
    unfold coordsLoop
    rcases hx : r.readNext with ⟨r', o⟩
    have h2 : r.readNext.2 = .ok false := hd
    rw [hx] at h2
    dsimp only at h2
    subst h2
    dsimp only
    have : readRun r (List.replicate (([] : List (List Byte)).length + 1) .next) = r.readNext.1 := rfl
    rw [this, hx]; rfl
  | cons p ps ih =>
    intro r fuel hd hw hh hf
    obtain ⟨k, rfl⟩ : ∃ k, fuel = k + 1 := ⟨fuel - 1, by simp at hf; omega⟩
    obtain ⟨h1, h2, h3⟩ := hd
    have hfw := (Reader.readNext_forward r).1
    have hrun : readRun r (List.replicate ((p :: ps).length + 1) .next) = readRun r.readNext.1 (List.replicate (ps.length + 1) .next) := rfl
    have hi := ih r.readNext.1 k h3 (fun q hq => hw q (List.mem_cons_of_mem _ hq)) (by rw [hfw.hdr]; exact hh) (by simp at hf; omega)
    rw [hrun]
    unfold coordsLoop
    rcases hx : r.readNext with ⟨r', o⟩
    rw [hx] at h1 h2 hfw hi
    dsimp only at h1 h2 hfw hi
    subst h1
    dsimp only
    obtain ⟨g1, g2, g3⟩ := get_xyz b (hw p List.mem_cons_self)
    unfold coords
    rw [h2, hfw.hdr, hh, g1, g2, g3, Outcome.bind_ok, Outcome.bind_ok, Outcome.bind_ok]
    show (coordsLoop b k r').bind _ = _
    rw [hi]
    rfl

theorem copyLoop_ok : ∀ (ps : List (List Byte)) (r : Reader) (w w' : Writer) (fuel : Nat), delivers r ps → w.writePoints ps = .ok w' →
    ps.length < fuel → copyLoop fuel r w = .ok w' := by
  intro ps
  induction ps with
  | nil =>
    intro r w w' fuel hd hw hf
    obtain ⟨k, rfl⟩ : ∃ k, fuel = k + 1 := ⟨fuel - 1, by simp at hf; omega⟩
    cases hw
    unfold copyLoop
    rcases hx : r.readNext with ⟨r', o⟩
    have h2 : r.readNext.2 = .ok false := hd
    rw [hx] at h2
    dsimp only at h2
    subst h2
    rfl
  | cons p ps ih =>
    intro r w w' fuel hd hw hf
    obtain ⟨k, rfl⟩ : ∃ k, fuel = k + 1 := ⟨fuel - 1, by simp at hf; omega⟩
    obtain ⟨h1, h2, h3⟩ := hd
    rw [Writer.writePoints] at hw
    obtain ⟨w1, e1, hw⟩ := bind_eq_ok hw
    have hi := ih r.readNext.1 w1 w' k h3 hw (by simp at hf; omega)
    unfold copyLoop
    rcases hx : r.readNext with ⟨r', o⟩
    rw [hx] at h1 h2 hi
    dsimp only at h1 h2 hi
    subst h1
    dsimp only
    rw [h2, e1, Outcome.bind_ok]
    exact hi

/-- Going back to the first point. -/
theorem rewind_ok {r : Reader} {f : List Byte} {off len n : Nat} (hr : r.Ready f off len n) (h0 : 0 < n) (hin : off + n * len ≤ f.length)
    (hf : r.filter = none) (hx : r.xform = none) :
    ∃ r1, rewind r = .ok r1 ∧ r1.Ready f off len n ∧ delivers r1 (recordsFrom f off len 0 n) ∧ r1.hdr = r.hdr ∧ r1.filter = none ∧ r1.xform = none ∧
      r1.size = n := by
  have e := Reader.seek_hit hr.on h0
  have ho := hr.on
  have hready : (r.seek 0).1.Ready f off len n := readStep_ready hr (op := .seek 0) trivial
  refine ⟨(r.seek 0).1, ?_, hready, ?_, ?_, ?_, ?_, hready.on.size⟩
  · unfold rewind; rw [e]
  · have hxf : (r.seek 0).1.xf = id := by funext p; rw [e]; unfold Reader.xf; simp only [hx]; rfl
    have := Reader.delivers_all hin n (r.seek 0).1 0 hready.on (by rw [e]; exact ⟨rfl, fun h => absurd rfl h⟩) (by omega) (by rw [e]; exact hf) hready.keeps
    rwa [hxf, List.map_id] at this
  · rw [e]
  · rw [e]; exact hf
  · rw [e]; exact hx

theorem canon_headerRecord (i : Info) : (headerRecord i).canon = headerRecord i := by
  have h1 : padTo 16 (cstr (padTo 16 (lit "liblas"))) = padTo 16 (lit "liblas") := by decide
  have h2 : padTo 32 (cstr (padTo 32 (lit "LibLAS Index Header"))) = padTo 32 (lit "LibLAS Index Header") := by decide
  unfold VLR.canon
  show { headerRecord i with userId := padTo 16 (cstr (padTo 16 (lit "liblas"))), description := padTo 32 (cstr (padTo 32 (lit "LibLAS Index Header"))) } = _
  rw [h1, h2]
  rfl

theorem canon_plain {v : VLR} (h : Plain v) : v.canon = v := by
  obtain ⟨h1, -, h3, -⟩ := h
  have e1 : padTo 16 (cstr cellRecord.userId) = cellRecord.userId := by decide
  have e2 : padTo 32 (cstr cellRecord.description) = cellRecord.description := by decide
  unfold VLR.canon
  rw [h1, h3, e1, e2, ← h1, ← h3]

theorem output_plain {cs : List ((Nat × Nat) × Cell)} (h : ∀ e ∈ cs, Fits e) {vs : List VLR} (ho : outputIndex cs = .ok vs) : ∀ v ∈ vs, Plain v := by
  obtain ⟨vss, h1, h2⟩ := output_groups fun e he => (h e he).num
  rw [h1] at ho
  injection ho with ho
  subst ho
  intro v hv
  obtain ⟨vs, hvs, hv⟩ := List.mem_flatten.1 hv
  obtain ⟨g, -, hg⟩ := forall₂_mem_right h2 hvs
  exact hg.plain v hv

theorem plain_name {v : VLR} (h : Plain v) : v.getUserId false = lit "liblas" ∧ v.recordId = 43#16 := by
  refine ⟨?_, h.2.1⟩
  unfold VLR.getUserId
  rw [h.1]; decide

theorem canon_name (v : VLR) : v.canon.getUserId false = v.getUserId false ∧ v.canon.recordId = v.recordId := by
  have := shown_canon v
  unfold shown at this
  simp only [Prod.mk.injEq] at this
  exact ⟨this.2.2.2.2.1, rfl⟩

theorem notIndex_canon {v : VLR} (h : NotIndex v) : NotIndex v.canon := by
  unfold NotIndex at h ⊢
  rw [(canon_name v).1, (canon_name v).2]
  exact h

theorem _root_.LibLAS.Spec.IsIndex.callers {v : VLR} (h : IsIndex v) (c : Bool) : recordName v ∉ geoNames ++ ownNames c := by
  have hn : recordName v = (lit "liblas", 42#16) ∨ recordName v = (lit "liblas", 43#16) := by
    rcases h.id with k | k
    · left; exact Prod.ext h.name k
    · right; exact Prod.ext h.name k
  rcases hn with k | k <;> rw [k] <;> revert c <;> decide

theorem _root_.LibLAS.Spec.IsIndex.notSchema {v : VLR} (h : IsIndex v) : v.isSchema = false := by
  unfold VLR.isSchema
  rcases h.id with k | k <;> rw [k] <;> simp

theorem schemaFrom_skip (env : Env) {a is c : List VLR} (h : ∀ v ∈ is, IsIndex v) :
    HeaderReader.schemaFromVLRs env (a ++ is ++ c) = HeaderReader.schemaFromVLRs env (a ++ c) := by
  unfold HeaderReader.schemaFromVLRs
  have : (a ++ is ++ c).find? VLR.isSchema = (a ++ c).find? VLR.isSchema := by
    rw [List.find?_append, List.find?_append, List.find?_append]
    have : is.find? VLR.isSchema = none := List.find?_eq_none.2 fun v hv => by rw [(h v hv).notSchema]; simp
    rw [this]
    simp
  rw [this]

theorem foldl_addVLR (vs : List VLR) (h : LibLAS.Header) : vs.foldl LibLAS.Header.addVLR h =
    { h with vlrs := h.vlrs ++ vs, recordsCount := h.recordsCount + BitVec.ofNat 32 vs.length } := by
  induction vs generalizing h with
  | nil => simp
  | cons v vs ih =>
    rw [List.foldl_cons, ih]
    unfold LibLAS.Header.addVLR
    have : h.recordsCount + 1 + BitVec.ofNat 32 vs.length = h.recordsCount + BitVec.ofNat 32 (v :: vs).length := by
      apply BitVec.eq_of_toNat_eq
      simp only [BitVec.toNat_add, BitVec.toNat_ofNat, List.length_cons]
      show ((h.recordsCount.toNat + 1 % 2 ^ 32) % 2 ^ 32 + vs.length % 2 ^ 32) % 2 ^ 32 = _
      omega
    rw [← this]
    simp

theorem outputRecords_index (env : Env) (h : LibLAS.Header) {is : List VLR} (hi : ∀ v ∈ is, IsIndex v) :
    outputRecords env (is.foldl LibLAS.Header.addVLR h) = callersRecords h.schema.isCustom h.vlrs ++ is ++ laterRecords env h := by
  rw [foldl_addVLR]
  unfold outputRecords laterRecords callersRecords
  have e : List.filter (fun v => decide (recordName v ∉ geoNames ++ ownNames h.schema.isCustom)) is = is :=
    List.filter_eq_self.2 fun v hv => by simpa using (hi v hv).callers _
  show List.filter (fun v => decide (recordName v ∉ geoNames ++ ownNames h.schema.isCustom)) (h.vlrs ++ is) ++ _ ++ _ = _
  rw [List.filter_append, e]
  simp

theorem findHeader_none {vs : List VLR} : ∀ (n i : Nat), i + n ≤ vs.length → (∀ v ∈ vs, NotIndex v) → findHeader vs n i = .ok none := by
  intro n
  induction n with
  | zero => intro i _ _; rfl
  | succ n ih =>
    intro i hl hv
    unfold findHeader
    have hlt : i < vs.length := by omega
    rw [List.getElem?_eq_getElem hlt]
    have hm := hv _ (List.getElem_mem hlt)
    have : isIndexHeader vs[i] = false := by
      rw [Bool.eq_false_iff]
      intro hc
      unfold isIndexHeader at hc
      simp only [Bool.and_eq_true, beq_iff_eq] at hc
      exact hm ⟨hc.1, Or.inl hc.2⟩
    simp only [this]
    exact ih (i + 1) (by omega) hv

theorem findHeader_hit {pre post : List VLR} {v : VLR} (hv : isIndexHeader v = true) (hp : ∀ u ∈ pre, NotIndex u) : ∀ (n i : Nat), i + n = pre.length + 1 + post.length →
    i ≤ pre.length → findHeader (pre ++ v :: post) n i = .ok (some v) := by
  intro n
  induction n with
  | zero => intro i h1 h2; omega
  | succ n ih =>
    intro i h1 h2
    unfold findHeader
    rcases Nat.lt_or_ge i pre.length with hlt | hge
    · rw [List.getElem?_append_left hlt, List.getElem?_eq_getElem hlt]
      have hm := hp _ (List.getElem_mem hlt)
      have : isIndexHeader pre[i] = false := by
        rw [Bool.eq_false_iff]
        intro hc
        unfold isIndexHeader at hc
        simp only [Bool.and_eq_true, beq_iff_eq] at hc
        exact hm ⟨hc.1, Or.inl hc.2⟩
      simp only [this]
      exact ih (i + 1) (by omega) hlt
    · have hi : i = pre.length := by omega
      subst hi
      rw [List.getElem?_append_right (le_refl _), Nat.sub_self]
      simp [hv]

theorem headerRecord_isHeader (i : Info) : isIndexHeader (headerRecord i) = true := by
  unfold isIndexHeader
  rw [headerRecord_name]
  simp only [Bool.and_eq_true, beq_iff_eq]
  exact ⟨trivial, rfl⟩

end LibLAS.Index
