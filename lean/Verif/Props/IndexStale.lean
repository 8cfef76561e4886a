import Verif.Props.IndexLife
import Verif.Spec.IndexStale
/-
C86: an index in the file is used if it is up to date, and what becomes of it if not.
-/
namespace LibLAS.Index
open Spec Point

variable {env : Env} {today : BitVec 16 × BitVec 16} {b : LibLAS.Build} {input : List Byte} {r : Reader} {s : Setup}

theorem next_rep : Fl.Rep ((1 : ℚ) / 2 ^ 52 + 1 / 2 ^ 104) := by
  have := Fl.rep_of_mant (k := 2 ^ 52 + 1) (e := -104) (by norm_num) (by omega) (by omega)
  refine (congrArg Fl.Rep ?_).mp this
  rw [show (-104 : ℤ) = -(104 : ℕ) by norm_num, zpow_neg, zpow_natCast]
  norm_num

theorem eps_rep : Fl.Rep ((1 : ℚ) / 2 ^ 52) := by
  have := Fl.rep_of_mant (k := 1) (e := -52) (by norm_num) (by omega) (by omega)
  refine (congrArg Fl.Rep ?_).mp this
  rw [show (-52 : ℤ) = -(52 : ℕ) by norm_num, zpow_neg, zpow_natCast]
  norm_num

theorem compare_close {u v : BitVec 64} (h : SameValue u v) : Point.compareDistance (Fl.ofBits u) (Fl.ofBits v) = true := by
  obtain ⟨p, q, h1, h2, h3⟩ := h
  rw [h1, h2]
  unfold Point.compareDistance Point.within
  have e : Fl.sub (.fin p) (.fin q) = Fl.ofRat (p - q) := by
    show Fl.ofRat (p + -q) = _
    rw [sub_eq_add_neg]
  rw [abs_le] at h3
  have k1 := Fl.rnd_le_rnd h3.2
  have k2 := Fl.rnd_le_rnd h3.1
  rw [Fl.rnd_neg] at k2
  rw [Fl.rnd_rep eps_rep] at k1 k2
  have small : |p - q| ≤ 2 ^ 1023 := (abs_le.2 h3).trans ((show (1 : ℚ) / 2 ^ 52 ≤ 1 by norm_num).trans (one_le_pow₀ (by norm_num)))
  rw [e, Fl.ofRat_fin small]
  show (decide (_ ≤ _) && decide (_ ≤ _)) = true
  rw [Bool.and_eq_true, decide_eq_true_eq, decide_eq_true_eq]
  exact ⟨k1, k2⟩

theorem compare_apart {u v : BitVec 64} (h : Apart u v) : Point.compareDistance (Fl.ofBits u) (Fl.ofBits v) = false := by
  rcases h with h | h | ⟨p, q, h1, h2, h3⟩
  · unfold Point.compareDistance Point.within
    generalize Fl.ofBits u = x at h
    generalize Fl.ofBits v = y
    match x, y with
    | .fin p, _ => exact absurd rfl (h p)
    | .nan, y => cases y <;> rfl
    | .inf true, .fin _ => rfl
    | .inf false, .fin _ => rfl
    | .inf true, .inf true => rfl
    | .inf true, .inf false => rfl
    | .inf false, .inf true => rfl
    | .inf false, .inf false => rfl
    | .inf a, .nan => rfl
  · unfold Point.compareDistance Point.within
    generalize Fl.ofBits u = x
    generalize Fl.ofBits v = y at h
    match y, x with
    | .fin p, _ => exact absurd rfl (h p)
    | .nan, x => cases x <;> rfl
    | .inf true, .fin _ => rfl
    | .inf false, .fin _ => rfl
    | .inf true, .inf true => rfl
    | .inf true, .inf false => rfl
    | .inf false, .inf true => rfl
    | .inf false, .inf false => rfl
    | .inf a, .nan => rfl
  · rw [h1, h2]
    unfold Point.compareDistance Point.within
    have e : Fl.sub (.fin p) (.fin q) = Fl.ofRat (p - q) := by
      show Fl.ofRat (p + -q) = _
      rw [sub_eq_add_neg]
    rw [e]
    have hlt : (1 : ℚ) / 2 ^ 52 < 1 / 2 ^ 52 + 1 / 2 ^ 104 := by norm_num
    have hpos : (0 : ℚ) < 1 / 2 ^ 52 := by norm_num
    have hr := Fl.rnd_rep next_rep
    rw [le_abs] at h3
    generalize (1 : ℚ) / 2 ^ 52 + 1 / 2 ^ 104 = n at h3 hr hlt
    generalize (1 : ℚ) / 2 ^ 52 = ε at hlt hpos
    rcases h3 with h3 | h3
    · have k := Fl.rnd_le_rnd h3
      rw [hr] at k
      rcases Fl.ofRat_cases (show 0 < Fl.rnd (p - q) by linarith) with k2 | k2 <;> rw [k2]
      · show (decide (_ ≤ ε) && _) = false
        rw [decide_eq_false (by linarith)]; rfl
      · rfl
    · have k := Fl.rnd_le_rnd h3
      rw [hr, Fl.rnd_neg] at k
      have hb := Fl.two_zpow_pos 1024
      unfold Fl.ofRat
      simp only
      generalize (2 : ℚ) ^ (1024 : ℤ) = B at hb ⊢
      rw [if_neg (by linarith)]
      split
      · rfl
      · show (_ && decide (-ε ≤ _)) = false
        rw [decide_eq_false (by linarith), Bool.and_false]

theorem equal3 (a1 a2 a3 a4 a5 a6 c1 c2 c3 c4 c5 c6 : Fl) : (Bounds.make3 a1 a2 a3 a4 a5 a6).equal (Bounds.make3 c1 c2 c3 c4 c5 c6) =
    .ok (compareDistance a1 c1 && compareDistance a4 c4 && (compareDistance a2 c2 && compareDistance a5 c5) && (compareDistance a3 c3 && compareDistance a6 c6)) := by
  unfold Bounds.equal Bounds.make3 Bounds.scan Bounds.scan Bounds.scan Bounds.scan Range.equal
  generalize compareDistance a1 c1 = x1
  generalize compareDistance a2 c2 = x2
  generalize compareDistance a3 c3 = x3
  generalize compareDistance a4 c4 = x4
  generalize compareDistance a5 c5 = x5
  generalize compareDistance a6 c6 = x6
  revert x1 x2 x3 x4 x5 x6
  decide

theorem validate_eq (i : Info) (h : LibLAS.Header) : validate i h = .ok (
    compareDistance (Fl.ofBits i.minX) (Fl.ofBits h.min.x) && compareDistance (Fl.ofBits i.maxX) (Fl.ofBits h.max.x) &&
    (compareDistance (Fl.ofBits i.minY) (Fl.ofBits h.min.y) && compareDistance (Fl.ofBits i.maxY) (Fl.ofBits h.max.y)) &&
    (compareDistance (Fl.ofBits i.minZ) (Fl.ofBits h.min.z) && compareDistance (Fl.ofBits i.maxZ) (Fl.ofBits h.max.z)) &&
    decide (h.pointCount.toNat = i.points)) := by
  unfold validate
  have e1 : i.bounds = Bounds.make3 (Fl.ofBits i.minX) (Fl.ofBits i.minY) (Fl.ofBits i.minZ) (Fl.ofBits i.maxX) (Fl.ofBits i.maxY) (Fl.ofBits i.maxZ) := rfl
  rw [e1]
  unfold headerBounds
  rw [equal3]
  rfl

theorem validate_current {i : Info} {h : LibLAS.Header} (hc : Current i h) : validate i h = .ok true := by
  rw [validate_eq, compare_close hc.minX, compare_close hc.minY, compare_close hc.minZ, compare_close hc.maxX, compare_close hc.maxY, compare_close hc.maxZ, hc.points]
  simp

theorem validate_outdated {i : Info} {h : LibLAS.Header} (ho : Outdated i h) : validate i h = .ok false := by
  rw [validate_eq]
  rcases ho with k | k | k | k | k | k | k
  · rw [decide_eq_false (fun e => k e.symm)]; simp
  all_goals rw [compare_apart k]; simp

theorem found {h : LibLAS.Header} {i : Info} (hx : HasIndex h i) (hn : h.recordsCount.toNat = h.vlrs.length) :
    findHeader h.vlrs h.recordsCount.toNat 0 = .ok (some (headerRecord i)) := by
  obtain ⟨pre, post, hv, hp⟩ := hx
  rw [hn, hv]
  exact findHeader_hit (headerRecord_isHeader i) hp _ 0 (by simp; omega) (by omega)

/-- What `Prep` does with a header that has an index. -/
theorem prep_found {ih : LibLAS.Header} {idx : Option LibLAS.Header} (hidx : idx.getD r.hdr = ih) {i : Info} (hf : InfoFits i) (hx : HasIndex ih i)
    (hn : ih.recordsCount.toNat = ih.vlrs.length) :
    prep env b s r idx = if s.forceNew then (clearOldIndex i.dataId (s.named (keptInfo i)) ih).bind fun c => buildUnlessReadOnly env b c.1 r c.2 i.dataId
      else (validate i r.hdr).bind fun good => if good then .ok ⟨true, ih, some (keptInfo i), none⟩ else buildUnlessReadOnly env b (s.named (keptInfo i)) r ih i.dataId := by
  unfold prep
  simp only
  rw [hidx, found hx hn, bindOk]
  dsimp only
  rw [index_header hf, bindOk]
  rfl

/-- **C86**, up to date: an index is used, whatever is allowed, and nothing is written. -/
theorem prep_current {ih : LibLAS.Header} {idx : Option LibLAS.Header} (hidx : idx.getD r.hdr = ih) (hs : s.forceNew = false) {i : Info} (hf : InfoFits i)
    (hx : HasIndex ih i) (hn : ih.recordsCount.toNat = ih.vlrs.length) (hc : Current i r.hdr) :
    prep env b s r idx = .ok ⟨true, ih, some (keptInfo i), none⟩ := by
  rw [prep_found hidx hf hx hn, hs, if_neg (by simp), validate_current hc, bindOk, if_pos rfl]

/-- **C86**, out of date: the index is not used, and with a caller who may not write that is all. -/
theorem prep_outdated_read_only {ih : LibLAS.Header} {idx : Option LibLAS.Header} (hidx : idx.getD r.hdr = ih) (hs : s.forceNew = false) (hro : s.readOnly = true)
    {i : Info} (hf : InfoFits i) (hx : HasIndex ih i) (hn : ih.recordsCount.toNat = ih.vlrs.length) (ho : Outdated i r.hdr) :
    prep env b s r idx = .ok ⟨false, ih, none, none⟩ := by
  rw [prep_found hidx hf hx hn, hs, if_neg (by simp), validate_outdated ho, bindOk, if_neg (by simp)]
  unfold buildUnlessReadOnly
  rw [show (s.named (keptInfo i)).readOnly = true from hro, if_pos rfl]

theorem clearLoop_readOnly : ∀ (n i id : Nat) (s : Setup) (h : LibLAS.Header) {c : Setup × LibLAS.Header}, clearLoop n i id s h = .ok c → c.1.readOnly = s.readOnly := by
  intro n
  induction n with
  | zero =>
    intro i id s h c hc
    injection hc with hc
    rw [← hc]
  | succ n ih =>
    intro i id s h c hc
    unfold clearLoop at hc
    split at hc
    · cases hc
    · split at hc
      · split at hc
        · obtain ⟨o, -, hc⟩ := bind_eq_ok hc
          dsimp only at hc
          split at hc
          · have := ih _ _ _ _ hc
            cases o <;> exact this
          · cases hc
          · cases hc
        · split at hc
          · split at hc
            · exact ih _ _ _ _ hc
            · cases hc
            · cases hc
          · exact ih _ _ _ _ hc
      · exact ih _ _ _ _ hc

theorem buildUnless_no_file {h : LibLAS.Header} {id : Nat} {life : Life} (hro : s.readOnly = true) (hp : buildUnlessReadOnly env b s r h id = .ok life) : life.file = none := by
  unfold buildUnlessReadOnly at hp
  rw [hro, if_pos rfl] at hp
  injection hp with hp
  rw [← hp]

/-- **C86** A caller who may not write gets no file, whatever the reader and the index. -/
theorem prep_read_only {idx : Option LibLAS.Header} {life : Life} (hro : s.readOnly = true) (hp : prep env b s r idx = .ok life) : life.file = none := by
  unfold prep at hp
  simp only at hp
  obtain ⟨o, -, hp⟩ := bind_eq_ok hp
  cases o with
  | none => exact buildUnless_no_file hro hp
  | some v =>
    obtain ⟨o, -, hp⟩ := bind_eq_ok hp
    cases o with
    | none => cases hp
    | some i =>
      dsimp only at hp
      split at hp
      · obtain ⟨c, hc, hp⟩ := bind_eq_ok hp
        exact buildUnless_no_file ((clearLoop_readOnly _ _ _ _ _ hc).trans hro) hp
      · obtain ⟨g, -, hp⟩ := bind_eq_ok hp
        split at hp
        · injection hp with hp; rw [← hp]
        · exact buildUnless_no_file (s := s.named i) hro hp

/-! Forcing a new index -/

theorem deleteVLR_ok {h : LibLAS.Header} {i : Nat} (hi : i < h.vlrs.length) : ∃ h', h.deleteVLR (BitVec.ofNat 32 i) = (h', .ok ()) ∧ h'.vlrs.length < h.vlrs.length := by
  unfold LibLAS.Header.deleteVLR
  have : (BitVec.ofNat 32 i).toNat < h.vlrs.length := by
    rw [BitVec.toNat_ofNat]
    exact lt_of_le_of_lt (Nat.mod_le _ _) hi
  rw [if_neg (by omega)]
  refine ⟨_, rfl, ?_⟩
  show (h.vlrs.eraseIdx _).length < _
  rw [List.length_eraseIdx_of_lt this]
  omega

theorem loadInfo_cases (v : VLR) : (∃ o, loadInfo v = .ok o) ∨ loadInfo v = .ub := by
  have ht : ∀ b pos, (∃ o, takeText b pos = .ok o) ∨ takeText b pos = .ub := by
    intro b pos
    unfold takeText
    split
    · exact Or.inl ⟨_, rfl⟩
    · split
      · exact Or.inl ⟨_, rfl⟩
      · split
        · exact Or.inr rfl
        · exact Or.inl ⟨_, rfl⟩
  unfold loadInfo
  dsimp only
  split
  · rcases ht v.data 2 with ⟨o, e⟩ | e <;> rw [e]
    · rw [bindOk]
      split
      · exact Or.inl ⟨_, rfl⟩
      · rename_i pos
        rcases ht v.data pos with ⟨o, e⟩ | e <;> rw [e]
        · rw [bindOk]
          split
          · exact Or.inl ⟨_, rfl⟩
          · rename_i pos
            rcases ht v.data pos with ⟨o, e⟩ | e <;> rw [e]
            · rw [bindOk]
              split
              · exact Or.inl ⟨_, rfl⟩
              · exact Or.inl ⟨_, rfl⟩
            · exact Or.inr rfl
        · exact Or.inr rfl
    · exact Or.inr rfl
  · exact Or.inl ⟨_, rfl⟩

/-- Fewer records than the loop expects. -/
theorem clearLoop_short : ∀ (n i id : Nat) (s : Setup) (h : LibLAS.Header), 0 < n → h.vlrs.length < i + n → clearLoop n i id s h = .ub := by
  intro n
  induction n with
  | zero => intro i id s h h0; omega
  | succ n ih =>
    intro i id s h _ hl
    unfold clearLoop
    by_cases hi : i < h.vlrs.length
    · rw [List.getElem?_eq_getElem hi]
      dsimp only
      obtain ⟨h', hd, hlt⟩ := deleteVLR_ok hi
      have hskip : ∀ id s, clearLoop n (i + 1) id s h = .ub := fun id s => ih (i + 1) id s h (by omega) (by omega)
      have hdel : ∀ id s, clearLoop n (i + 1) id s h' = .ub := fun id s => ih (i + 1) id s h' (by omega) (by omega)
      split
      · split
        · rcases loadInfo_cases h.vlrs[i] with ⟨o, e⟩ | e <;> rw [e]
          · rw [bindOk, hd]
            dsimp only
            exact hdel _ _
          · rfl
        · split
          · rw [hd]; exact hdel _ _
          · exact hskip _ _
      · exact hskip _ _
    · rw [List.getElem?_eq_none (by omega)]

theorem clearLoop_header {v : VLR} (hv : isIndexHeader v = true) : ∀ (n i id k : Nat) (s : Setup) (h : LibLAS.Header), h.vlrs.length = i + n → i ≤ k → h.vlrs[k]? = some v → k + 1 < i + n →
    clearLoop n i id s h = .ub := by
  have hv' : (v.getUserId false == lit "liblas") = true ∧ (v.recordId == 42#16) = true := by
    unfold isIndexHeader at hv
    exact Bool.and_eq_true_iff.1 hv
  intro n
  induction n with
  | zero => intro i id k s h _ _ _ h4; omega
  | succ n ih =>
    intro i id k s h hl hk hx h4
    unfold clearLoop
    have hi : i < h.vlrs.length := by omega
    obtain ⟨h', hd, hlt⟩ := deleteVLR_ok hi
    have hdel : 0 < n → ∀ id s, clearLoop n (i + 1) id s h' = .ub := fun h0 id s => clearLoop_short _ _ id s h' h0 (by omega)
    have hn : 0 < n := by omega
    rcases Nat.lt_or_ge i k with hik | hik
    · have hskip : ∀ id s, clearLoop n (i + 1) id s h = .ub := fun id s => ih (i + 1) id k s h (by omega) (by omega) hx (by omega)
      rw [List.getElem?_eq_getElem hi]
      dsimp only
      split
      · split
        · rcases loadInfo_cases h.vlrs[i] with ⟨o, e⟩ | e <;> rw [e]
          · rw [bindOk, hd]
            dsimp only
            exact hdel hn _ _
          · rfl
        · split
          · rw [hd]; exact hdel hn _ _
          · exact hskip _ _
      · exact hskip _ _
    · have : i = k := by omega
      subst this
      rw [hx]
      dsimp only
      rw [hv'.1, hv'.2, if_pos rfl, if_pos rfl]
      rcases loadInfo_cases v with ⟨o, e⟩ | e <;> rw [e]
      · rw [bindOk, hd]
        dsimp only
        exact hdel hn _ _
      · rfl

/-- **C86** refuted: forcing a new index is undefined behaviour, whatever is allowed, for every file with an index header that is not its very last
record. (The records of the index follow its header, and those of the spatial reference and the schema follow them.) -/
theorem force_new_undefined {ih : LibLAS.Header} {idx : Option LibLAS.Header} (hidx : idx.getD r.hdr = ih) (hs : s.forceNew = true) {i : Info} (hf : InfoFits i)
    (hx : HasIndex ih i) (hn : ih.recordsCount.toNat = ih.vlrs.length) (hlast : ih.vlrs.getLast? ≠ some (headerRecord i)) : prep env b s r idx = .ub := by
  rw [prep_found hidx hf hx hn, hs, if_pos rfl]
  obtain ⟨pre, post, hv, -⟩ := hx
  have hpost : post ≠ [] := by
    rintro rfl
    apply hlast
    rw [hv]
    simp
  have hpl := List.length_pos_iff.2 hpost
  have : clearOldIndex i.dataId (s.named (keptInfo i)) ih = .ub := by
    unfold clearOldIndex
    rw [hn]
    refine clearLoop_header (headerRecord_isHeader i) _ 0 _ pre.length _ ih (by omega) (by omega) ?_ ?_
    · rw [hv, List.getElem?_append_right (le_refl _), Nat.sub_self]; rfl
    · rw [hv]; simp; omega
  rw [this]
  rfl

/-! An index that is out of date -/

theorem hasIndex_copied {vs : List VLR} {c : Bool} {i : Info} {pre post : List VLR} (hv : vs = pre ++ headerRecord i :: post) (hp : ∀ v ∈ pre, NotIndex v) :
    ∃ pre' post', (callersRecords c vs).map VLR.canon = pre' ++ headerRecord i :: post' ∧ ∀ v ∈ pre', NotIndex v := by
  have hx : IsIndex (headerRecord i) := ⟨headerRecord_name i, Or.inl rfl⟩
  unfold callersRecords
  rw [hv, List.filter_append, List.filter_cons_of_pos (by simpa using hx.callers _), List.map_append, List.map_cons, canon_headerRecord]
  refine ⟨_, _, rfl, ?_⟩
  intro v hv
  obtain ⟨u, hu, rfl⟩ := List.mem_map.1 hv
  exact notIndex_canon (hp u (List.mem_of_mem_filter hu))

/-- **C86** refuted: an index out of date in a file that could be indexed. A caller who may write gets a new index (`Prep` says so and writes a file), but in the
file written the old index stands in front of the new one: whoever opens it finds the old one, out of date as before, and has no index. If he may write
he makes a third. And the new index says the author, the comment and the date of the old one, not those the caller gave. -/
theorem stale_stays (hi : Copyable env today b input r) {σ z0 z1 : ℚ} (hh : Heights b s input r.hdr σ z0 z1) (hro : s.readOnly = false)
    (ht : s.temp = true) (hsm : ∀ g, chooseGrid s r.hdr = .ok (some g) → SmallIndex env r.hdr g (pointsOf b input r.hdr)) (hs : s.forceNew = false)
    {i0 : Info} (hf : InfoFits i0) (hid : i0.dataId = 43) (hx : HasIndex r.hdr i0) (ho : Outdated i0 r.hdr) :
    ∃ ih i f r' index, prep env b s r none = .ok ⟨true, ih, some i, some f⟩ ∧ index ≠ [] ∧ (∀ v ∈ index, IsIndex v) ∧
      FileWith env today r.hdr (callersRecords r.hdr.schema.isCustom r.hdr.vlrs ++ index ++ laterRecords env r.hdr) f
        (if s.standalone then [] else pointRecords input r.hdr) r' ∧
      i.author = cutText i0.author ∧ i.comment = cutText i0.comment ∧ i.date = cutText i0.date ∧
      HasIndex r'.hdr i0 ∧ (s.standalone = false → Outdated i0 r'.hdr) ∧
      ∀ s' : Setup, s'.forceNew = false → s'.readOnly = true → prep env b s' r (some r'.hdr) = .ok ⟨false, r'.hdr, none, none⟩ ∧
        (s.standalone = false → prep env b s' r' none = .ok ⟨false, r'.hdr, none, none⟩) := by
  have hh' : Heights b (s.named (keptInfo i0)) input r.hdr σ z0 z1 := ⟨hh.size, hh.rep, hh.min, hh.max, hh.order, hh.layers⟩
  obtain ⟨g, hg⟩ := grid_for hi hh'
  obtain ⟨life, f, i, dvs, r', out, h1, h2, h3, h4, h5⟩ := build_makes hi hg (show (s.named (keptInfo i0)).temp = true from ht) (hsm g hg.chosen)
  have hp : prep env b s r none = .ok life := by
    rw [prep_found (r := r) (idx := none) rfl hf hx (counted hi), hs, if_neg (by simp), validate_outdated ho, bindOk, if_neg (by simp), hid]
    unfold buildUnlessReadOnly
    rw [show (s.named (keptInfo i0)).readOnly = false from hro, if_neg (by simp)]
    exact h1
  have hx' : HasIndex r'.hdr i0 := by
    obtain ⟨pre, post, hv, hpre⟩ := hx
    obtain ⟨pre', post', e, hpre'⟩ := hasIndex_copied (c := r.hdr.schema.isCustom) hv hpre
    refine ⟨pre', post' ++ headerRecord i :: (dvs ++ (laterRecords env r.hdr).map VLR.canon), ?_, hpre'⟩
    rw [h2.records, e]
    simp
  have ho' : s.standalone = false → Outdated i0 r'.hdr := by
    intro hst
    have hc := h2.file.count
    rw [show (s.named (keptInfo i0)).standalone = false from hst, if_neg (by simp), (pointRecords_facts hi).1] at hc
    unfold Outdated at ho ⊢
    rw [h2.min, h2.max, hc]
    exact ho
  rw [h2.life] at hp
  refine ⟨_, i, f, r', headerRecord i :: dvs, hp, by simp, ?_, h2.file, by rw [h2.info]; rfl, by rw [h2.info]; rfl, by rw [h2.info]; rfl, hx', ho', ?_⟩
  · intro v hv
    rcases List.mem_cons.1 hv with rfl | hv
    · exact ⟨headerRecord_name i, Or.inl rfl⟩
    · exact ⟨(plain_name (h2.plain v hv)).1, Or.inr (plain_name (h2.plain v hv)).2⟩
  · intro s' hs' hro'
    exact ⟨prep_outdated_read_only rfl hs' hro' hf hx' h2.counted ho, fun hst => prep_outdated_read_only rfl hs' hro' hf hx' h2.counted (ho' hst)⟩

/-! A session: four points are indexed, a fifth is appended. -/

/-- The file of `areaFile` with its index, and a point appended. -/
def grownFile : List Byte :=
  let made : Outcome (List Byte) := do
    let r ← Reader.make plainEnv (1, 2000) (IStream.onFile areaFile)
    let life ← prep plainEnv ⟨.little, false⟩ (areaSetup (.fin 0)) r none
    appendSession plainEnv (1, 2000) (life.file.getD []) [put32 10 ++ put32 12 ++ put32 5 ++ List.replicate 16 0#8]
  match made with
  | .ok f => f
  | _ => []

/-- The header record of the index in it. -/
def grownInfo : Info :=
  newInfo (areaSetup (.fin 0)) (areaHeader 4) ⟨pt 0 0 0, pt 40 30 10, 10, 7, 1, .fin 0, 0, true⟩ 43

theorem grownInfo_fits : InfoFits grownInfo := by
  refine ⟨?_, ?_, ?_, ?_, ?_, ?_, ?_⟩ <;> decide +kernel

theorem grown_copyable : ∃ r, Copyable plainEnv (1, 2000) ⟨.little, false⟩ grownFile r ∧
    Heights ⟨.little, false⟩ (areaSetup (.fin 0)) grownFile r.hdr 0 0 10 ∧ r.hdr.pointCount.toNat = 5 ∧
    recordBytes (outputRecords plainEnv r.hdr) ≤ 2 ^ 30 ∧ r.hdr.vlrs[1]? = some (headerRecord grownInfo) ∧
    (r.hdr.vlrs.take 1).all (fun v => v.getUserId false != lit "liblas") = true ∧ r.hdr.vlrs.getLast? ≠ some (headerRecord grownInfo) := by
  obtain ⟨r, e, a1, a2, a3, a4, a5, a6, a7, a8, a9, a11, a12, a13, a14, a15, a16, a17, a18, a19, a20, a21⟩ :
      ∃ r, Reader.make plainEnv (1, 2000) (IStream.onFile grownFile) = .ok r ∧
      (227 ≤ grownFile.length ∧ r.hdr.vlrs.find? VLR.isSchema = none ∧ formatSize r.hdr.schema.fmt ≤ r.hdr.dataRecordLength ∧
        r.hdr.dataOffset.toNat + r.hdr.pointCount.toNat * r.hdr.dataRecordLength ≤ grownFile.length ∧ r.hdr.pointCount.toNat = 5 ∧
        227 ≤ r.hdr.headerSize.toNat ∧ r.hdr.schema.isCustom = false ∧ (outputRecords plainEnv r.hdr).find? VLR.isSchema = none ∧
        r.hdr.dataOffset.toNat ≤ r.hdr.headerSize.toNat + recordBytes (outputRecords plainEnv r.hdr) + 54 ∧
        recordBytes (outputRecords plainEnv r.hdr) ≤ 2 ^ 30 ∧
        Fl.ofBits r.hdr.min.x = .fin 0 ∧ Fl.ofBits r.hdr.max.x = .fin 40 ∧ Fl.ofBits r.hdr.min.y = .fin 0 ∧ Fl.ofBits r.hdr.max.y = .fin 30 ∧
        Fl.ofBits r.hdr.min.z = .fin 0 ∧ Fl.ofBits r.hdr.max.z = .fin 10 ∧
        pointsOf ⟨.little, false⟩ grownFile r.hdr = [pt 1 2 3, pt 20 15 5, pt 39 29 9, pt 40 30 10, pt 10 12 5] ∧
        r.hdr.vlrs[1]? = some (headerRecord grownInfo) ∧ (r.hdr.vlrs.take 1).all (fun v => v.getUserId false != lit "liblas") = true ∧ r.hdr.vlrs.getLast? ≠ some (headerRecord grownInfo)) :=
    Outcome.exists_of_check (by decide +kernel)
  refine ⟨r, ⟨e, a1, noSchema_none a2, a3, a4, by omega, by omega, a6, fun h => (by rw [a7] at h; cases h), noSchema_none a8, a9, ?_⟩, ?_, a5, a11, a19, a20, a21⟩
  · intro p hp
    rw [a18] at hp
    have hall : ∃ i j k : Int, p = pt i j k ∧ 0 ≤ i ∧ i ≤ 40 ∧ 0 ≤ j ∧ j ≤ 30 := by
      simp only [List.mem_cons, List.not_mem_nil, or_false] at hp
      rcases hp with h | h | h | h | h
      all_goals exact ⟨_, _, _, h, by norm_num, by norm_num, by norm_num, by norm_num⟩
    obtain ⟨i, j, k, rfl, h1, h2, h3, h4⟩ := hall
    exact ⟨between_whole (a := 0) (c := 40) (by rw [a12]; rfl) (by rw [a13]; rfl) ⟨h1, h2, by norm_num, by norm_num, by norm_num⟩,
      between_whole (a := 0) (c := 30) (by rw [a14]; rfl) (by rw [a15]; rfl) ⟨h3, h4, by norm_num, by norm_num, by norm_num⟩⟩
  · exact ⟨rfl, Fl.ofBits_rep (b := 0#64) (by decide +kernel), a16, a17, by norm_num, Or.inl (by positivity)⟩

theorem hasIndex_second {h : LibLAS.Header} {i : Info} (he : h.vlrs[1]? = some (headerRecord i)) (h0 : (h.vlrs.take 1).all (fun v => v.getUserId false != lit "liblas") = true) :
    HasIndex h i := by
  rcases hv : h.vlrs with _ | ⟨v, _ | ⟨w, vs⟩⟩
  · rw [hv] at he; cases he
  · rw [hv] at he; cases he
  · rw [hv] at he h0
    injection he with he
    subst he
    refine ⟨[v], vs, hv, ?_⟩
    intro u hu hc
    rw [List.mem_singleton] at hu
    subst hu
    have := List.all_eq_true.1 h0 u (by simp)
    rw [hc.1] at this
    simp at this

/-- The theorems at work on it: the index is not used; a new one is made, but the file with it has no index for its readers; and forcing a new one is undefined. -/
theorem grown_stays : ∃ r, Reader.make plainEnv (1, 2000) (IStream.onFile grownFile) = .ok r ∧
    (∃ ih i f r' index, prep plainEnv ⟨.little, false⟩ (areaSetup (.fin 0)) r none = .ok ⟨true, ih, some i, some f⟩ ∧ (∀ v ∈ index, IsIndex v) ∧
      FileWith plainEnv (1, 2000) r.hdr (callersRecords r.hdr.schema.isCustom r.hdr.vlrs ++ index ++ laterRecords plainEnv r.hdr) f (pointRecords grownFile r.hdr) r' ∧
      prep plainEnv ⟨.little, false⟩ { areaSetup (.fin 0) with readOnly := true } r' none = .ok ⟨false, r'.hdr, none, none⟩) ∧
    prep plainEnv ⟨.little, false⟩ { areaSetup (.fin 0) with readOnly := true } r none = .ok ⟨false, r.hdr, none, none⟩ ∧
    prep plainEnv ⟨.little, false⟩ { areaSetup (.fin 0) with forceNew := true } r none = .ub := by
  obtain ⟨r, h1, h2, h3, h4, h5, h5', h6⟩ := grown_copyable
  have hx := hasIndex_second h5 h5'
  have ho : Outdated grownInfo r.hdr := Or.inl (by rw [h3]; decide +kernel)
  obtain ⟨ih, i, f, r', index, k1, -, k2, k3, -, -, -, -, -, k4⟩ := stale_stays h1 h2 rfl rfl (index_made_small h1 h2 rfl (by omega) h4) rfl grownInfo_fits rfl hx ho
  exact ⟨r, h1.opens, ⟨ih, i, f, r', index, k1, k2, k3, (k4 _ rfl rfl).2 rfl⟩,
    prep_outdated_read_only (idx := none) rfl rfl rfl grownInfo_fits hx (counted h1) ho,
    force_new_undefined (idx := none) rfl rfl grownInfo_fits hx (counted h1) h6⟩

/-- The names: a caller who gives a new author gets an index by the old one, who is nobody. -/
theorem grown_old_names : ∃ r life i, Reader.make plainEnv (1, 2000) (IStream.onFile grownFile) = .ok r ∧
    prep plainEnv ⟨.little, false⟩ { areaSetup (.fin 0) with author := lit "new" } r none = .ok life ∧ life.info = some i ∧ life.ready = true ∧
    i.author = cutText (areaSetup (.fin 0)).author ∧ i.author ≠ lit "new" := by
  obtain ⟨r, h1, h2, h3, h4, h5, h5', h6⟩ := grown_copyable
  have hx := hasIndex_second h5 h5'
  have ho : Outdated grownInfo r.hdr := Or.inl (by rw [h3]; decide +kernel)
  have h2' : Heights ⟨.little, false⟩ { areaSetup (.fin 0) with author := lit "new" } grownFile r.hdr 0 0 10 := ⟨h2.size, h2.rep, h2.min, h2.max, h2.order, h2.layers⟩
  obtain ⟨ih, i, f, r', index, k1, -, k2, k3, k5, -, -, -, -, k4⟩ := stale_stays h1 h2' rfl rfl (index_made_small h1 h2' rfl (by omega) h4) rfl grownInfo_fits rfl hx ho
  have e : i.author = cutText (areaSetup (.fin 0)).author := k5
  exact ⟨r, _, i, h1.opens, k1, rfl, rfl, e, by rw [e]; decide +kernel⟩

/-- A window asked of the new index in the session that made it. -/
def renewedSession (l u : Pt) : Outcome (Bool × List Nat) := do
  let r ← Reader.make plainEnv (1, 2000) (IStream.onFile grownFile)
  let life ← prep plainEnv ⟨.little, false⟩ (areaSetup (.fin 0)) r none
  let ids ← match life.info with
    | some i => filter (pointsOf ⟨.little, false⟩ grownFile r.hdr) life.hdr.vlrs (Query.set i.grid l u) 0
    | none => .ok []
  pure (life.ready, ids)

/-- **C86** refuted: the answer has points twice, since the records of the old index are still looked at. (The points in the window are 0, 1 and 4.) -/
theorem renewed_twice : renewedSession (pt 0 0 0) (pt 25 20 10) = .ok (true, [0, 1, 0, 4, 1]) := by
  have : ∃ x, renewedSession (pt 0 0 0) (pt 25 20 10) = .ok x ∧ x = (true, [0, 1, 0, 4, 1]) := Outcome.exists_of_check (by decide +kernel)
  obtain ⟨x, h1, h2⟩ := this
  rw [h1, h2]

/-- Up to date: the hypotheses of `prep_current` on the file before the point was appended. -/
example : ∃ i : Info, InfoFits i ∧ Current i (areaHeader 4) :=
  ⟨grownInfo, grownInfo_fits, by
    have c : ∀ {u : BitVec 64} {q : ℚ}, Fl.ofBits u = .fin q → SameValue u u := fun {u} {q} h => ⟨q, q, h, h, by rw [sub_self, abs_zero]; positivity⟩
    exact ⟨by decide +kernel, c (q := 0) (by decide +kernel), c (q := 0) (by decide +kernel), c (q := 0) (by decide +kernel), c (q := 40) (by decide +kernel),
      c (q := 30) (by decide +kernel), c (q := 10) (by decide +kernel)⟩⟩

end LibLAS.Index
