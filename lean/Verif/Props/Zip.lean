import Verif.Lemmas.Zip
import Verif.Props.Reading
/-
C75: reading a compressed file.
-/
namespace LibLAS
open Spec

variable {z : LASzip}

theorem zip_cursor {c : z.Config} {file : List Byte} {off : Nat} {rs : List (List Byte)} {Ready : Nat → z.State → IStream → Prop}
    {u0 : z.State} {start : Nat} (hz : Decodes.With z c file off rs Ready u0 start) :
    ∀ (ops : List ZipOp) (k : Nat) (ts : List (List Byte → List Byte)) (r : ZipReader z),
      r.Live rs Ready start none ts k → cursorSession rs k ts r ops := by
  intro ops
  induction ops with
  | nil => intro k ts r _; exact trivial
  | cons op ops ih =>
    intro k ts r h
    cases op with
    | next =>
      unfold cursorSession
      by_cases hk : k < rs.length
      · rw [List.getElem?_eq_getElem hk]
        obtain ⟨r', e, hp, hl⟩ := h.next hz hk rfl
        rw [e]
        exact ⟨rfl, hp, ih _ _ _ hl⟩
      · rw [List.getElem?_eq_none (by omega), h.at_end hz (by omega)]
        exact ⟨rfl, ih _ _ _ h⟩
    | «at» n =>
      unfold cursorSession
      by_cases hk : n < rs.length
      · rw [List.getElem?_eq_getElem hk]
        obtain ⟨r1, e1, hl1⟩ := h.impl_seek hz hk
        obtain ⟨r2, e2, hp, hl2⟩ := hl1.impl_next hz hk rfl
        have : r.readAt n = (r2, .ok true) := by
          unfold ZipReader.readAt
          rw [if_neg (by rw [h.count]; omega), ZipReader.implReadAt, e1]
          dsimp only
          rw [e2]; rfl
        rw [this]
        exact ⟨rfl, hp, ih _ _ _ hl2⟩
      · rw [List.getElem?_eq_none (by omega)]
        have : r.readAt n = (r, .throw .outOfRange) := by
          unfold ZipReader.readAt
          rw [if_pos (by rw [h.count]; omega)]
        rw [this]
        exact ⟨rfl, ih _ _ _ h⟩
    | seek n =>
      unfold cursorSession
      by_cases hk : n < rs.length
      · rw [if_pos hk]
        obtain ⟨r1, e1, hl1⟩ := h.impl_seek hz hk
        have : r.seek n = (r1, .ok true) := by unfold ZipReader.seek; rw [e1]; rfl
        rw [this]
        exact ⟨rfl, ih _ _ _ hl1⟩
      · rw [if_neg hk]
        by_cases hn : n = rs.length
        · rw [if_pos hn]
          have : r.seek n = (r, .ok false) := by
            unfold ZipReader.seek ZipReader.implSeek; rw [if_pos (by rw [h.size, hn])]; rfl
          rw [this]
          exact ⟨rfl, ih _ _ _ h⟩
        · rw [if_neg hn]
          have : r.seek n = (r, .throw .runtimeError) := by
            unfold ZipReader.seek ZipReader.implSeek
            rw [if_neg (by rw [h.size]; omega), if_pos (by rw [h.size]; omega)]; rfl
          rw [this]
          exact ⟨rfl, ih _ _ _ h⟩
    | transforms ts' =>
      unfold cursorSession
      exact ih _ _ _ ⟨h.count, h.size, h.current, h.start, h.ready, h.filter, rfl⟩

/-- C75: if the decompressor yields the records `rs` from the place the header points to, as many as the header says, then
over any session of sequential reads, random access, seeks and changes of transforms, in any order and of any length, the
reader is a cursor over `rs`. -/
theorem compressed_session {env : Env} {today : BitVec 16 × BitVec 16} {file : List Byte} {r : ZipReader z} {rs : List (List Byte)}
    (e : ZipReader.make z env today (IStream.onFile file) = .ok r) (hd : Decodes z r.config file r.hdr.dataOffset.toNat rs)
    (hn : r.hdr.pointCount.toNat = rs.length) (ops : List ZipOp) : cursorSession rs 0 [] r ops := by
  obtain ⟨Ready, u0, start, hw, hl⟩ := ZipReader.make_live e hd hn
  exact zip_cursor hw ops 0 [] r hl

/-- C75: read to the end, every record is delivered once, in order, as the transforms make it. -/
theorem compressed_all {env : Env} {today : BitVec 16 × BitVec 16} {file : List Byte} {r : ZipReader z} {rs : List (List Byte)}
    (e : ZipReader.make z env today (IStream.onFile file) = .ok r) (hd : Decodes z r.config file r.hdr.dataOffset.toNat rs)
    (hn : r.hdr.pointCount.toNat = rs.length) (ts : List (List Byte → List Byte)) :
    zipDelivers (r.setTransforms ts) (rs.map fun p => ts.foldl (fun p t => t p) p) := by
  obtain ⟨Ready, u0, start, hw, hl⟩ := ZipReader.make_live e hd hn
  have hl : (r.setTransforms ts).Live rs Ready start none ts 0 :=
    ⟨hl.count, hl.size, hl.current, hl.start, hl.ready, hl.filter, rfl⟩
  suffices ∀ (m k : Nat) (r : ZipReader z), k + m = rs.length → r.Live rs Ready start none ts k →
      zipDelivers r ((rs.drop k).map fun p => ts.foldl (fun p t => t p) p) from this rs.length 0 _ (by omega) hl
  intro m
  induction m with
  | zero =>
    intro k r hk h
    rw [List.drop_eq_nil_of_le (by omega)]
    show r.readNext.2 = _
    rw [h.at_end hw (by omega)]
  | succ m ih =>
    intro k r hk h
    have hk' : k < rs.length := by omega
    rw [List.drop_eq_getElem_cons hk']
    obtain ⟨r', e, hp, hl⟩ := h.next hw hk' rfl
    show r.readNext.2 = _ ∧ r.readNext.1.point = _ ∧ _
    rw [e]
    exact ⟨rfl, hp, ih _ _ (by omega) hl⟩

/-- C75: after `Reset` the records that can be sought are those the header says. -/
theorem compressed_reset_seeks {env : Env} {b : Build} {r r' : ZipReader z} (e : r.reset env b = .ok r') (n : Nat) :
    (r'.seek n).2 = if n < r'.hdr.pointCount.toNat then .ok true else if n = r'.hdr.pointCount.toNat then .ok false
      else .throw .runtimeError := by
  have hs : r'.size = r'.hdr.pointCount.toNat := by
    unfold ZipReader.reset at e
    obtain ⟨⟨s, h⟩, -, e⟩ := bind_eq_ok e
    dsimp only at e
    split_ifs at e
    obtain ⟨p, -, e⟩ := bind_eq_ok e
    cases e
    rfl
  unfold ZipReader.seek ZipReader.implSeek
  rw [hs]
  generalize r'.hdr.pointCount.toNat = c
  rcases Nat.lt_trichotomy n c with h | h | h
  · rw [if_neg (by omega), if_neg (by omega), if_pos h]; rfl
  · rw [if_pos h.symm, if_neg (by omega), if_pos h]; rfl
  · rw [if_neg (by omega), if_pos h, if_neg (by omega), if_neg (by omega)]; rfl

/-! Filters -/

theorem cleanEnd_tail {acc : List Byte → Bool} {p a b d : List Byte} {L : List (List Byte)} (h : CleanEnd acc (p :: a :: b :: d :: L)) :
    CleanEnd acc (a :: b :: d :: L) := by
  unfold CleanEnd at *
  rw [List.map_cons, List.reverse_cons] at h
  have hlen : (((a :: b :: d :: L).map acc).reverse).length ≥ 3 := by simp
  revert h hlen
  generalize ((a :: b :: d :: L).map acc).reverse = M
  rcases M with _ | ⟨x, _ | ⟨y, _ | ⟨w, M⟩⟩⟩
  · intro _ h; simp at h
  · intro _ h; simp at h
  · intro _ h; simp at h
  · cases x <;> cases y <;> cases w <;> intro h _ <;> exact h

theorem cleanEnd_accepted {acc : List Byte → Bool} {p : List Byte} {L : List (List Byte)} (ha : acc p = true) (h : CleanEnd acc (p :: L)) :
    CleanEnd acc L := by
  unfold CleanEnd at *
  rw [List.map_cons, List.reverse_cons, ha] at h
  revert h
  generalize (L.map acc).reverse = M
  rcases M with _ | ⟨x, _ | ⟨y, _ | ⟨w, M⟩⟩⟩
  · intro _; trivial
  · cases x <;> intro h <;> exact h
  · cases x <;> cases y <;> intro h <;> exact h
  · cases x <;> cases y <;> cases w <;> intro h <;> exact h

theorem skipSpec_clean {acc : List Byte → Bool} : ∀ (L : List (List Byte)) (p q : List Byte), acc p ≠ true →
    CleanEnd acc (p :: q :: L) →
    match Zip.skipSpec acc q L with
    | some (a, L') => (q :: L).filter acc = a :: L'.filter acc ∧ CleanEnd acc L' ∧ L'.length ≤ L.length
    | none => (q :: L).filter acc = [] := by
  intro L
  induction L with
  | nil =>
    intro p q hp h
    have hq : acc q = true := by
      unfold CleanEnd at h
      simp only [List.map_cons, List.map_nil, List.reverse_cons, List.reverse_nil, List.nil_append, List.cons_append] at h
      cases hq : acc q with
      | true => rfl
      | false =>
        rw [hq] at h
        cases hp' : acc p with
        | true => exact absurd hp' hp
        | false => rw [hp'] at h; exact h.elim
    exact ⟨by simp [hq], trivial, le_refl _⟩
  | cons a L ih =>
    intro p q hp h
    unfold Zip.skipSpec
    by_cases hq : acc q = true
    · rw [if_pos hq]
      refine ⟨by rw [List.filter_cons_of_pos hq], ?_, le_refl _⟩
      cases L with
      | nil =>
        unfold CleanEnd at h ⊢
        simp only [List.map_cons, List.map_nil, List.reverse_cons, List.reverse_nil, List.nil_append, List.cons_append] at h ⊢
        rw [hq] at h
        cases ha : acc a with
        | true => trivial
        | false => rw [ha] at h; cases acc p <;> exact h
      | cons b L => exact cleanEnd_accepted hq (cleanEnd_tail h)
    · rw [if_neg hq]
      cases L with
      | nil =>
        rw [if_pos rfl]
        unfold CleanEnd at h
        simp only [List.map_cons, List.map_nil, List.reverse_cons, List.reverse_nil, List.nil_append, List.cons_append] at h
        rw [ne_eq, Bool.not_eq_true] at hp
        rw [Bool.not_eq_true] at hq
        rw [hp, hq] at h
        have ha : acc a = false := by
          cases ha : acc a with
          | false => rfl
          | true => rw [ha] at h; exact h.elim
        show List.filter acc [q, a] = []
        simp [hq, ha]
      | cons b L =>
        rw [if_neg (by simp), List.filter_cons_of_neg hq]
        have := ih q a hq (cleanEnd_tail h)
        revert this
        rcases Zip.skipSpec acc a (b :: L) with _ | ⟨x, L'⟩
        · exact id
        · rintro ⟨h1, h2, h3⟩
          exact ⟨h1, h2, by simp only [List.length_cons] at *; omega⟩

/-- C75, filters, what holds: if the records end in a way the loop copes with, reading to the end delivers exactly the
accepted records, in order, transformed. Missing: other endings, for which see the cases. -/
theorem compressed_filtered_partial {env : Env} {today : BitVec 16 × BitVec 16} {file : List Byte} {r : ZipReader z}
    {rs : List (List Byte)} (e : ZipReader.make z env today (IStream.onFile file) = .ok r)
    (hd : Decodes z r.config file r.hdr.dataOffset.toNat rs) (hn : r.hdr.pointCount.toNat = rs.length)
    (ts : List (List Byte → List Byte)) (fs : List (List Byte → Bool)) (hc : CleanEnd (fun p => fs.all fun f => f p) rs) :
    zipDelivers ((r.setTransforms ts).setFilters fs)
      ((rs.filter fun p => fs.all fun f => f p).map fun p => ts.foldl (fun p t => t p) p) := by
  by_cases h0 : fs = []
  · subst h0
    have h := compressed_all e hd hn ts
    have h1 : (r.setTransforms ts).setFilters [] = r.setTransforms ts := by
      unfold ZipReader.setFilters
      rw [if_pos rfl]
      have : (r.setTransforms ts).filter = none := by
        obtain ⟨_, _, _, _, hl⟩ := ZipReader.make_live e hd hn
        exact hl.filter
      rw [← this]
    rw [h1]
    have h2 : (rs.filter fun p => ([] : List (List Byte → Bool)).all fun f => f p) = rs := by simp
    rw [h2]
    exact h
  obtain ⟨Ready, u0, start, hw, hl⟩ := ZipReader.make_live e hd hn
  have hl : ((r.setTransforms ts).setFilters fs).Live rs Ready start (some fun p => fs.all fun f => f p) ts 0 :=
    ⟨hl.count, hl.size, hl.current, hl.start, hl.ready, by unfold ZipReader.setFilters; rw [if_neg h0], rfl⟩
  revert hl
  generalize ((r.setTransforms ts).setFilters fs) = r0
  revert hc
  generalize (fun p => fs.all fun f => f p) = acc
  intro hc hl
  suffices ∀ (m k : Nat) (L : List (List Byte)) (r : ZipReader z), L.length ≤ m → k + L.length = rs.length → rs.drop k = L → CleanEnd acc L →
      r.Live rs Ready start (some acc) ts k →
      zipDelivers r ((L.filter acc).map fun p => ts.foldl (fun p t => t p) p) from
    this rs.length 0 rs _ (le_refl _) (by omega) rfl hc hl
  intro m
  induction m with
  | zero =>
    intro k L r hm hk hL hc h
    have : L = [] := List.length_eq_zero_iff.mp (by omega)
    subst this
    show r.readNext.2 = _
    rw [h.at_end hw (by simp at hk; omega)]
  | succ m ih =>
    intro k L r hm hk hL hc h
    cases L with
    | nil =>
      show r.readNext.2 = _
      rw [h.at_end hw (by simp at hk; omega)]
    | cons p L =>
      simp only [List.length_cons] at hm hk
      have hkl : k < rs.length := by omega
      have hp : rs[k] = p ∧ rs.drop (k + 1) = L := by
        rw [List.drop_eq_getElem_cons hkl] at hL
        simpa only [List.cons.injEq] using hL
      by_cases ha : acc p = true
      · obtain ⟨r', e, hq, hl⟩ := h.next hw hkl (by rw [hp.1]; exact ha)
        rw [List.filter_cons_of_pos ha]
        show r.readNext.2 = _ ∧ r.readNext.1.point = _ ∧ _
        rw [e]
        exact ⟨rfl, by rw [hq, hp.1], ih (k + 1) L r' (by omega) (by omega) hp.2 (cleanEnd_accepted ha hc) hl⟩
      · cases L with
        | nil =>
          exfalso
          unfold CleanEnd at hc
          rw [Bool.not_eq_true] at ha
          simp only [List.map_cons, List.map_nil, List.reverse_cons, List.reverse_nil, List.nil_append, ha] at hc
        | cons q L =>
          have hspec := skipSpec_clean L p q ha hc
          have hread := ZipReader.Live.filtered hw h (by simp only [List.length_cons] at *; omega) hL ha (by
            intro hL0
            subst hL0
            have := hspec
            unfold Zip.skipSpec at this
            have h1 := this.1
            by_contra hq
            rw [List.filter_cons_of_neg hq] at h1
            simp at h1)
          rw [List.filter_cons_of_neg ha]
          revert hspec hread
          rcases Zip.skipSpec acc q L with _ | ⟨a, L'⟩
          · rintro h1 ⟨r', e⟩
            rw [h1]
            show r.readNext.2 = _
            rw [e]
          · rintro ⟨h1, h2, h3⟩ ⟨r', j', e, ha, hl, hd, hj⟩
            rw [h1]
            show r.readNext.2 = _ ∧ r.readNext.1.point = _ ∧ _
            rw [e]
            simp only [List.length_cons] at hm
            exact ⟨rfl, ha, ih j' L' r' (by omega) hj hd h2 hl⟩

end LibLAS
