import Verif.Lemmas.IndexResume
import Verif.Spec.IndexQuery
/-
Requests to an iterator.
-/
namespace LibLAS.Index
open Spec

theorem pull_found (l : List (Option Nat)) : ∀ adv room, 0 < room → (pull adv room l).out ≠ [] →
    (pull adv room l).found = adv - 1 + (pull adv room l).out.length := by
  induction l with
  | nil => intro adv room _ h; simp [pull] at h
  | cons x l ih =>
    intro adv room hr h
    cases x with
    | none => rw [pull_none] at h ⊢; exact ih adv room hr h
    | some id =>
      by_cases h1 : adv - 1 ≠ 0
      · rw [pull_skip h1] at h ⊢
        have := ih (adv - 1) room hr h
        simp only [this]; omega
      · by_cases h2 : room ≤ 1
        · rw [pull_last h1 h2]; simp; omega
        · rw [pull_take h1 h2]
          simp only [List.length_cons]
          by_cases h3 : (pull 0 (room - 1) l).out = []
          · obtain ⟨f1, f2, f3, f4⟩ := pull_facts l 0 (room - 1) (by omega)
            have hu := f4 (by rw [h3]; simp; omega)
            have : accepted l = [] := by
              rw [h3] at f1
              simp only [Nat.zero_sub, List.drop_zero] at f1
              obtain ⟨n, hn⟩ : ∃ n, room - 1 = n + 1 := ⟨room - 2, by omega⟩
              cases ha : accepted l with
              | nil => rfl
              | cons a t => rw [ha, hn] at f1; simp at f1
            rw [f3, hu, List.take_length, this, h3]; simp; omega
          · rw [ih 0 (room - 1) (by omega) h3]; omega

theorem accepted_take_le (l : List (Option Nat)) (k : Nat) : (accepted (l.take k)).length ≤ (accepted l).length := by
  conv_rhs => rw [← List.take_append_drop k l]
  simp [accepted]

theorem accepted_split (l : List (Option Nat)) (k : Nat) : accepted l = accepted (l.take k) ++ accepted (l.drop k) := by
  conv_lhs => rw [← List.take_append_drop k l]
  simp [accepted]

/-- Filtering with an iterator that is to skip `a - 1` points. -/
def StepOK (pts : List Pt) (vs : List VLR) (count : Nat) (R : List Nat) (chunk : Nat) (Inv : Iterator → Prop) : Prop :=
  ∀ t, Inv t → ∀ a r, 0 < a → ∃ out t', Iterator.filter pts vs count { t with it := { t.it with advance := a } } r = .ok (out, t') ∧ Inv t' ∧
    out = (R.drop (t.it.conforming + (a - 1))).take chunk ∧
    (out ≠ [] → t'.it.conforming = t.it.conforming + (a - 1) + out.length) ∧
    (out = [] → t'.it.conforming = t.it.conforming ∨ t'.it.conforming = R.length)

theorem call_ok {pts : List Pt} {vs : List VLR} {count : Nat} {R : List Nat} {chunk : Nat} {Inv : Iterator → Prop}
    (hchunk : 0 < chunk) (hstep : StepOK pts vs count R chunk Inv) (hreset : ∀ t, Inv t → Inv { t with it := t.it.reset })
    (hle : ∀ t, Inv t → t.it.conforming ≤ R.length) {t : Iterator} (ht : Inv t) (r : RPos) (n : Int) :
    ∃ out t', t.call pts vs count r n = .ok (out, t') ∧ Inv t' ∧ out = (R.drop n.toNat).take chunk ∧
      (out ≠ [] → t'.it.conforming = n.toNat + out.length) ∧ (out = [] → t'.it.conforming = t.it.conforming ∨ t'.it.conforming = R.length) := by
  unfold Iterator.call
  have hz : t.it.reset.conforming = 0 := rfl
  have hnil : ∀ m : Nat, m < R.length → (R.drop m).take chunk ≠ [] := by
    intro m hm h
    have := congrArg List.length h
    rw [List.length_take, List.length_drop] at this
    simp at this
    omega
  by_cases h1 : n ≤ 0
  · simp only [if_pos h1]
    obtain ⟨out, t', e1, e2, e3, e4, e5⟩ := hstep _ (hreset t ht) 1 r (by omega)
    have hn : n.toNat = 0 := by omega
    simp only [hz, Nat.zero_add, Nat.sub_self] at e3 e4 e5
    refine ⟨out, t', e1, e2, by rw [hn]; exact e3, by rw [hn]; simpa using e4, fun h => ?_⟩
    right
    rcases e5 h with h5 | h5
    · rw [h5]
      by_contra hc
      exact hnil 0 (by omega) (by rw [← e3]; exact h)
    · exact h5
  · simp only [if_neg h1]
    by_cases h2 : n.toNat < t.it.conforming
    · simp only [if_pos h2]
      obtain ⟨out, t', e1, e2, e3, e4, e5⟩ := hstep _ (hreset t ht) (n.toNat + 1) r (by omega)
      simp only [hz, Nat.zero_add, Nat.add_sub_cancel] at e3 e4 e5
      refine ⟨out, t', e1, e2, e3, e4, fun h => ?_⟩
      exact absurd (by rw [← e3]; exact h) (hnil n.toNat (by have := hle t ht; omega))
    · simp only [if_neg h2]
      obtain ⟨out, t', e1, e2, e3, e4, e5⟩ := hstep t ht (n.toNat - t.it.conforming + 1) r (by omega)
      have : t.it.conforming + (n.toNat - t.it.conforming + 1 - 1) = n.toNat := by omega
      rw [this] at e3 e4
      exact ⟨out, t', e1, e2, e3, e4, e5⟩

theorem askOne_ok {pts : List Pt} {vs : List VLR} {count : Nat} {R : List Nat} {chunk : Nat} {Inv : Iterator → Prop}
    (hchunk : 0 < chunk) (hstep : StepOK pts vs count R chunk Inv) (hreset : ∀ t, Inv t → Inv { t with it := t.it.reset })
    (hle : ∀ t, Inv t → t.it.conforming ≤ R.length) (hR : R.length ≤ count) (hc : count < 2 ^ 31) {t : Iterator} (ht : Inv t) (r : RPos) {a : Ask}
    (ha : a.InRange count) : ∃ out t', askOne pts vs count t a r = .ok (out, t') ∧ Inv t' ∧ Answers R chunk t.it.conforming a out t'.it.conforming := by
  cases a with
  | goto n =>
    obtain ⟨out, t', e1, e2, e3, e4, e5⟩ := call_ok hchunk hstep hreset hle ht r n
    exact ⟨out, t', e1, e2, ⟨e3, e4, e5⟩⟩
  | move n =>
    obtain ⟨h1, h2⟩ := ha
    have h3 := hle t ht
    obtain ⟨out, t', e1, e2, e3, e4, e5⟩ := call_ok hchunk hstep hreset hle ht r ((t.it.conforming : Int) + if 0 < n then n - 1 else n)
    refine ⟨out, t', ?_, e2, ⟨e3, e4, e5⟩⟩
    rw [← e1]
    show t.call pts vs count r _ = _
    congr 1
    rw [BitVec.toInt_ofInt]
    apply Int.bmod_eq_of_le
    · split <;> omega
    · split <;> omega

theorem askAll_ok {pts : List Pt} {vs : List VLR} {count : Nat} {R : List Nat} {chunk : Nat} {Inv : Iterator → Prop}
    (hchunk : 0 < chunk) (hstep : StepOK pts vs count R chunk Inv) (hreset : ∀ t, Inv t → Inv { t with it := t.it.reset })
    (hle : ∀ t, Inv t → t.it.conforming ≤ R.length) (hR : R.length ≤ count) (hc : count < 2 ^ 31) (as : List (Ask × RPos)) :
    ∀ {t : Iterator}, Inv t → (∀ a ∈ as, a.1.InRange count) →
      ∃ outs, askAll pts vs count t as = .ok outs ∧ AnswersAll R chunk t.it.conforming (as.map Prod.fst) outs := by
  induction as with
  | nil => intro t _ _; exact ⟨[], rfl, .nil _⟩
  | cons a as ih =>
    intro t ht ha
    obtain ⟨a, r⟩ := a
    obtain ⟨out, t', e1, e2, e3⟩ := askOne_ok hchunk hstep hreset hle hR hc ht r (ha (a, r) (by simp))
    obtain ⟨outs, e4, e5⟩ := ih e2 fun a h => ha a (by simp [h])
    refine ⟨out :: outs, ?_, .cons e3 e5⟩
    unfold askAll
    simp only [e1, Outcome.bind, e4]

/-! The records of an index. -/

/-- An index among other records. -/
structure Indexed (pts : List Pt) (vs : List VLR) (count : Nat) (pre : List VLR) (hdr : VLR) (gs : List Grp) (vss : List (List VLR)) (post : List VLR) : Prop where
  vs : vs = pre ++ hdr :: (vss.flatten ++ post)
  pre : ∀ v ∈ pre, Other v
  post : ∀ v ∈ post, Other v
  name : hdr.getUserId false = lit "liblas"
  num : hdr.recordId = 42#16
  holds : List.Forall₂ Holds gs vss
  ready : ∀ g ∈ gs, GReady pts g
  small : pts.length ≤ 2 ^ 31
  count : (gs.map Grp.points).sum ≤ count

theorem allItems_length {pts : List Pt} {w : Window} (gs : List Grp) (h : ∀ g ∈ gs, GReady pts g) : (allItems pts w gs).length = (gs.map Grp.points).sum := by
  unfold allItems
  rw [List.length_flatMap]
  congr 1
  apply List.map_congr_left
  intro g hg
  exact grpItems_length (h g hg)

section
variable {pts : List Pt} {vs : List VLR} {count : Nat} {pre : List VLR} {hdr : VLR} {gs : List Grp} {vss : List (List VLR)} {post : List VLR}

theorem Indexed.rest (h : Indexed pts vs count pre hdr gs vss post) : vs.drop (pre.length + 1) = vss.flatten ++ post := by
  rw [h.vs, show pre ++ hdr :: (vss.flatten ++ post) = (pre ++ [hdr]) ++ (vss.flatten ++ post) by simp]
  rw [show pre.length + 1 = (pre ++ [hdr]).length by simp, List.drop_left]

theorem Indexed.loop (h : Indexed pts vs count pre hdr gs vss post) {i : Nat} (hi : i ≤ pre.length) (f : Filtering) :
    filterLoop pts vs (vs.length - i) i f = (atHeader hdr f).bind fun r =>
      match r with
      | none => .ok (f, pre.length)
      | some f => filterLoop pts vs (vs.length - (pre.length + 1)) (pre.length + 1) f := by
  have hl : vs.length = pre.length + ((vss.flatten ++ post).length + 1) := by rw [h.vs]; simp
  have e1 := loop_pre (pts := pts) (pre := pre) (rest := hdr :: (vss.flatten ++ post)) h.pre f ((vss.flatten ++ post).length + 1) (pre.length - i) (by omega)
  rw [← h.vs] at e1
  rw [show vs.length - i = pre.length - i + ((vss.flatten ++ post).length + 1) by omega]
  rw [show pre.length - (pre.length - i) = i by omega] at e1
  rw [e1, filterLoop]
  have hv : vs[pre.length]? = some hdr := by rw [h.vs]; simp
  have h1 : (hdr.getUserId false == lit "liblas") = true := by simp [h.name]
  have h2 : (hdr.recordId == 42#16) = true := by rw [h.num]; decide
  simp only [hv, h1, h2, if_true]
  rw [show vs.length - (pre.length + 1) = (vss.flatten ++ post).length by omega]
  rfl

/-- What the header does with the window. -/
inductive Header (hdr : VLR) (q : Query) : Option Window → Prop where
  | refused : (∀ w s, w.q = q → atHeader hdr ⟨w, s⟩ = .ok none) → Header hdr q none
  | window (w' : Window) : (∀ w s, w.q = q → atHeader hdr ⟨w, s⟩ = .ok (some ⟨w', s⟩)) → w'.q = q → Header hdr q (some w')

theorem header_cases {q : Query} {i : Info} (hi : loadInfo hdr = .ok (some i)) (hver : 1 < i.major ∨ (i.major = 1 ∧ 2 ≤ i.minor)) {s : Scan} {w : Window} (hw : w.q = q)
    {o : Option Filtering} (ho : atHeader hdr ⟨w, s⟩ = .ok o) : ∃ ow, Header hdr q ow ∧ o = ow.map fun w' => ⟨w', s⟩ := by
  have key : ∀ w s, w.q = q → atHeader hdr ⟨w, s⟩ = (setCellBounds i.grid q).bind fun a => (i.bounds.intersects q.bounds).bind fun meet =>
      if !meet then .ok none else .ok (some ⟨⟨q, a.1, a.2.1, a.2.2⟩, s⟩) := by
    intro w s hw
    unfold atHeader
    rw [hi]
    show (setCellBounds i.grid w.q).bind _ = _
    rw [hw]
    cases setCellBounds i.grid q with
    | throw e => rfl
    | ub => rfl
    | ok a =>
    show (i.bounds.intersects q.bounds).bind _ = _
    cases i.bounds.intersects q.bounds with
    | throw e => rfl
    | ub => rfl
    | ok meet =>
    have hv : (!(decide (1 < i.major) || (decide (i.major = 1) && decide (2 ≤ i.minor)))) = false := by
      rcases hver with h | ⟨h1, h2⟩
      · simp [h]
      · simp [h1, h2]
    simp only [Outcome.bind]
    cases meet with
    | false => rfl
    | true =>
      simp only [Bool.not_true, Bool.false_eq_true, if_false, hv, Bool.and_false]
      rfl
  rw [key w s hw] at ho
  cases h1 : setCellBounds i.grid q with
  | throw e => rw [h1] at ho; simp [Outcome.bind] at ho
  | ub => rw [h1] at ho; simp [Outcome.bind] at ho
  | ok a =>
    cases h2 : i.bounds.intersects q.bounds with
    | throw e => rw [h1, h2] at ho; simp [Outcome.bind] at ho
    | ub => rw [h1, h2] at ho; simp [Outcome.bind] at ho
    | ok meet =>
      rw [h1, h2] at ho
      cases meet with
      | false =>
        refine ⟨none, .refused fun w s hw => ?_, ?_⟩
        · rw [key w s hw, h1, h2]; rfl
        · simp [Outcome.bind] at ho; exact ho.symm
      | true =>
        refine ⟨some ⟨q, a.1, a.2.1, a.2.2⟩, .window _ (fun w s hw => ?_) rfl, ?_⟩
        · rw [key w s hw, h1, h2]; rfl
        · simp [Outcome.bind] at ho; exact ho.symm

/-- The whole result. -/
def whole (pts : List Pt) (gs : List Grp) : Option Window → List Nat
  | none => []
  | some w => accepted (allItems pts w gs)

theorem filter_whole (h : Indexed pts vs count pre hdr gs vss post) {q : Query} {ow : Option Window} (hw : Header hdr q ow) (r : RPos) :
    filter pts vs q r = .ok (whole pts gs ow) := by
  unfold filter
  have e1 := h.loop (Nat.zero_le _) ⟨q.fresh, ⟨[], none, 0, r⟩⟩
  rw [Nat.sub_zero] at e1
  rw [e1]
  cases hw with
  | refused hw => rw [hw _ _ rfl]; rfl
  | window w' hw hq =>
    rw [hw _ _ rfl]
    simp only [Outcome.bind]
    obtain ⟨sc, rd, j, e2⟩ := loop_whole h.small (w := w') h.holds h.post h.ready (vs.length - (pre.length + 1)) (pre.length + 1) ⟨[], none, 0, r⟩ h.rest (by omega) rfl
    rw [e2]
    show Outcome.ok _ = _
    simp [whole]

/-- What holds of an iterator between requests. -/
structure IterInv (pts : List Pt) (pre : List VLR) (q : Query) (chunk : Nat) (gs : List Grp) (vss : List (List VLR)) (ow : Option Window) (t : Iterator) : Prop where
  q : t.w.q = q
  chunk : t.it.chunk = chunk
  place : (t.it.curVLR ≤ pre.length ∧ t.it.total = 0 ∧ t.it.conforming = 0 ∧ t.it.cellStart = 0 ∧ t.it.inCell = 0 ∧ t.it.inVLR = 0) ∨
    ∃ w, ow = some w ∧ t.w = w ∧ t.it.total ≤ (allItems pts w gs).length ∧ t.it.conforming = (accepted ((allItems pts w gs).take t.it.total)).length ∧
      Rep pts w gs vss (pre.length + 1) t.it.total t.it.curVLR t.it

theorem rep_fields {w : Window} {it it' : Iter} (h1 : it'.cellStart = it.cellStart) (h2 : it'.inCell = it.inCell) (h3 : it'.inVLR = it.inVLR) :
    ∀ (gs : List Grp) (vss : List (List VLR)) (i0 k i : Nat), Rep pts w gs vss i0 k i it → Rep pts w gs vss i0 k i it' := by
  intro gs
  induction gs with
  | nil => intro vss i0 k i h; cases vss <;> exact ⟨h.1, h.2.1, by rw [h1]; exact h.2.2.1, by rw [h2]; exact h.2.2.2.1, by rw [h3]; exact h.2.2.2.2⟩
  | cons g gs ih =>
    intro vss i0 k i h
    cases vss with
    | nil => exact ⟨h.1, h.2.1, by rw [h1]; exact h.2.2.1, by rw [h2]; exact h.2.2.2.1, by rw [h3]; exact h.2.2.2.2⟩
    | cons vs vss =>
      rcases h with ⟨a, b⟩ | ⟨a, b⟩
      · refine Or.inl ⟨a, ?_⟩
        cases b with
        | start c1 c2 c3 c4 => exact .start c1 (by rw [h1]; exact c2) (by rw [h2]; exact c3) (by rw [h3]; exact c4)
        | inside p e q c1 c2 c3 c4 c5 c6 => exact .inside p e q c1 c2 (by rw [h1]; exact c3) (by rw [h2]; exact c4) (by rw [h3]; exact c5) (by rw [h2]; exact c6)
      · exact Or.inr ⟨a, ih _ _ _ _ b⟩

theorem IterInv.reset {q : Query} {chunk : Nat} {ow : Option Window} {t : Iterator} (h : IterInv pts pre q chunk gs vss ow t) :
    IterInv pts pre q chunk gs vss ow { t with it := t.it.reset } := ⟨h.q, h.chunk, Or.inl ⟨Nat.zero_le _, rfl, rfl, rfl, rfl, rfl⟩⟩

theorem IterInv.le {q : Query} {chunk : Nat} {ow : Option Window} {t : Iterator} (h : IterInv pts pre q chunk gs vss ow t) :
    t.it.conforming ≤ (whole pts gs ow).length := by
  rcases h.place with ⟨-, -, h1, -⟩ | ⟨w, rfl, -, -, h1, -⟩
  · omega
  · rw [h1]; exact accepted_take_le _ _

theorem iter_step (h : Indexed pts vs count pre hdr gs vss post) {q : Query} {ow : Option Window} (hw : Header hdr q ow) {chunk : Nat} (hchunk : 0 < chunk) :
    StepOK pts vs count (whole pts gs ow) chunk (IterInv pts pre q chunk gs vss ow) := by
  intro t ht a r ha
  -- the points behind the iterator
  have hrest : ∀ w, ow = some w → ∀ k, k ≤ (allItems pts w gs).length → t.it.total = k → t.it.conforming = (accepted ((allItems pts w gs).take k)).length →
      (whole pts gs ow).drop (t.it.conforming + (a - 1)) = (accepted ((allItems pts w gs).drop k)).drop (a - 1) := by
    intro w hw k hk ht hc
    subst hw
    show (accepted (allItems pts w gs)).drop _ = _
    rw [accepted_split _ k, ← List.drop_drop, hc, List.drop_left]
  unfold Iterator.filter
  by_cases hearly : count < a + t.it.total
  · -- too far
    rw [if_pos hearly]
    have hnil : (whole pts gs ow).drop (t.it.conforming + (a - 1)) = [] := by
      rw [List.drop_eq_nil_iff]
      cases ow with
      | none => simp [whole]
      | some w =>
        have hlen := allItems_length (w := w) gs h.ready
        have hcnt := h.count
        have hacc : ∀ l : List (Option Nat), (accepted l).length ≤ l.length := fun l => List.length_filterMap_le _ _
        rcases ht.place with ⟨-, h1, h2, -⟩ | ⟨w', hw', -, h1, h2, -⟩
        · have := hacc (allItems pts w gs)
          show (accepted (allItems pts w gs)).length ≤ _
          omega
        · injection hw' with hw'
          subst hw'
          show (accepted (allItems pts w gs)).length ≤ _
          rw [accepted_split _ t.it.total, List.length_append, ← h2]
          have := hacc ((allItems pts w gs).drop t.it.total)
          rw [List.length_drop] at this
          omega
    refine ⟨[], _, rfl, ⟨ht.q, ht.chunk, ?_⟩, by rw [hnil, List.take_nil], by simp, fun _ => Or.inl rfl⟩
    rcases ht.place with hp | ⟨w, p1, p2, p3, p4, p5⟩
    · exact Or.inl hp
    · exact Or.inr ⟨w, p1, p2, p3, p4, rep_fields (it := t.it) (it' := { t.it with advance := a }) rfl rfl rfl _ _ _ _ _ p5⟩
  · rw [if_neg hearly]
    -- going on from a place in the groups
    have main : ∀ w, ow = some w → ∀ (i : Nat) (it : Iter), it.total ≤ (allItems pts w gs).length → it.total = t.it.total → it.conforming = t.it.conforming →
        it.conforming = (accepted ((allItems pts w gs).take it.total)).length → it.chunk = chunk → it.advance = a →
        Rep pts w gs vss (pre.length + 1) it.total i it → ∃ out it' j sc rd,
          filterLoop pts vs (vs.length - i) i ⟨w, ⟨[], some it, 0, r⟩⟩ = .ok (⟨w, ⟨out, some it', sc, rd⟩⟩, j) ∧
          IterInv pts pre q chunk gs vss ow ⟨w, { it' with curVLR := j }⟩ ∧
          out = ((whole pts gs ow).drop (t.it.conforming + (a - 1))).take chunk ∧
          (out ≠ [] → it'.conforming = t.it.conforming + (a - 1) + out.length) ∧
          (out = [] → it'.conforming = t.it.conforming ∨ it'.conforming = (whole pts gs ow).length) := by
      intro w how i it k1 k2 k3 k4 k5 k6 k7
      have hwq : w.q = q := by
        subst how
        cases hw with
        | window _ _ hq => exact hq
      have hf : (Scan.full ⟨[], some it, 0, r⟩) = false := by unfold Scan.full; simp; omega
      obtain ⟨it', sc, rd, j, p, b1, b2, b3, b4, b5, b6, b7⟩ := loop_piece h.small (w := w) h.holds h.post h.ready (vs.length - i) (pre.length + 1) i it.total
        ⟨[], some it, 0, r⟩ it h.rest (by omega) rfl hf k7
      have hroom : it.chunk - ([] : List Nat).length = chunk := by simp [k5]
      simp only [hroom, k6] at b1
      obtain ⟨f1, f2, f3, f4⟩ := pull_facts ((allItems pts w gs).drop it.total) a chunk hchunk
      have f5 := pull_found ((allItems pts w gs).drop it.total) a chunk hchunk
      rw [← b1] at f1 f2 f3 f4 f5
      rw [List.length_drop] at f2 f4
      have hr := hrest w how it.total k1 k2.symm (by rw [← k3]; exact k4)
      have hconf : it'.conforming = (accepted ((allItems pts w gs).take it'.total)).length := by
        rw [b5, b6, f3, k4, List.take_add, accepted, accepted, accepted, List.filterMap_append, List.length_append]
      refine ⟨p.out, it', j, sc, rd, by rw [b2]; rfl, ⟨hwq, by show it'.chunk = _; rw [b3]; exact k5, Or.inr ⟨w, how, rfl, ?_, hconf, ?_⟩⟩, by rw [f1, hr], ?_, ?_⟩
      · show it'.total ≤ _; omega
      · show Rep _ _ _ _ _ it'.total j _
        rw [b5]
        exact rep_fields (it := it') (it' := { it' with curVLR := j, total := it.total + p.used }) rfl rfl rfl _ _ _ _ _ b7
      · intro hne
        rw [b6, f5 hne, k3]; omega
      · intro hnil
        right
        have hu := f4 (by rw [hnil]; exact hchunk)
        subst how
        rw [hconf, b5, show it.total + p.used = (allItems pts w gs).length by omega, List.take_length]; rfl
    rcases ht.place with ⟨p1, p2, p3, p4, p5, p6⟩ | ⟨w, p1, p2, p3, p4, p5⟩
    · rw [h.loop p1]
      cases ow with
      | none =>
        cases hw with
        | refused hw =>
          rw [hw _ _ ht.q]
          refine ⟨[], _, rfl, ⟨ht.q, ht.chunk, Or.inl ⟨le_refl _, p2, p3, p4, p5, p6⟩⟩, by simp [whole], by simp, fun _ => Or.inl rfl⟩
      | some w =>
        cases hw with
        | window w' hw hq =>
          rw [hw _ _ ht.q]
          simp only [Outcome.bind]
          obtain ⟨out, it', j, sc, rd, m1, m2, m3, m4, m5⟩ := main w rfl (pre.length + 1) { t.it with advance := a } (by show t.it.total ≤ _; omega) rfl rfl
            (by show t.it.conforming = (accepted (List.take t.it.total _)).length; rw [p2, p3]; rfl) ht.chunk rfl
            (by show Rep _ _ _ _ _ t.it.total _ _; rw [p2]; exact rep_start _ _ p4 p5 p6)
          rw [m1]
          exact ⟨out, _, rfl, m2, m3, m4, m5⟩
    · obtain ⟨out, it', j, sc, rd, m1, m2, m3, m4, m5⟩ := main w p1 t.it.curVLR { t.it with advance := a } p3 rfl rfl p4 ht.chunk rfl
        (rep_fields (it := t.it) (it' := { t.it with advance := a }) rfl rfl rfl _ _ _ _ _ p5)
      rw [p2]
      simp only [m1, Outcome.bind]
      exact ⟨out, _, rfl, m2, m3, m4, m5⟩

theorem IterInv.new {q : Query} {chunk : Nat} {ow : Option Window} : IterInv pts pre q chunk gs vss ow (Iterator.new q chunk) :=
  ⟨rfl, rfl, Or.inl ⟨Nat.zero_le _, rfl, rfl, rfl, rfl, rfl⟩⟩

/-- Requests to a new iterator. -/
theorem requests (h : Indexed pts vs count pre hdr gs vss post) {q : Query} {ow : Option Window} (hw : Header hdr q ow) {chunk : Nat} (hchunk : 0 < chunk)
    (hc : count < 2 ^ 31) (as : List (Ask × RPos)) (ha : ∀ a ∈ as, a.1.InRange count) :
    ∃ outs, askAll pts vs count (Iterator.new q chunk) as = .ok outs ∧ AnswersAll (whole pts gs ow) chunk 0 (as.map Prod.fst) outs := by
  refine askAll_ok hchunk (iter_step h hw hchunk) (fun t ht => ht.reset) (fun t ht => ht.le) ?_ hc as IterInv.new ha
  cases ow with
  | none => simp [whole]
  | some w =>
    have h1 := allItems_length (w := w) gs h.ready
    have h2 : (accepted (allItems pts w gs)).length ≤ (allItems pts w gs).length := List.length_filterMap_le _ _
    have h3 := h.count
    show (accepted (allItems pts w gs)).length ≤ _
    omega

end

end LibLAS.Index
