import Verif.Lemmas.IndexScan
/-
A query over the records of an index, at once or in pieces.
-/
namespace LibLAS.Index
open Spec

/-- The number of points met in a cell. -/
def cellCount (c : Cell) : Nat :=
  if c.zCells ≠ [] then (c.zCells.map fun s => (s.2.map fun e => e.2).sum).sum
  else if c.subCells ≠ [] then (c.subCells.map fun s => (s.2.map fun e => e.2).sum).sum
  else (c.pts.map fun e => e.2).sum

theorem partItems_length (pts : List Pt) (w : Window) (x y : Nat) (p : Place) (r : Runs) :
    (partItems pts w x y p r).length = (r.map fun e => e.2).sum := by
  unfold partItems
  rw [List.length_flatMap]
  congr 1
  apply List.map_congr_left
  intro e _
  split <;> simp [runItems]

theorem subItems_length (pts : List Pt) (w : Window) (x y : Nat) (p : Nat → Place) (m : List (Nat × Runs)) :
    (subItems pts w x y p m).length = (m.map fun s => (s.2.map fun e => e.2).sum).sum := by
  unfold subItems
  rw [List.length_flatMap]
  congr 1
  apply List.map_congr_left
  intro e _
  exact partItems_length _ _ _ _ _ _

theorem cellItems_length (pts : List Pt) (w : Window) (e : (Nat × Nat) × Cell) : (cellItems pts w e).length = cellCount e.2 := by
  unfold cellItems cellCount
  split
  · exact subItems_length _ _ _ _ _ _
  · split
    · exact subItems_length _ _ _ _ _ _
    · exact partItems_length _ _ _ _ _ _

/-- What a query needs to know of a group. -/
structure GReady (pts : List Pt) (g : Grp) : Prop where
  fits : GrpFits g
  inn : ∀ e ∈ g.cells, CellIn pts.length e.2
  counts : ∀ e ∈ g.cells, cellCount e.2 = e.2.numPoints
  few : g.points < 2 ^ 32
  ne : g.cells ≠ []

/-- The group is looked at. -/
def vlrOf (w : Window) (g : Grp) : Bool := w.vlr (i32 g.first.1) (i32 g.first.2) (i32 g.last.1) (i32 g.last.2)

def grpItems (pts : List Pt) (w : Window) (g : Grp) : List (Option Nat) :=
  if vlrOf w g = true then g.cells.flatMap (cellItems pts w) else List.replicate g.points none

theorem cellsItems_length {pts : List Pt} {w : Window} (cs : List ((Nat × Nat) × Cell)) (h : ∀ e ∈ cs, cellCount e.2 = e.2.numPoints) :
    (cs.flatMap (cellItems pts w)).length = (cs.map fun e => e.2.numPoints).sum := by
  rw [List.length_flatMap]
  congr 1
  apply List.map_congr_left
  intro e he
  rw [cellItems_length, h e he]

theorem grpItems_length {pts : List Pt} {w : Window} {g : Grp} (h : GReady pts g) : (grpItems pts w g).length = g.points := by
  unfold grpItems
  split
  · exact cellsItems_length _ h.counts
  · simp

/-- The group as read. -/
def Grp.read (g : Grp) (pad : List Byte) (n : Nat) : Gathered :=
  ⟨g.first.1, g.first.2, g.last.1, g.last.2, g.size, g.points % 2 ^ 32, g.bytes ++ pad, n⟩

/-- The iterator stands `m` points into the group. -/
inductive At (pts : List Pt) (w : Window) (g : Grp) (m : Nat) (it : Iter) : Prop where
  | start : m = 0 → it.cellStart = 0 → it.inCell = 0 → it.inVLR = 0 → At pts w g m it
  | inside (pre : List ((Nat × Nat) × Cell)) (e : (Nat × Nat) × Cell) (post : List ((Nat × Nat) × Cell)) : vlrOf w g = true → g.cells = pre ++ e :: post →
      it.cellStart = 24 + (bodyBytes pre).length → it.inCell ≤ (cellItems pts w e).length → it.inVLR = m →
      (pre.flatMap (cellItems pts w)).length + it.inCell = m → At pts w g m it

theorem pull_nones (adv room n : Nat) : pull adv room (List.replicate n none) = ⟨[], n, 0, adv⟩ := by
  induction n with
  | zero => rfl
  | succ n ih => rw [List.replicate_succ, pull_none, ih]

/-- A group without an iterator. -/
theorem filterGathered_whole {pts : List Pt} (hp : pts.length ≤ 2 ^ 31) {w : Window} {g : Grp} (hg : GReady pts g) (pad : List Byte) (n : Nat) (s : Scan)
    (h : s.it = none) : ∃ sc rd b, filterGathered pts w (g.read pad n) s = .ok (⟨s.result ++ accepted (grpItems pts w g), none, sc, rd⟩, true, b) := by
  unfold filterGathered grpItems
  by_cases hv : vlrOf w g = true
  · have hv' : w.vlr (i32 (g.read pad n).minX) (i32 (g.read pad n).minY) (i32 (g.read pad n).maxX) (i32 (g.read pad n).maxY) = true := hv
    simp only [if_pos hv', if_pos hv, h]
    have hw := walk_group (filterVisitor pts w 0) hg.fits pad ({ result := s.result, it := none, scanned := 0, rd := s.rd } : Scan)
    obtain ⟨q, hq⟩ := foldCells_eat (w := w) (ignore := 0) hp g.cells 24 ({ result := s.result, it := none, scanned := 0, rd := s.rd } : Scan) rfl hg.inn
    rw [hq, eatCells_whole _ _ _ rfl] at hw
    show ∃ sc rd b, (walkCells (filterVisitor pts w 0) (g.bytes ++ pad) g.size (g.size + 1) _ 24).bind _ = _
    rw [hw]
    simp only [Outcome.bind, if_true, Scan.close, Scan.at]
    exact ⟨_, _, _, rfl⟩
  · have hv' : ¬ w.vlr (i32 (g.read pad n).minX) (i32 (g.read pad n).minY) (i32 (g.read pad n).maxX) (i32 (g.read pad n).maxY) = true := hv
    simp only [if_neg hv', if_neg hv, h]
    exact ⟨0, s.rd, false, by simp [accepted]⟩

/-- A group with an iterator. -/
theorem filterGathered_piece {pts : List Pt} (hp : pts.length ≤ 2 ^ 31) {w : Window} {g : Grp} (hg : GReady pts g) (pad : List Byte) (n m : Nat)
    (s : Scan) (it : Iter) (h : s.it = some it) (hf : s.full = false) (hat : At pts w g m it) :
    ∃ it' sc rd p, p = pull it.advance (it.chunk - s.result.length) ((grpItems pts w g).drop m) ∧
      filterGathered pts w (g.read pad n) s = .ok (⟨s.result ++ p.out, some it', sc, rd⟩, true, decide (m + p.used = g.points)) ∧
      it'.chunk = it.chunk ∧ it'.advance = p.adv ∧ it'.total = it.total + p.used ∧ it'.conforming = it.conforming + p.found ∧
      (m + p.used = g.points ∨ At pts w g (m + p.used) it') := by
  unfold filterGathered
  have hlen := grpItems_length (w := w) hg
  by_cases hv : vlrOf w g = true
  · have hv' : w.vlr (i32 (g.read pad n).minX) (i32 (g.read pad n).minY) (i32 (g.read pad n).maxX) (i32 (g.read pad n).maxY) = true := hv
    have hitems : grpItems pts w g = g.cells.flatMap (cellItems pts w) := if_pos hv
    have hroom : s.result.length < it.chunk := by
      unfold Scan.full at hf; rw [h] at hf; simpa using hf
    have hin : ∃ pre e post, g.cells = pre ++ e :: post ∧
        (if 24 ≤ it.cellStart then (it.cellStart, it.inCell, it.inVLR) else (24, 0, 0)) = (24 + (bodyBytes pre).length, m - (pre.flatMap (cellItems pts w)).length, m) ∧
        m - (pre.flatMap (cellItems pts w)).length ≤ (cellItems pts w e).length ∧ (pre.flatMap (cellItems pts w)).length ≤ m := by
      cases hat with
      | start h0 h1 h2 h3 =>
        obtain ⟨e, post, he⟩ := List.exists_cons_of_ne_nil hg.ne
        refine ⟨[], e, post, he, ?_, by simp [h0], by simp⟩
        rw [if_neg (by omega)]
        simp [bodyBytes, h0]
      | inside pre e post _ h1 h2 h3 h4 h5 =>
        refine ⟨pre, e, post, h1, ?_, by omega, by omega⟩
        rw [if_pos (by omega), h2, h4]
        simp only [Prod.mk.injEq, and_true, true_and]; omega
    obtain ⟨pre, e, post, c1, c2, c3, c4⟩ := hin
    set k := m - (pre.flatMap (cellItems pts w)).length with hk
    simp only [if_pos hv', h, c2]
    have hbody : g.body = bodyBytes pre ++ bodyBytes (e :: post) := by
      unfold Grp.body bodyBytes; rw [c1]; simp
    have hw : walkCells (filterVisitor pts w k) (g.bytes ++ pad) g.size (g.size + 1) ({ result := s.result, it := some it, scanned := 0, rd := s.rd } : Scan)
        (24 + (bodyBytes pre).length) = .ok (foldCells (filterVisitor pts w k) (24 + (bodyBytes pre).length) (e :: post)
          ({ result := s.result, it := some it, scanned := 0, rd := s.rd } : Scan), true) := by
      refine walkCells_ok (e :: post) (a := Grp.frame g.first g.last g.size (g.points % 2 ^ 32) ++ bodyBytes pre) (c := pad) _ ?_ ?_ ?_ ?_ ?_
      · intro e' he'; exact hg.fits.cells e' (by rw [c1]; exact List.mem_append_right _ he')
      · unfold Grp.bytes; rw [hbody]; simp
      · rw [List.length_append, Grp.frame_length]
      · show 24 + g.body.length = _; rw [hbody, List.length_append]; omega
      · show _ < 24 + g.body.length + 1; rw [hbody, List.length_append]; omega
    have hsf : ({ result := s.result, it := some it, scanned := 0, rd := s.rd } : Scan).full = false := by
      unfold Scan.full; simp; omega
    obtain ⟨q, hq⟩ := foldCells_eat (w := w) (ignore := k) hp (e :: post) (24 + (bodyBytes pre).length)
      ({ result := s.result, it := some it, scanned := 0, rd := s.rd } : Scan) hsf fun e' he' => hg.inn e' (by rw [c1]; exact List.mem_append_right _ he')
    obtain ⟨p, pre2, e2, post2, start, inCell, g1, g2, g3, g4, g5, g6⟩ := eatCells_pull (pts := pts) (w := w) (ignore := k) (e :: post) (24 + (bodyBytes pre).length)
      ({ result := s.result, it := some it, scanned := 0, rd := s.rd } : Scan) it e post rfl rfl hsf (by simpa using c3)
    rw [hq, g2] at hw
    simp only [Nat.sub_zero] at g1 g6 hw
    have hdrop : (grpItems pts w g).drop m = ((e :: post).flatMap (cellItems pts w)).drop k := by
      have hm : m = (pre.flatMap (cellItems pts w)).length + k := by omega
      rw [hitems, c1, List.flatMap_append, hm, ← List.drop_drop, List.drop_left]
    have hle : p.used ≤ g.points - m := by
      have := (pull_facts (((e :: post).flatMap (cellItems pts w)).drop k) it.advance (it.chunk - s.result.length) (by omega)).2.1
      rw [← g1, ← hdrop, List.length_drop, hlen] at this
      exact this
    have hmle : m ≤ g.points := by
      rw [← hlen, hitems, c1, List.flatMap_append, List.length_append, List.flatMap_cons, List.length_append]; omega
    refine ⟨{ it with
        cellStart := start
        inCell := inCell
        conforming := it.conforming + p.found
        advance := p.adv
        total := it.total + p.used
        inVLR := m + p.used }, k + p.used, q, p, by rw [hdrop]; exact g1, ?_⟩
    · show (walkCells (filterVisitor pts w k) (g.bytes ++ pad) g.size (g.size + 1) _ (24 + (bodyBytes pre).length)).bind _ = _ ∧ _
      rw [hw]
      simp only [Outcome.bind, if_true, Scan.close, Scan.at, Nat.zero_add]
      rw [if_pos (by omega)]
      have hsub : k + p.used - k = p.used := by omega
      simp only [Option.map_some, Outcome.ok.injEq, Prod.mk.injEq, true_and, hsub]
      refine ⟨?_, ?_⟩
      · show decide (g.points % 2 ^ 32 ≤ m + p.used) = _
        rw [Nat.mod_eq_of_lt hg.few]
        rw [decide_eq_decide]; omega
      · right
        refine .inside (pre ++ pre2) e2 post2 hv (by rw [c1, g3]; simp) ?_ g5 rfl ?_
        · show start = _; rw [g4]; simp [bodyBytes]; omega
        · show ((pre ++ pre2).flatMap _).length + inCell = _
          rw [List.flatMap_append, List.length_append]; omega
  · have hv' : ¬ w.vlr (i32 (g.read pad n).minX) (i32 (g.read pad n).minY) (i32 (g.read pad n).maxX) (i32 (g.read pad n).maxY) = true := hv
    have h0 : m = 0 := by
      cases hat with
      | start h _ _ _ => exact h
      | inside _ _ _ h => exact absurd h hv
    subst h0
    simp only [if_neg hv', h]
    refine ⟨{ it with total := it.total + g.points }, 0, s.rd, _, rfl, ?_⟩
    unfold grpItems
    rw [if_neg hv, List.drop_zero, pull_nones]
    refine ⟨?_, rfl, rfl, rfl, rfl, Or.inl (by simp)⟩
    show Outcome.ok _ = Outcome.ok _
    simp only [Grp.read, Nat.mod_eq_of_lt hg.few]
    simp

/-- A record that is not one of the index. -/
def Other (v : VLR) : Prop := ¬ (v.getUserId false = lit "liblas" ∧ (v.recordId = 42#16 ∨ v.recordId = 43#16))

theorem loop_other {pts : List Pt} {vs : List VLR} {i : Nat} {v : VLR} (hi : vs[i]? = some v) (ho : Other v) (fuel : Nat) (f : Filtering) :
    filterLoop pts vs (fuel + 1) i f = filterLoop pts vs fuel (i + 1) f := by
  rw [filterLoop]
  simp only [hi]
  unfold Other at ho
  by_cases h1 : v.getUserId false = lit "liblas"
  · have h2 : ¬ v.recordId = 42#16 := fun h => ho ⟨h1, Or.inl h⟩
    have h3 : ¬ v.recordId = 43#16 := fun h => ho ⟨h1, Or.inr h⟩
    simp [h1, h2, h3]
  · simp [h1]

theorem loop_others {pts : List Pt} {vs : List VLR} (f : Filtering) : ∀ (fuel i : Nat), (∀ v ∈ vs.drop i, Other v) →
    ∃ j, i ≤ j ∧ filterLoop pts vs fuel i f = .ok (f, j) := by
  intro fuel
  induction fuel with
  | zero => intro i _; exact ⟨i, le_refl _, rfl⟩
  | succ fuel ih =>
    intro i h
    cases hv : vs[i]? with
    | none => exact ⟨i, le_refl _, by rw [filterLoop]; simp only [hv]⟩
    | some v =>
      have hd := List.drop_eq_getElem_cons (List.getElem?_eq_some_iff.1 hv).1
      have hm : v ∈ vs.drop i := by rw [hd, (List.getElem?_eq_some_iff.1 hv).2]; simp
      obtain ⟨j, j1, j2⟩ := ih (i + 1) fun u hu => h u (by rw [hd]; exact List.mem_cons_of_mem _ hu)
      exact ⟨j, by omega, by rw [loop_other hv (h v hm)]; exact j2⟩

theorem loop_pre {pts : List Pt} {pre rest : List VLR} (h : ∀ v ∈ pre, Other v) (f : Filtering) (k : Nat) : ∀ (j : Nat), j ≤ pre.length →
    filterLoop pts (pre ++ rest) (j + k) (pre.length - j) f = filterLoop pts (pre ++ rest) k pre.length f := by
  intro j
  induction j with
  | zero => intro _; rw [Nat.zero_add, Nat.sub_zero]
  | succ j ih =>
    intro hj
    have hv : (pre ++ rest)[pre.length - (j + 1)]? = some pre[pre.length - (j + 1)] := by
      rw [List.getElem?_append_left (by omega)]; exact List.getElem?_eq_getElem _
    rw [show j + 1 + k = j + k + 1 by omega, loop_other hv (h _ (List.getElem_mem _)), show pre.length - (j + 1) + 1 = pre.length - j by omega]
    exact ih (by omega)

theorem Plain.name {v : VLR} (h : Plain v) : v.getUserId false = lit "liblas" := by
  unfold VLR.getUserId
  rw [h.1]; decide

/-- A data record is met. -/
theorem loop_data {pts : List Pt} {vs rs more : List VLR} {i : Nat} {v : VLR} {g : Gathered} (hd : vs.drop i = v :: rs ++ more) (hn : v.getUserId false = lit "liblas")
    (hr : v.recordId = 43#16) (hg : gather v (rs ++ more) = .ok (some g)) (fuel : Nat) (f : Filtering) :
    filterLoop pts vs (fuel + 1) i f = (filterGathered pts f.w g f.s).bind fun r =>
      if r.2.1 then
        match afterVLR r.1 r.2.2 i (i + g.used - 1) with
        | (s, i, true) => .ok ({ f with s := s }, i)
        | (s, i, false) => filterLoop pts vs fuel i { f with s := s }
      else .ok ({ f with s := r.1 }, i + g.used - 1) := by
  have hv : vs[i]? = some v := by
    have : (vs.drop i)[0]? = some v := by rw [hd]; rfl
    simpa using this
  have hd1 : vs.drop (i + 1) = rs ++ more := by
    rw [← List.drop_drop, hd]; rfl
  rw [filterLoop]
  simp only [hv]
  have h1 : (v.getUserId false == lit "liblas") = true := by simp [hn]
  have h2 : (v.recordId == 42#16) = false := by rw [hr]; decide
  have h3 : (v.recordId == 43#16) = true := by rw [hr]; decide
  simp only [h1, h2, h3, if_true, Bool.false_eq_true, if_false, hd1, hg, Outcome.bind]
  rfl

/-- All items of the groups. -/
def allItems (pts : List Pt) (w : Window) (gs : List Grp) : List (Option Nat) := gs.flatMap (grpItems pts w)

/-- The groups without an iterator. -/
theorem loop_whole {pts : List Pt} (hp : pts.length ≤ 2 ^ 31) {w : Window} {vs post : List VLR} {gs : List Grp} {vss : List (List VLR)}
    (h : List.Forall₂ Holds gs vss) (hpost : ∀ v ∈ post, Other v) (hg : ∀ g ∈ gs, GReady pts g) :
    ∀ (fuel i : Nat) (s : Scan), vs.drop i = vss.flatten ++ post → vs.length ≤ i + fuel → s.it = none →
      ∃ sc rd j, filterLoop pts vs fuel i ⟨w, s⟩ = .ok (⟨w, ⟨s.result ++ accepted (allItems pts w gs), none, sc, rd⟩⟩, j) := by
  induction h with
  | nil =>
    intro fuel i s hd _ hs
    obtain ⟨j, -, j2⟩ := loop_others (pts := pts) ⟨w, s⟩ fuel i (by rw [hd]; simpa using hpost)
    refine ⟨s.scanned, s.rd, j, ?_⟩
    rw [j2]
    cases s
    simp only at hs
    subst hs
    simp [allItems, accepted]
  | cons hh hr ih =>
    rename_i g vs1 gs vss
    intro fuel i s hd hfu hs
    obtain ⟨v, rs, pad, rfl, e1⟩ := gather_ok hh (hg g (by simp)).fits (vss.flatten ++ post)
    have hlen : 0 < (vs.drop i).length := by rw [hd]; simp
    rw [List.length_drop] at hlen
    obtain ⟨fuel, rfl⟩ : ∃ k, fuel = k + 1 := ⟨fuel - 1, by omega⟩
    have hpl := hh.plain v (by simp)
    rw [loop_data (rs := rs) (more := vss.flatten ++ post) (by rw [hd]; simp) hpl.name hpl.2.1 e1]
    obtain ⟨sc, rd, b, k1⟩ := filterGathered_whole hp (w := w) (hg g (by simp)) pad (v :: rs).length s hs
    unfold Grp.read at k1
    simp only [k1, Outcome.bind, if_true, afterVLR]
    have hd2 : vs.drop (i + (v :: rs).length - 1 + 1) = vss.flatten ++ post := by
      rw [show i + (v :: rs).length - 1 + 1 = i + (v :: rs).length by simp only [List.length_cons]; omega, ← List.drop_drop, hd, List.flatten_cons, List.append_assoc, List.drop_left]
    obtain ⟨sc2, rd2, j, k2⟩ := ih (fun g hg' => hg g (by simp [hg'])) fuel (i + (v :: rs).length - 1 + 1) ⟨s.result ++ accepted (grpItems pts w g), none, sc, rd⟩
      hd2 (by simp; omega) rfl
    refine ⟨sc2, rd2, j, ?_⟩
    rw [k2]
    simp [allItems, accepted]

/-- The iterator stands at record `i`, `k` points behind the start of the groups, the first of which is at record `i0`. -/
def Rep (pts : List Pt) (w : Window) : List Grp → List (List VLR) → Nat → Nat → Nat → Iter → Prop
  | g :: gs, vs :: vss, i0, k, i, it => (i = i0 ∧ At pts w g k it) ∨ (g.points ≤ k ∧ Rep pts w gs vss (i0 + vs.length) (k - g.points) i it)
  | _, _, i0, k, i, it => k = 0 ∧ i0 ≤ i ∧ it.cellStart = 0 ∧ it.inCell = 0 ∧ it.inVLR = 0

theorem rep_start {pts : List Pt} {w : Window} (gs : List Grp) (vss : List (List VLR)) {i : Nat} {it : Iter} (h1 : it.cellStart = 0) (h2 : it.inCell = 0)
    (h3 : it.inVLR = 0) : Rep pts w gs vss i 0 i it := by
  cases gs with
  | nil => cases vss <;> exact ⟨rfl, le_refl _, h1, h2, h3⟩
  | cons g gs =>
    cases vss with
    | nil => exact ⟨rfl, le_refl _, h1, h2, h3⟩
    | cons vs vss => exact Or.inl ⟨rfl, .start rfl h1 h2 h3⟩

/-- The groups with an iterator. -/
theorem loop_piece {pts : List Pt} (hp : pts.length ≤ 2 ^ 31) {w : Window} {vs post : List VLR} {gs : List Grp} {vss : List (List VLR)}
    (h : List.Forall₂ Holds gs vss) (hpost : ∀ v ∈ post, Other v) (hg : ∀ g ∈ gs, GReady pts g) :
    ∀ (fuel i0 i k : Nat) (s : Scan) (it : Iter), vs.drop i0 = vss.flatten ++ post → vs.length ≤ i + fuel → s.it = some it → s.full = false →
      Rep pts w gs vss i0 k i it →
      ∃ it' sc rd j p, p = pull it.advance (it.chunk - s.result.length) ((allItems pts w gs).drop k) ∧
        filterLoop pts vs fuel i ⟨w, s⟩ = .ok (⟨w, ⟨s.result ++ p.out, some it', sc, rd⟩⟩, j) ∧
        it'.chunk = it.chunk ∧ it'.advance = p.adv ∧ it'.total = it.total + p.used ∧ it'.conforming = it.conforming + p.found ∧
        Rep pts w gs vss i0 (k + p.used) j it' := by
  induction h with
  | nil =>
    intro fuel i0 i k s it hd _ hs hf hrep
    obtain ⟨r1, r2, r3, r4, r5⟩ := hrep
    have hd' : ∀ v ∈ vs.drop i, Other v := by
      intro v hv
      have : vs.drop i = (vs.drop i0).drop (i - i0) := by rw [List.drop_drop]; congr 1; omega
      rw [this, hd] at hv
      exact hpost v (by simpa using List.mem_of_mem_drop hv)
    obtain ⟨j, j1, j2⟩ := loop_others (pts := pts) ⟨w, s⟩ fuel i hd'
    refine ⟨it, s.scanned, s.rd, j, _, rfl, ?_, rfl, ?_, ?_, ?_, ?_⟩
    · rw [j2]
      cases s
      simp only at hs
      subst hs
      simp [allItems, pull]
    · simp [allItems, pull]
    · simp [allItems, pull]
    · simp [allItems, pull]
    · simp [allItems, pull]
      exact ⟨r1, by omega, r3, r4, r5⟩
  | cons hh hr ih =>
    rename_i g vs1 gs vss
    intro fuel i0 i k s it hd hfu hs hf hrep
    have hd1 : vs.drop (i0 + vs1.length) = vss.flatten ++ post := by
      rw [← List.drop_drop, hd, List.flatten_cons, List.append_assoc, List.drop_left]
    have hgl := grpItems_length (w := w) (hg g (by simp))
    rcases hrep with ⟨rfl, hat⟩ | ⟨r1, r2⟩
    swap
    · obtain ⟨it', sc, rd, j, p, a1, a2, a3, a4, a5, a6, a7⟩ := ih (fun g hg' => hg g (by simp [hg'])) fuel (i0 + vs1.length) i (k - g.points) s it hd1 hfu hs hf r2
      refine ⟨it', sc, rd, j, p, ?_, a2, a3, a4, a5, a6, Or.inr ⟨by omega, ?_⟩⟩
      · rw [a1]
        congr 1
        show _ = (grpItems pts w g ++ allItems pts w gs).drop k
        rw [show k = (grpItems pts w g).length + (k - g.points) by omega, ← List.drop_drop, List.drop_left]
        congr 1
        omega
      · rw [show k + p.used - g.points = k - g.points + p.used by omega]; exact a7
    · have hroom : s.result.length < it.chunk := by
        unfold Scan.full at hf; rw [hs] at hf; simpa using hf
      obtain ⟨v, rs, pad, rfl, e1⟩ := gather_ok hh (hg g (by simp)).fits (vss.flatten ++ post)
      have hlen : 0 < (vs.drop i).length := by rw [hd]; simp
      rw [List.length_drop] at hlen
      obtain ⟨fuel, rfl⟩ : ∃ k, fuel = k + 1 := ⟨fuel - 1, by omega⟩
      have hpl := hh.plain v (by simp)
      rw [loop_data (rs := rs) (more := vss.flatten ++ post) (by rw [hd]; simp) hpl.name hpl.2.1 e1]
      obtain ⟨it1, sc1, rd1, p, b1, b2, b3, b4, b5, b6, b7⟩ := filterGathered_piece hp (hg g (by simp)) pad (v :: rs).length k s it hs hf hat
      unfold Grp.read at b2
      simp only [b2, Outcome.bind, if_true]
      have hkle : k ≤ g.points := by
        cases hat with
        | start h _ _ _ => omega
        | inside pre e post h1 h2 h3 h4 h5 h6 =>
          have hitems : grpItems pts w g = g.cells.flatMap (cellItems pts w) := if_pos h1
          rw [← hgl, hitems, h2, List.flatMap_append, List.length_append, List.flatMap_cons, List.length_append]; omega
      have hpl2 := pull_length (adv := it.advance) (room := it.chunk - s.result.length) (by omega) ((grpItems pts w g).drop k)
      obtain ⟨-, f2, -, f4⟩ := pull_facts ((grpItems pts w g).drop k) it.advance (it.chunk - s.result.length) (by omega)
      rw [← b1] at hpl2 f2 f4
      rw [List.length_drop, hgl] at f2 f4
      have hall : (allItems pts w (g :: gs)).drop k = (grpItems pts w g).drop k ++ allItems pts w gs := by
        show (grpItems pts w g ++ allItems pts w gs).drop k = _
        rw [List.drop_append_of_le_length (by omega)]
      rw [hall, pull_append _ _ _ _ (by omega), ← b1]
      have hi : i + (v :: rs).length - 1 + 1 = i + (v :: rs).length := by simp only [List.length_cons]; omega
      unfold afterVLR
      simp only [hi]
      by_cases hdone : k + p.used = g.points
      · simp only [decide_eq_true hdone, if_true]
        by_cases hfull : p.out.length = it.chunk - s.result.length
        · have hfu2 : (Scan.full ⟨s.result ++ p.out, some { it1 with cellStart := 0, inCell := 0, inVLR := 0 }, sc1, rd1⟩) = true := by
            unfold Scan.full; simp [b3]; omega
          simp only [hfu2, if_true, if_pos hfull]
          refine ⟨_, _, _, _, p, rfl, rfl, b3, b4, b5, b6, Or.inr ⟨by omega, ?_⟩⟩
          rw [show k + p.used - g.points = 0 by omega]
          exact rep_start _ _ rfl rfl rfl
        · have hfu2 : (Scan.full ⟨s.result ++ p.out, some { it1 with cellStart := 0, inCell := 0, inVLR := 0 }, sc1, rd1⟩) = false := by
            unfold Scan.full; simp [b3]; omega
          simp only [hfu2, Bool.false_eq_true, if_false, if_neg hfull]
          obtain ⟨it', sc, rd, j, q, a1, a2, a3, a4, a5, a6, a7⟩ := ih (fun g hg' => hg g (by simp [hg'])) fuel (i + (v :: rs).length) (i + (v :: rs).length) 0 _ _ hd1
            (by simp; omega) rfl hfu2 (rep_start _ _ rfl rfl rfl)
          have hq : q = pull p.adv (it.chunk - s.result.length - p.out.length) (allItems pts w gs) := by
            rw [a1, List.drop_zero]
            show pull it1.advance (it1.chunk - (s.result ++ p.out).length) _ = _
            rw [b4, b3, List.length_append]
            congr 1
            omega
          rw [← hq]
          refine ⟨it', sc, rd, j, _, rfl, ?_, ?_, a4, ?_, ?_, Or.inr ⟨by simp only; omega, ?_⟩⟩
          · rw [a2]; simp
          · rw [a3]; exact b3
          · rw [a5]; simp only [b5]; omega
          · rw [a6]; simp only [b6]; omega
          · rw [Nat.zero_add] at a7
            rw [show k + (p.used + q.used) - g.points = q.used by omega]; exact a7
      · have hfull : p.out.length = it.chunk - s.result.length := by
          by_contra hc
          have := f4 (by omega)
          omega
        have hfu2 : (Scan.full ⟨s.result ++ p.out, some it1, sc1, rd1⟩) = true := by
          unfold Scan.full; simp [b3]; omega
        simp only [decide_eq_false hdone, Bool.false_eq_true, if_false, hfu2, if_true, if_pos hfull]
        exact ⟨it1, sc1, rd1, i, p, rfl, rfl, b3, b4, b5, b6, Or.inl ⟨rfl, b7.resolve_left hdone⟩⟩

end LibLAS.Index
