import Verif.Lemmas.IndexItems
/-
A query over the cells of a group.
-/
namespace LibLAS.Index
open Spec

/-- The part of a cell is looked at. -/
def placeOK (w : Window) (x y : Nat) (p : Place) : Bool :=
  match p with
  | .main => w.cell (i32 x) (i32 y)
  | .z k => w.cell (i32 x) (i32 y) && w.zCell (i32 k)
  | .sub k => w.cell (i32 x) (i32 y) && w.subCell k (i32 x) (i32 y)

/-- The z number with which points of a part are tested. -/
def placeZ : Place → Nat
  | .z k => k
  | _ => 0

def partItems (pts : List Pt) (w : Window) (x y : Nat) (p : Place) (r : Runs) : List (Option Nat) :=
  r.flatMap fun e => if placeOK w x y p = true then runItems pts w (i32 x) (i32 y) (i32 (placeZ p)) e.1 e.2 else List.replicate e.2 none

def subItems (pts : List Pt) (w : Window) (x y : Nat) (p : Nat → Place) (m : List (Nat × Runs)) : List (Option Nat) :=
  m.flatMap fun s => partItems pts w x y (p s.1) s.2

def cellItems (pts : List Pt) (w : Window) (e : (Nat × Nat) × Cell) : List (Option Nat) :=
  if e.2.zCells ≠ [] then subItems pts w e.1.1 e.1.2 .z e.2.zCells
  else if e.2.subCells ≠ [] then subItems pts w e.1.1 e.1.2 .sub e.2.subCells
  else partItems pts w e.1.1 e.1.2 .main e.2.pts

/-- The runs refer to points there are. -/
def RunsIn (n : Nat) (r : Runs) : Prop := ∀ e ∈ r, e.1 + e.2 ≤ n
def CellIn (n : Nat) (c : Cell) : Prop := RunsIn n c.pts ∧ (∀ s ∈ c.zCells, RunsIn n s.2) ∧ ∀ s ∈ c.subCells, RunsIn n s.2

theorem count_count (s : Scan) (a b : Nat) : (s.count a).count b = s.count (a + b) := by
  unfold Scan.count
  cases s.it with
  | none => simp [Nat.add_assoc]
  | some it => simp [Nat.add_assoc]

theorem count_zero (s : Scan) : s.count 0 = s := by
  unfold Scan.count
  cases s with
  | mk result it scanned rd => cases it <;> rfl

theorem full_count (s : Scan) (n : Nat) : (s.count n).full = s.full := by
  unfold Scan.full Scan.count
  cases s.it <;> rfl

theorem eat_none (ignore n : Nat) : ∀ s, eat ignore (List.replicate n none) s = s.count n := by
  induction n with
  | zero => intro s; exact (count_zero s).symm
  | succ n ih =>
    intro s
    rw [List.replicate_succ]
    unfold eat
    simp only [ih, count_count, Nat.add_comm n 1, ite_self]

theorem take_full {s : Scan} (h : s.full = false) (id : Nat) : (s.take id).2 = (s.take id).1.full := by
  unfold Scan.take
  cases hi : s.it with
  | none => simp [Scan.full, hi]
  | some it =>
    simp only
    split
    · rename_i h1
      unfold Scan.full at h ⊢
      rw [hi] at h
      simp only at h ⊢
      exact h.symm
    · rfl

theorem eat_cons (ignore : Nat) (a : Option Nat) (as : List (Option Nat)) (s : Scan) : eat ignore (a :: as) s =
    if ignore < (s.count 1).scanned then
      match a with
      | none => eat ignore as (s.count 1)
      | some id => if ((s.count 1).take id).2 then ((s.count 1).take id).1 else eat ignore as ((s.count 1).take id).1
    else eat ignore as (s.count 1) := rfl

theorem eat_append (ignore : Nat) (a b : List (Option Nat)) : ∀ s : Scan, s.full = false →
    eat ignore (a ++ b) s = if (eat ignore a s).full = true then eat ignore a s else eat ignore b (eat ignore a s) := by
  induction a with
  | nil => intro s h; simp [eat, h]
  | cons x a ih =>
    intro s h
    have hc : (s.count 1).full = false := by rw [full_count]; exact h
    rw [List.cons_append, eat_cons, eat_cons]
    by_cases hi : ignore < (s.count 1).scanned
    · simp only [if_pos hi]
      cases x with
      | none => simp only; exact ih _ hc
      | some id =>
        simp only
        have hf := take_full hc id
        by_cases ht : ((s.count 1).take id).2 = true
        · simp only [if_pos ht]
          rw [hf] at ht
          rw [if_pos ht]
        · simp only [if_neg ht]
          rw [hf] at ht
          exact ih _ (by simpa using ht)
    · simp only [if_neg hi]
      exact ih _ hc

theorem run_ok {pts : List Pt} (w : Window) (ignore : Nat) (hp : pts.length ≤ 2 ^ 31) (s : Scan) (x y : Nat) (p : Place) {e : Nat × Nat}
    (he : e.1 + e.2 ≤ pts.length) : ∃ r, Scan.run pts w ignore s x y p e.1 e.2 = (eat ignore (partItems pts w x y p [e]) s).at r := by
  unfold partItems
  simp only [List.flatMap_cons, List.flatMap_nil, List.append_nil]
  have key : Scan.run pts w ignore s x y p e.1 e.2 =
      if placeOK w x y p = true then s.series pts w ignore x y (placeZ p) e.2 e.1 (2 ^ 32 - 1) false else s.count e.2 := by cases p <;> rfl
  rw [key]
  split
  · exact series_ok w ignore x y _ hp e.2 e.1 _ false s he (by simp)
  · rw [eat_none]; exact ⟨(s.count e.2).rd, rfl⟩

section
variable {pts : List Pt} {w : Window} {ignore : Nat}

theorem foldRuns_eat (hp : pts.length ≤ 2 ^ 31) (x y : Nat) (p : Place) (r : Runs) : ∀ (s : Scan), s.full = false → RunsIn pts.length r →
    ∃ q, foldRuns (filterVisitor pts w ignore) x y p r s = (eat ignore (partItems pts w x y p r) s).at q := by
  induction r with
  | nil => intro s _ _; exact ⟨s.rd, rfl⟩
  | cons e r ih =>
    intro s hs hr
    obtain ⟨q, hq⟩ := run_ok w ignore hp s x y p (hr e (by simp))
    have hsplit : partItems pts w x y p (e :: r) = partItems pts w x y p [e] ++ partItems pts w x y p r := by simp [partItems]
    rw [hsplit, eat_append _ _ _ _ hs]
    unfold foldRuns
    show ∃ q, (if (Scan.run pts w ignore s x y p e.1 e.2).full = true then _ else _) = _
    have hv : (filterVisitor pts w ignore).run s x y p e.1 e.2 = Scan.run pts w ignore s x y p e.1 e.2 := rfl
    rw [hv, hq, full_at]
    by_cases hf : (eat ignore (partItems pts w x y p [e]) s).full = true
    · rw [if_pos hf, if_pos hf]; exact ⟨q, rfl⟩
    · rw [if_neg hf, if_neg hf]
      obtain ⟨q2, h2⟩ := ih ((eat ignore (partItems pts w x y p [e]) s).at q) (by rw [full_at]; simpa using hf) fun e he => hr e (by simp [he])
      exact ⟨q2, by rw [h2, eat_at, at_at]⟩

theorem foldSubs_eat (hp : pts.length ≤ 2 ^ 31) (x y : Nat) (p : Nat → Place) (m : List (Nat × Runs)) : ∀ (s : Scan), s.full = false →
    (∀ e ∈ m, RunsIn pts.length e.2) → ∃ q, foldSubs (filterVisitor pts w ignore) x y p m s = (eat ignore (subItems pts w x y p m) s).at q := by
  induction m with
  | nil => intro s _ _; exact ⟨s.rd, rfl⟩
  | cons e m ih =>
    intro s hs hr
    obtain ⟨q, hq⟩ := foldRuns_eat (w := w) (ignore := ignore) hp x y (p e.1) e.2 s hs (hr e (by simp))
    have hsplit : subItems pts w x y p (e :: m) = partItems pts w x y (p e.1) e.2 ++ subItems pts w x y p m := by simp [subItems]
    rw [hsplit, eat_append _ _ _ _ hs]
    unfold foldSubs
    show ∃ q, (if (foldRuns (filterVisitor pts w ignore) x y (p e.1) e.2 s).full = true then _ else _) = _
    rw [hq, full_at]
    by_cases hf : (eat ignore (partItems pts w x y (p e.1) e.2) s).full = true
    · rw [if_pos hf, if_pos hf]; exact ⟨q, rfl⟩
    · rw [if_neg hf, if_neg hf]
      obtain ⟨q2, h2⟩ := ih ((eat ignore (partItems pts w x y (p e.1) e.2) s).at q) (by rw [full_at]; simpa using hf) fun e he => hr e (by simp [he])
      exact ⟨q2, by rw [h2, eat_at, at_at]⟩

theorem foldCell_eat (hp : pts.length ≤ 2 ^ 31) (e : (Nat × Nat) × Cell) (s : Scan) (hs : s.full = false) (hc : CellIn pts.length e.2) :
    ∃ q, foldCell (filterVisitor pts w ignore) e s = (eat ignore (cellItems pts w e) s).at q := by
  unfold foldCell cellItems
  split
  · exact foldSubs_eat hp _ _ _ _ s hs hc.2.1
  · split
    · exact foldSubs_eat hp _ _ _ _ s hs hc.2.2
    · exact foldRuns_eat hp _ _ _ _ s hs hc.1

/-- A cell begins. -/
def Scan.begin (s : Scan) (pos : Nat) : Scan := { s with it := s.it.map fun it => { it with cellStart := pos, inCell := 0 } }

theorem begin_full (s : Scan) (pos : Nat) : (s.begin pos).full = s.full := by
  unfold Scan.full Scan.begin
  cases s.it <;> rfl

/-- What a scan does with cells. -/
def eatCells (pts : List Pt) (w : Window) (ignore : Nat) : Nat → List ((Nat × Nat) × Cell) → Scan → Scan
  | _, [], s => s
  | pos, e :: cs, s =>
    let s := eat ignore (cellItems pts w e) (s.begin pos)
    if s.full then s else eatCells pts w ignore (pos + Grouping.entryLen e) cs s

theorem eatCells_at (cs : List ((Nat × Nat) × Cell)) : ∀ pos (s : Scan) r, eatCells pts w ignore pos cs (s.at r) = (eatCells pts w ignore pos cs s).at r := by
  induction cs with
  | nil => intro pos s r; rfl
  | cons e cs ih =>
    intro pos s r
    unfold eatCells
    have : (s.at r).begin pos = (s.begin pos).at r := rfl
    simp only [this, eat_at, full_at]
    split
    · rfl
    · exact ih _ _ _

theorem foldCells_eat (hp : pts.length ≤ 2 ^ 31) (cs : List ((Nat × Nat) × Cell)) : ∀ (pos : Nat) (s : Scan), s.full = false →
    (∀ e ∈ cs, CellIn pts.length e.2) → ∃ q, foldCells (filterVisitor pts w ignore) pos cs s = (eatCells pts w ignore pos cs s).at q := by
  induction cs with
  | nil => intro pos s _ _; exact ⟨s.rd, rfl⟩
  | cons e cs ih =>
    intro pos s hs hc
    obtain ⟨q, hq⟩ := foldCell_eat (w := w) (ignore := ignore) hp e (s.begin pos) (by rw [begin_full]; exact hs) (hc e (by simp))
    unfold foldCells eatCells
    have hv : (filterVisitor pts w ignore).start s pos = s.begin pos := rfl
    rw [hv, hq]
    show ∃ q', (if ((eat ignore (cellItems pts w e) (s.begin pos)).at q).full = true then _ else _) = _
    rw [full_at]
    simp only
    by_cases hf : (eat ignore (cellItems pts w e) (s.begin pos)).full = true
    · simp only [if_pos hf]; exact ⟨q, rfl⟩
    · simp only [if_neg hf]
      obtain ⟨q2, h2⟩ := ih (pos + Grouping.entryLen e) ((eat ignore (cellItems pts w e) (s.begin pos)).at q) (by rw [full_at]; simpa using hf)
        fun e he => hc e (by simp [he])
      exact ⟨q2, by rw [h2, eatCells_at, at_at]⟩

end

/-- The accepted points. -/
def accepted (l : List (Option Nat)) : List Nat := l.filterMap id

/-! Without an iterator. -/

theorem eat_whole (l : List (Option Nat)) : ∀ s : Scan, s.it = none → eat 0 l s = { s with result := s.result ++ accepted l, scanned := s.scanned + l.length } := by
  induction l with
  | nil => intro s h; simp [eat, accepted]
  | cons a l ih =>
    intro s h
    unfold eat
    have h1 : (s.count 1).it = none := by simp [Scan.count, h]
    have h2 : (s.count 1).scanned = s.scanned + 1 := rfl
    simp only
    rw [if_pos (by omega)]
    cases a with
    | none =>
      simp only
      rw [ih _ h1]
      simp [accepted, Scan.count, h]; omega
    | some id =>
      have h3 : (s.count 1).take id = ({ s.count 1 with result := s.result ++ [id] }, false) := by
        unfold Scan.take; simp [Scan.count, h]
      simp only [h3, Bool.false_eq_true, if_false]
      rw [ih _ (by exact h1)]
      simp [accepted, Scan.count, h]; omega

theorem eatCells_whole {pts : List Pt} {w : Window} (cs : List ((Nat × Nat) × Cell)) : ∀ (pos : Nat) (s : Scan), s.it = none →
    eatCells pts w 0 pos cs s = { s with
      result := s.result ++ accepted (cs.flatMap (cellItems pts w))
      scanned := s.scanned + (cs.flatMap (cellItems pts w)).length } := by
  induction cs with
  | nil => intro pos s h; simp [eatCells, accepted]
  | cons e cs ih =>
    intro pos s h
    unfold eatCells
    have hb : s.begin pos = s := by unfold Scan.begin; rw [h]; cases s; simp at h; subst h; rfl
    simp only [hb, eat_whole _ s h]
    rw [if_neg (by simp [Scan.full, h]), ih _ _ (by exact h)]
    simp [accepted, Nat.add_assoc]

/-! With an iterator. -/

/-- What is got from a list of points when `adv - 1` accepted ones are skipped and then at most `room` are delivered. -/
structure Pull where
  out : List Nat
  used : Nat
  found : Nat
  adv : Nat
  deriving DecidableEq, Repr

def pull : Nat → Nat → List (Option Nat) → Pull
  | adv, _, [] => ⟨[], 0, 0, adv⟩
  | adv, room, none :: l => let p := pull adv room l; { p with used := p.used + 1 }
  | adv, room, some id :: l =>
    if adv - 1 ≠ 0 then let p := pull (adv - 1) room l; { p with used := p.used + 1, found := p.found + 1 }
    else if room ≤ 1 then ⟨[id], 1, 1, 0⟩
    else let p := pull 0 (room - 1) l; ⟨id :: p.out, p.used + 1, p.found + 1, p.adv⟩

theorem pull_none (adv room : Nat) (l : List (Option Nat)) : pull adv room (none :: l) =
    ⟨(pull adv room l).out, (pull adv room l).used + 1, (pull adv room l).found, (pull adv room l).adv⟩ := rfl

theorem pull_skip {adv : Nat} (h : adv - 1 ≠ 0) (room id : Nat) (l : List (Option Nat)) : pull adv room (some id :: l) =
    ⟨(pull (adv - 1) room l).out, (pull (adv - 1) room l).used + 1, (pull (adv - 1) room l).found + 1, (pull (adv - 1) room l).adv⟩ := by
  rw [pull, if_pos h]

theorem pull_last {adv room : Nat} (h : ¬ adv - 1 ≠ 0) (hr : room ≤ 1) (id : Nat) (l : List (Option Nat)) :
    pull adv room (some id :: l) = ⟨[id], 1, 1, 0⟩ := by
  rw [pull, if_neg h, if_pos hr]

theorem pull_take {adv room : Nat} (h : ¬ adv - 1 ≠ 0) (hr : ¬ room ≤ 1) (id : Nat) (l : List (Option Nat)) : pull adv room (some id :: l) =
    ⟨id :: (pull 0 (room - 1) l).out, (pull 0 (room - 1) l).used + 1, (pull 0 (room - 1) l).found + 1, (pull 0 (room - 1) l).adv⟩ := by
  rw [pull, if_neg h, if_neg hr]

theorem pull_append (a b : List (Option Nat)) : ∀ adv room, 0 < room → pull adv room (a ++ b) =
    if (pull adv room a).out.length = room then pull adv room a
    else
      ⟨(pull adv room a).out ++ (pull (pull adv room a).adv (room - (pull adv room a).out.length) b).out,
        (pull adv room a).used + (pull (pull adv room a).adv (room - (pull adv room a).out.length) b).used,
        (pull adv room a).found + (pull (pull adv room a).adv (room - (pull adv room a).out.length) b).found,
        (pull (pull adv room a).adv (room - (pull adv room a).out.length) b).adv⟩ := by
  induction a with
  | nil => intro adv room h; simp [pull]; omega
  | cons x a ih =>
    intro adv room h
    cases x with
    | none =>
      rw [List.cons_append, pull_none, pull_none, ih adv room h]
      by_cases h3 : (pull adv room a).out.length = room
      · rw [if_pos h3, if_pos h3]
      · rw [if_neg h3, if_neg h3]; simp only [Pull.mk.injEq, true_and, and_true]; omega
    | some id =>
      rw [List.cons_append]
      by_cases h1 : adv - 1 ≠ 0
      · rw [pull_skip h1, pull_skip h1, ih (adv - 1) room h]
        by_cases h3 : (pull (adv - 1) room a).out.length = room
        · rw [if_pos h3, if_pos h3]
        · rw [if_neg h3, if_neg h3]; simp only [Pull.mk.injEq, true_and, and_true]; omega
      · by_cases h2 : room ≤ 1
        · have : room = 1 := by omega
          rw [pull_last h1 h2, pull_last h1 h2, if_pos (by simp; omega)]
        · rw [pull_take h1 h2, pull_take h1 h2, ih 0 (room - 1) (by omega)]
          by_cases h3 : (pull 0 (room - 1) a).out.length = room - 1
          · rw [if_pos h3, if_pos (by simp only [List.length_cons]; omega)]
          · rw [if_neg h3, if_neg (by simp only [List.length_cons]; omega)]
            have : room - 1 - (pull 0 (room - 1) a).out.length = room - ((pull 0 (room - 1) a).out.length + 1) := by omega
            simp only [List.length_cons, this, Pull.mk.injEq, List.cons_append, true_and, and_true]; omega

theorem pull_facts (l : List (Option Nat)) : ∀ adv room, 0 < room →
    (pull adv room l).out = ((accepted l).drop (adv - 1)).take room ∧ (pull adv room l).used ≤ l.length ∧
    (pull adv room l).found = (accepted (l.take (pull adv room l).used)).length ∧
    ((pull adv room l).out.length < room → (pull adv room l).used = l.length) := by
  induction l with
  | nil => intro adv room h; simp [pull, accepted]
  | cons x l ih =>
    intro adv room h
    cases x with
    | none =>
      obtain ⟨h1, h2, h3, h4⟩ := ih adv room h
      simp only [pull]
      refine ⟨?_, by simp; omega, ?_, ?_⟩
      · rw [h1]; simp [accepted]
      · rw [h3]; simp [accepted]
      · intro h5; simp [h4 h5]
    | some id =>
      simp only [pull]
      by_cases h1 : adv - 1 ≠ 0
      · simp only [if_pos h1]
        obtain ⟨k1, k2, k3, k4⟩ := ih (adv - 1) room h
        refine ⟨?_, by simp; omega, ?_, ?_⟩
        · rw [k1]
          obtain ⟨n, hn⟩ : ∃ n, adv - 1 = n + 1 := ⟨adv - 2, by omega⟩
          simp [accepted, hn]
        · rw [k3]; simp [accepted]
        · intro h5; simp [k4 h5]
      · simp only [if_neg h1]
        have h1' : adv - 1 = 0 := by omega
        by_cases h2 : room ≤ 1
        · have hr : room = 1 := by omega
          simp [h1', hr, accepted]
        · simp only [if_neg h2]
          obtain ⟨k1, k2, k3, k4⟩ := ih 0 (room - 1) (by omega)
          refine ⟨?_, by simp; omega, ?_, ?_⟩
          · rw [k1, h1']
            obtain ⟨n, hn⟩ : ∃ n, room = n + 1 := ⟨room - 1, by omega⟩
            simp [accepted, hn]
          · rw [k3]; simp [accepted]
          · intro h5
            simp only [List.length_cons] at h5 ⊢
            rw [k4 (by omega)]

theorem pull_length {adv room : Nat} (h : 0 < room) (l : List (Option Nat)) : (pull adv room l).out.length ≤ room := by
  rw [(pull_facts l adv room h).1]; simp

/-- The state after pulling. -/
def Scan.pulled (s : Scan) (it : Iter) (n : Nat) (p : Pull) : Scan :=
  { s with
    result := s.result ++ p.out
    scanned := s.scanned + n + p.used
    it := some { it with inCell := it.inCell + n + p.used, conforming := it.conforming + p.found, advance := p.adv } }

theorem eat_pull {ignore : Nat} (l : List (Option Nat)) : ∀ (s : Scan) (it : Iter), s.it = some it → s.full = false → ignore ≤ s.scanned →
    eat ignore l s = s.pulled it 0 (pull it.advance (it.chunk - s.result.length) l) := by
  induction l with
  | nil =>
    intro s it h hf hi
    unfold eat Scan.pulled pull
    simp
    rw [← h]
  | cons a l ih =>
    intro s it h hf hi
    have hroom : s.result.length < it.chunk := by
      unfold Scan.full at hf; rw [h] at hf; simpa using hf
    have hc1 : (s.count 1).it = some { it with inCell := it.inCell + 1 } := by simp [Scan.count, h]
    have hc2 : (s.count 1).full = false := by rw [full_count]; exact hf
    have hc3 : (s.count 1).scanned = s.scanned + 1 := rfl
    unfold eat
    simp only
    rw [if_pos (by omega)]
    cases a with
    | none =>
      simp only
      rw [ih (s.count 1) _ hc1 hc2 (by omega)]
      simp only [pull, Scan.pulled, Scan.count]
      simp only [Scan.mk.injEq, Option.some.injEq, Iter.mk.injEq, true_and, and_true]; omega
    | some id =>
      simp only [pull]
      unfold Scan.take
      rw [hc1]
      simp only
      by_cases ha : it.advance - 1 ≠ 0
      · simp only [if_pos ha, Bool.false_eq_true, if_false]
        rw [ih _ { it with inCell := it.inCell + 1, conforming := it.conforming + 1, advance := it.advance - 1 } rfl
          (by unfold Scan.full at hf ⊢; rw [h] at hf; exact hf) (by show ignore ≤ s.scanned + 1; omega)]
        simp only [Scan.pulled, Scan.count]
        simp only [Scan.mk.injEq, Option.some.injEq, Iter.mk.injEq, true_and, and_true]; omega
      · simp only [if_neg ha]
        have ha' : it.advance - 1 = 0 := by omega
        by_cases hr : it.chunk - s.result.length ≤ 1
        · have hful : (Scan.full { (s.count 1) with
              result := (s.count 1).result ++ [id]
              it := some { it with inCell := it.inCell + 1, conforming := it.conforming + 1, advance := it.advance - 1 } }) = true := by
            unfold Scan.full
            simp [Scan.count]; omega
          rw [if_pos hful, if_pos hr]
          simp [Scan.pulled, Scan.count, ha']
        · have hful : (Scan.full { (s.count 1) with
              result := (s.count 1).result ++ [id]
              it := some { it with inCell := it.inCell + 1, conforming := it.conforming + 1, advance := it.advance - 1 } }) = false := by
            unfold Scan.full
            simp [Scan.count]; omega
          rw [if_neg (by rw [hful]; simp), if_neg hr]
          rw [ih _ { it with inCell := it.inCell + 1, conforming := it.conforming + 1, advance := it.advance - 1 } rfl hful
            (by show ignore ≤ s.scanned + 1; omega)]
          have hlen : it.chunk - (s.result ++ [id]).length = it.chunk - s.result.length - 1 := by simp; omega
          simp only [Scan.pulled, Scan.count, ha', hlen]
          congr 1
          · simp
          · simp; omega
          · simp; omega

theorem eat_skip {ignore : Nat} (a b : List (Option Nat)) : ∀ (s : Scan), s.scanned + a.length ≤ ignore →
    eat ignore (a ++ b) s = eat ignore b (s.count a.length) := by
  induction a with
  | nil => intro s _; rw [List.nil_append, List.length_nil, count_zero]
  | cons x a ih =>
    intro s h
    rw [List.cons_append, eat_cons]
    simp only [List.length_cons] at h ⊢
    have hc3 : (s.count 1).scanned = s.scanned + 1 := rfl
    rw [if_neg (by omega), ih _ (by omega), count_count, Nat.add_comm 1]

/-- A cell of which the first points are passed over. -/
theorem eat_resume {ignore : Nat} {l : List (Option Nat)} {s : Scan} {it : Iter} (h : s.it = some it) (hf : s.full = false)
    (hk : ignore - s.scanned ≤ l.length) :
    eat ignore l s = s.pulled it (ignore - s.scanned) (pull it.advance (it.chunk - s.result.length) (l.drop (ignore - s.scanned))) := by
  by_cases hi : ignore ≤ s.scanned
  · rw [Nat.sub_eq_zero_of_le hi, List.drop_zero]
    exact eat_pull l s it h hf hi
  · set k := ignore - s.scanned with hk'
    conv_lhs => rw [← List.take_append_drop k l]
    have hlen : (l.take k).length = k := by simp; omega
    rw [eat_skip _ _ _ (by rw [hlen]; omega), hlen,
      eat_pull _ (s.count k) { it with inCell := it.inCell + k } (by simp [Scan.count, h]) (by rw [full_count]; exact hf)
        (by show ignore ≤ s.scanned + k; omega)]
    simp only [Scan.pulled, Scan.count]
    congr 1

theorem pulled_full {s : Scan} {it : Iter} {n : Nat} {l : List (Option Nat)} (h : s.it = some it) (hf : s.full = false) :
    (s.pulled it n (pull it.advance (it.chunk - s.result.length) l)).full =
      decide ((pull it.advance (it.chunk - s.result.length) l).out.length = it.chunk - s.result.length) := by
  have hroom : s.result.length < it.chunk := by
    unfold Scan.full at hf; rw [h] at hf; simpa using hf
  have := pull_length (adv := it.advance) (room := it.chunk - s.result.length) (by omega) l
  unfold Scan.full Scan.pulled
  simp only [List.length_append]
  rw [decide_eq_decide]
  omega

/-- The scan of some cells with an iterator. -/
theorem eatCells_pull {pts : List Pt} {w : Window} {ignore : Nat} (cs : List ((Nat × Nat) × Cell)) :
    ∀ (pos : Nat) (s : Scan) (it : Iter) (e : (Nat × Nat) × Cell) (rest : List ((Nat × Nat) × Cell)), cs = e :: rest → s.it = some it → s.full = false →
      ignore - s.scanned ≤ (cellItems pts w e).length →
      ∃ p pre e' post start inCell, p = pull it.advance (it.chunk - s.result.length) ((cs.flatMap (cellItems pts w)).drop (ignore - s.scanned)) ∧
        eatCells pts w ignore pos cs s = { s with
          result := s.result ++ p.out
          scanned := s.scanned + (ignore - s.scanned) + p.used
          it := some { it with
            cellStart := start
            inCell := inCell
            conforming := it.conforming + p.found
            advance := p.adv } } ∧
        cs = pre ++ e' :: post ∧ start = pos + (bodyBytes pre).length ∧ inCell ≤ (cellItems pts w e').length ∧
        (pre.flatMap (cellItems pts w)).length + inCell = ignore - s.scanned + p.used := by
  induction cs with
  | nil => intro pos s it e rest h; simp at h
  | cons c cs ih =>
    intro pos s it e rest hcs h hf hk
    injection hcs with h1 h2
    subst h1
    subst h2
    have hroom : s.result.length < it.chunk := by
      unfold Scan.full at hf; rw [h] at hf; simpa using hf
    set k := ignore - s.scanned with hkd
    have hb : (s.begin pos).it = some { it with cellStart := pos, inCell := 0 } := by simp [Scan.begin, h]
    have hbf : (s.begin pos).full = false := by rw [begin_full]; exact hf
    have heat := eat_resume (l := cellItems pts w c) hb hbf (ignore := ignore) hk
    have hfull := pulled_full (n := k) (l := (cellItems pts w c).drop k) hb hbf
    change eat ignore (cellItems pts w c) (s.begin pos) = (s.begin pos).pulled _ k (pull it.advance (it.chunk - s.result.length) ((cellItems pts w c).drop k)) at heat
    change ((s.begin pos).pulled _ k (pull it.advance (it.chunk - s.result.length) ((cellItems pts w c).drop k))).full = decide ((pull it.advance (it.chunk - s.result.length) ((cellItems pts w c).drop k)).out.length = it.chunk - s.result.length) at hfull
    have hdrop : ((c :: cs).flatMap (cellItems pts w)).drop k = (cellItems pts w c).drop k ++ cs.flatMap (cellItems pts w) := by
      rw [List.flatMap_cons, List.drop_append_of_le_length hk]
    rw [hdrop, pull_append _ _ _ _ (by omega)]
    obtain ⟨f1, f2, f3, f4⟩ := pull_facts ((cellItems pts w c).drop k) it.advance (it.chunk - s.result.length) (by omega)
    have f5 := pull_length (adv := it.advance) (room := it.chunk - s.result.length) (by omega) ((cellItems pts w c).drop k)
    generalize pull it.advance (it.chunk - s.result.length) ((cellItems pts w c).drop k) = p at *
    rw [List.length_drop] at f2 f4
    unfold eatCells
    simp only [heat]
    rw [hfull]
    by_cases hp : p.out.length = it.chunk - s.result.length
    · rw [if_pos hp, if_pos (by simpa using hp)]
      refine ⟨p, [], c, cs, pos, k + p.used, rfl, ?_, rfl, by simp [bodyBytes], by omega, by simp⟩
      simp [Scan.pulled, Scan.begin]
    · rw [if_neg hp, if_neg (by simpa using hp)]
      have hu := f4 (by omega)
      cases cs with
      | nil =>
        refine ⟨_, [], c, [], pos, k + p.used, rfl, ?_, rfl, by simp [bodyBytes], by omega, by simp [pull]⟩
        simp [Scan.pulled, Scan.begin, eatCells, pull]
      | cons c2 cs =>
        have hs2 : ((s.begin pos).pulled { it with cellStart := pos, inCell := 0 } k p).full = false := by rw [hfull]; simpa using hp
        have hsc : ((s.begin pos).pulled { it with cellStart := pos, inCell := 0 } k p).scanned = s.scanned + k + p.used := rfl
        have hz : ignore - ((s.begin pos).pulled { it with cellStart := pos, inCell := 0 } k p).scanned = 0 := by rw [hsc]; omega
        obtain ⟨q, pre, e', post, start, inCell, g1, g2, g3, g4, g5, g6⟩ := ih (pos + Grouping.entryLen c)
          ((s.begin pos).pulled { it with cellStart := pos, inCell := 0 } k p) _ c2 cs rfl rfl hs2 (by rw [hz]; omega)
        rw [hz] at g1 g6 g2
        have hlen : it.chunk - (s.result ++ p.out).length = it.chunk - s.result.length - p.out.length := by simp; omega
        change q = pull p.adv (it.chunk - (s.result ++ p.out).length) _ at g1
        rw [hlen, List.drop_zero] at g1
        rw [← g1]
        refine ⟨_, c :: pre, e', post, start, inCell, rfl, ?_, by rw [g3]; rfl, ?_, g5, ?_⟩
        · rw [g2]
          simp [Scan.pulled, Scan.begin, Nat.add_assoc]
        · rw [g4]; simp [bodyBytes, Grouping.entryLen]; omega
        · simp only [List.flatMap_cons, List.length_append]; omega

end LibLAS.Index
