import Verif.Model.Las2colThreads
import Mathlib.Data.List.Nodup
import Mathlib.Tactic.ByContra
import Mathlib.Tactic.Push
/-
Invariants of the threads of las2col.
-/
namespace LibLAS.Las2col

@[simp] theorem upd_self {α : Type} (f : Nat → α) (i : Nat) (a : α) : upd f i a i = a := if_pos rfl
theorem upd_ne {α : Type} (f : Nat → α) {i j : Nat} (a : α) (h : j ≠ i) : upd f i a j = f j := if_neg h

/-- The file a reading thread has taken and not yet put in a slot. -/
def RPc.holds : RPc → Option Nat
  | .next => none
  | .reading k => some k
  | .put b => some b.file
  | .wait b => some b.file
  | .gone => none

/-- The batch is all columns of its file. -/
def Batch.Whole (c : Cfg) (b : Batch) : Prop := ∃ f, c.read b.file = .ok f ∧ b.cols = fun i => some (f i)

/-- Column `i` of file `k`. -/
def Cfg.col (c : Cfg) (k i : Nat) : List Byte := match c.read k with | .ok f => f i | _ => []

/-- Column `i` of several files, one after the other. -/
def Cfg.cat (c : Cfg) (l : List Nat) (i : Nat) : List Byte := (l.map fun k => c.col k i).flatten

/-- Files are passed on in ascending order. -/
structure Ascending (data : Nat → Option Batch) (rd : Nat → RPc) (taken : List Nat) : Prop where
  sorted : taken.Pairwise (· < ·)
  slots : ∀ k ∈ taken, ∀ n b, data n = some b → k < b.file
  held : ∀ k ∈ taken, ∀ j k', (rd j).holds = some k' → k < k'
  both : ∀ n b j k, data n = some b → (rd j).holds = some k → b.file < k

/-- What holds between the steps; `taken` are the files `main` has taken so far. -/
structure Inv (c : Cfg) (s : St) (taken : List Nat) : Prop where
  bound : s.next ≤ c.files
  nodup : taken.Nodup
  below : ∀ k ∈ taken, k < s.next
  read : ∀ k ∈ taken, ∃ f, c.read k = .ok f
  order : ∀ j k, taken[j]? = some k → k % c.readers = j % c.readers
  slot : s.slot = taken.length % c.readers
  slots : ∀ n b, s.data n = some b → b.file % c.readers = n ∧ b.file < s.next ∧ b.file ∉ taken ∧ b.Whole c
  held : ∀ j k, (s.rd j).holds = some k → k < s.next ∧ k ∉ taken ∧ ∀ n b, s.data n = some b → b.file ≠ k
  batch : ∀ j b, s.rd j = .put b ∨ s.rd j = .wait b → b.Whole c
  apart : ∀ j j' k, (s.rd j).holds = some k → (s.rd j').holds = some k → j = j'
  complete : ∀ k < s.next, k ∈ taken ∨ (∃ n b, s.data n = some b ∧ b.file = k) ∨ ∃ j < c.readers, (s.rd j).holds = some k
  ridle : ∀ j, c.readers ≤ j → s.rd j = .next
  single : c.readers = 1 → Ascending s.data s.rd taken
  rgone : ∀ j, s.rd j = .gone → s.next = c.files
  rwait : ∀ j b, s.rd j = .wait b → ∃ b', s.data (b.file % c.readers) = some b'
  cnt : s.left + taken.length = c.files + (if s.cur.isSome then 1 else 0)
  mcur : s.cur.isSome = true ↔ s.mn = .told ∨ s.mn = .doneWait ∨ s.mn = .check
  mleft : s.left = 0 ↔ s.mn = .finish ∨ s.mn = .join ∨ s.mn = .ended
  mwait : s.mn = .takeWait → s.data s.slot = none
  mstop : s.stop = true ↔ s.mn = .join ∨ s.mn = .ended
  mend : s.mn = .ended → ∀ i < c.columns, s.wr i = .gone
  current : ∀ b, s.cur = some b → ∃ l f, taken = l ++ [b.file] ∧ c.read b.file = .ok f ∧
    ∀ i, b.cols i = none ∨ b.cols i = some (f i)
  wact : ∀ i, s.wr i = .write ∨ s.wr i = .clear → ∃ b, s.cur = some b ∧ (b.cols i).isSome = true
  wgo : ∀ i, s.wr i = .go → s.stop = true ∨ ∃ b, s.cur = some b ∧ (b.cols i).isSome = true
  wwait : ∀ i, s.wr i = .wait → s.stop = false ∧ ∀ b, s.cur = some b → b.cols i = none
  wgone : ∀ i, s.wr i = .gone → s.stop = true
  idle : ∀ i, c.columns ≤ i → s.wr i = .top
  out : ∀ i < c.columns,
    (s.cur = none → s.out i = c.cat taken i) ∧
    ∀ b, s.cur = some b →
      (b.cols i = none ∨ s.wr i = .clear → s.out i = c.cat taken i) ∧
      (b.cols i ≠ none → s.wr i ≠ .clear → s.out i = c.cat taken.dropLast i)

theorem inv_start (c : Cfg) (hf : 0 < c.files) : Inv c (start c) [] where
  bound := Nat.zero_le _
  nodup := List.nodup_nil
  below := by simp
  read := by simp
  order := by simp
  slot := by simp [start]
  slots := by simp [start]
  held := by simp [start, RPc.holds]
  batch := by simp [start]
  apart := by simp [start, RPc.holds]
  complete := by simp [start]
  ridle := by simp [start]
  single := fun _ => ⟨by simp, by simp, by simp, by simp [start]⟩
  rgone := by simp [start]
  rwait := by simp [start]
  cnt := by simp [start]
  mcur := by simp [start]
  mleft := by simp [start]; omega
  mwait := by simp [start]
  mstop := by simp [start]
  mend := by simp [start]
  current := by simp [start]
  wact := by simp [start]
  wgo := by simp [start]
  wwait := by simp [start]
  wgone := by simp [start]
  idle := by simp [start]
  out := by simp [start, Cfg.cat]

theorem wakeR_holds (f : Nat → RPc) (j : Nat) : (wakeR f j).holds = (f j).holds := by
  unfold wakeR; cases h : f j <;> rfl

theorem wakeR_put {f : Nat → RPc} {j : Nat} {b : Batch} (h : wakeR f j = .put b) : f j = .put b ∨ f j = .wait b := by
  unfold wakeR at h; cases e : f j <;> rw [e] at h <;> simp_all

theorem wakeR_wait {f : Nat → RPc} {j : Nat} {b : Batch} : wakeR f j ≠ .wait b := by
  unfold wakeR; cases e : f j <;> simp

theorem wakeR_gone {f : Nat → RPc} {j : Nat} (h : wakeR f j = .gone) : f j = .gone := by
  unfold wakeR at h; cases e : f j <;> rw [e] at h <;> simp_all

theorem wakeW_ne {f : Nat → WPc} {i : Nat} : wakeW f i ≠ .wait := by
  unfold wakeW; cases e : f i <;> simp

theorem wakeW_eq {f : Nat → WPc} {i : Nat} {p : WPc} (hp : p ≠ .check) (h : wakeW f i = p) : f i = p := by
  unfold wakeW at h; cases e : f i <;> rw [e] at h <;> simp_all

theorem wakeW_keeps {f : Nat → WPc} {i : Nat} {p : WPc} (hp : p ≠ .wait) (h : f i = p) : wakeW f i = p := by
  unfold wakeW; rw [h]; cases p <;> simp_all

/-- A change of the place of a reading thread that keeps what it holds. -/
theorem Inv.reader {c : Cfg} {s : St} {taken : List Nat} (I : Inv c s taken) (j : Nat) (hj : j < c.readers) (p : RPc)
    (hh : p.holds = (s.rd j).holds) (hb : ∀ b, p = .put b ∨ p = .wait b → b.Whole c)
    (hg : p = .gone → s.next = c.files) (hw : ∀ b, p = .wait b → ∃ b', s.data (b.file % c.readers) = some b') :
    Inv c { s with rd := upd s.rd j p } taken := by
  have key : ∀ j', (upd s.rd j p j').holds = (s.rd j').holds := by
    intro j'
    by_cases e : j' = j
    · subst e; rw [upd_self, hh]
    · rw [upd_ne _ _ e]
  refine { I with held := ?_, batch := ?_, apart := ?_, complete := ?_, ridle := ?_, single := ?_, rgone := ?_, rwait := ?_ }
  · intro j' k h; exact I.held j' k (by rw [← key]; exact h)
  · intro j' b h
    by_cases e : j' = j
    · subst e; exact hb b (by simpa using h)
    · exact I.batch j' b (by simpa [upd_ne _ _ e] using h)
  · intro j' j'' k h h'; exact I.apart j' j'' k (by rw [← key]; exact h) (by rw [← key]; exact h')
  · intro k hk
    rcases I.complete k hk with h | h | ⟨j', h1, h2⟩
    · exact .inl h
    · exact .inr (.inl h)
    · exact .inr (.inr ⟨j', h1, by show (upd s.rd j p j').holds = _; rw [key]; exact h2⟩)
  · intro j' hj'
    have e : j' ≠ j := by omega
    simpa [upd_ne _ _ e] using I.ridle j' hj'
  · intro h1
    have A := I.single h1
    exact ⟨A.sorted, A.slots, fun k hk j' k' e => A.held k hk j' k' (by rw [← key]; exact e),
      fun n b j' k' e e' => A.both n b j' k' e (by rw [← key]; exact e')⟩
  · intro j' h
    by_cases e : j' = j
    · subst e; exact hg (by simpa using h)
    · exact I.rgone j' (by simpa [upd_ne _ _ e] using h)
  · intro j' b h
    by_cases e : j' = j
    · subst e; exact hw b (by simpa using h)
    · exact I.rwait j' b (by simpa [upd_ne _ _ e] using h)

/-- A change of the place of a writing thread. -/
theorem Inv.writer {c : Cfg} {s : St} {taken : List Nat} (I : Inv c s taken) (i : Nat) (hi : i < c.columns) (p : WPc)
    (hold : s.wr i ≠ .clear) (h1 : p ≠ .clear) (h2 : p = .write → ∃ b, s.cur = some b ∧ (b.cols i).isSome = true)
    (h3 : p = .go → s.stop = true ∨ ∃ b, s.cur = some b ∧ (b.cols i).isSome = true)
    (h4 : p = .wait → s.stop = false ∧ ∀ b, s.cur = some b → b.cols i = none) (h5 : p = .gone → s.stop = true)
    (h6 : s.mn ≠ .ended ∨ p = .gone) :
    Inv c { s with wr := upd s.wr i p } taken := by
  refine { I with mend := ?_, wact := ?_, wgo := ?_, wwait := ?_, wgone := ?_, idle := ?_, out := ?_ }
  · intro h i' hi
    by_cases e : i' = i
    · subst e; simpa using h6.resolve_left (fun x => x h)
    · simpa [upd_ne _ _ e] using I.mend h i' hi
  · intro i' h
    by_cases e : i' = i
    · subst e; exact h2 (by simpa [h1] using h)
    · exact I.wact i' (by simpa [upd_ne _ _ e] using h)
  · intro i' h
    by_cases e : i' = i
    · subst e; exact h3 (by simpa using h)
    · exact I.wgo i' (by simpa [upd_ne _ _ e] using h)
  · intro i' h
    by_cases e : i' = i
    · subst e; exact h4 (by simpa using h)
    · exact I.wwait i' (by simpa [upd_ne _ _ e] using h)
  · intro i' h
    by_cases e : i' = i
    · subst e; exact h5 (by simpa using h)
    · exact I.wgone i' (by simpa [upd_ne _ _ e] using h)
  · intro i' hi'
    have e : i' ≠ i := by omega
    simpa [upd_ne _ _ e] using I.idle i' hi'
  · intro i' hi
    by_cases e : i' = i
    · subst e
      simpa [h1, hold] using I.out i' hi
    · simpa [upd_ne _ _ e] using I.out i' hi

/-- `main` is woken or goes to sleep. -/
theorem Inv.main {c : Cfg} {s : St} {taken : List Nat} (I : Inv c s taken) (p : MPc)
    (h : (s.mn = .takeWait ∧ p = .take) ∨ (s.mn = .doneWait ∧ p = .check) ∨ (s.mn = .check ∧ p = .doneWait) ∨
      (s.mn = .told ∧ p = .doneWait) ∨ p = s.mn) :
    Inv c { s with mn := p } taken := by
  have hmw : p = .takeWait → s.mn = .takeWait := by rcases h with ⟨_, h⟩ | ⟨_, h⟩ | ⟨_, h⟩ | ⟨_, h⟩ | h <;> simp [h]
  have hme : p = .ended → s.mn = .ended := by rcases h with ⟨_, h⟩ | ⟨_, h⟩ | ⟨_, h⟩ | ⟨_, h⟩ | h <;> simp [h]
  refine { I with mcur := ?_, mleft := ?_, mwait := fun e => I.mwait (hmw e), mstop := ?_, mend := fun e => I.mend (hme e) }
  · refine I.mcur.trans ?_
    rcases h with ⟨h, h'⟩ | ⟨h, h'⟩ | ⟨h, h'⟩ | ⟨h, h'⟩ | h <;> simp_all
  · refine I.mleft.trans ?_
    rcases h with ⟨h, h'⟩ | ⟨h, h'⟩ | ⟨h, h'⟩ | ⟨h, h'⟩ | h <;> simp_all
  · refine I.mstop.trans ?_
    rcases h with ⟨h, h'⟩ | ⟨h, h'⟩ | ⟨h, h'⟩ | ⟨h, h'⟩ | h <;> simp_all

theorem wakeM_cases (m : MPc) : (m = .takeWait ∧ wakeM m = .take) ∨ (m = .doneWait ∧ wakeM m = .check) ∨
    (m = .check ∧ wakeM m = .doneWait) ∨ (m = .told ∧ wakeM m = .doneWait) ∨ wakeM m = m := by
  cases m <;> simp [wakeM]

/-- A reading thread takes the next file. -/
theorem Inv.take {c : Cfg} {s : St} {taken : List Nat} (I : Inv c s taken) (j : Nat) (hj : j < c.readers) (h : s.rd j = .next)
    (hn : s.next < c.files) : Inv c { s with next := s.next + 1, rd := upd s.rd j (.reading s.next) } taken := by
  have hh : (s.rd j).holds = none := by rw [h]; rfl
  have key : ∀ j' k, (upd s.rd j (.reading s.next) j').holds = some k →
      (j' = j ∧ k = s.next) ∨ (j' ≠ j ∧ (s.rd j').holds = some k) := by
    intro j' k e
    by_cases e' : j' = j
    · subst e'; rw [upd_self] at e; exact .inl ⟨rfl, by simpa [RPc.holds] using e.symm⟩
    · rw [upd_ne _ _ e'] at e; exact .inr ⟨e', e⟩
  refine { I with bound := hn, below := ?_, slots := ?_, held := ?_, batch := ?_, apart := ?_, complete := ?_, ridle := ?_, single := ?_, rgone := ?_, rwait := ?_ }
  · intro k hk; have := I.below k hk; show k < s.next + 1; omega
  · intro n b hb; obtain ⟨a1, a2, a3⟩ := I.slots n b hb; exact ⟨a1, by show _ < s.next + 1; omega, a3⟩
  · intro j' k e
    show k < s.next + 1 ∧ _
    rcases key j' k e with ⟨_, rfl⟩ | ⟨_, e⟩
    · refine ⟨by omega, fun hk => Nat.lt_irrefl _ (I.below _ hk), fun n b hb e' => ?_⟩
      have := (I.slots n b hb).2.1; omega
    · obtain ⟨a1, a2⟩ := I.held j' k e; exact ⟨by omega, a2⟩
  · intro j' b e
    by_cases e' : j' = j
    · subst e'; simp at e
    · exact I.batch j' b (by simpa [upd_ne _ _ e'] using e)
  · intro j1 j2 k e1 e2
    rcases key j1 k e1 with ⟨h1, h0⟩ | ⟨_, e1⟩ <;> rcases key j2 k e2 with ⟨h2, h3⟩ | ⟨_, e2⟩
    · omega
    · have := (I.held j2 _ e2).1; omega
    · have := (I.held j1 _ e1).1; omega
    · exact I.apart j1 j2 k e1 e2
  · intro k hk
    by_cases e : k = s.next
    · exact .inr (.inr ⟨j, hj, by subst e; simp [RPc.holds]⟩)
    · rcases I.complete k (by have : k < s.next + 1 := hk; omega) with h' | h' | ⟨j', h1, h2⟩
      · exact .inl h'
      · exact .inr (.inl h')
      · refine .inr (.inr ⟨j', h1, ?_⟩)
        have : j' ≠ j := by rintro rfl; rw [hh] at h2; cases h2
        simpa [upd_ne _ _ this] using h2
  · intro j' hj'
    have e : j' ≠ j := by omega
    simpa [upd_ne _ _ e] using I.ridle j' hj'
  · intro h1
    have A := I.single h1
    refine ⟨A.sorted, A.slots, fun k hk j' k' e => ?_, fun n b j' k' e e' => ?_⟩
    · rcases key j' k' e with ⟨_, rfl⟩ | ⟨_, e⟩
      · exact I.below k hk
      · exact A.held k hk j' k' e
    · rcases key j' k' e' with ⟨_, rfl⟩ | ⟨_, e'⟩
      · exact (I.slots n b e).2.1
      · exact A.both n b j' k' e e'
  · intro j' e
    have e' : j' ≠ j := by rintro rfl; simp at e
    have := I.rgone j' (by simpa [upd_ne _ _ e'] using e)
    omega
  · intro j' b e
    have e' : j' ≠ j := by rintro rfl; simp at e
    exact I.rwait j' b (by simpa [upd_ne _ _ e'] using e)

/-- A reading thread puts its batch in the slot. -/
theorem Inv.put {c : Cfg} {s : St} {taken : List Nat} (I : Inv c s taken) (j : Nat) (hj : j < c.readers) {b : Batch} (h : s.rd j = .put b)
    (hd : s.data (b.file % c.readers) = none) :
    Inv c { s with data := upd s.data (b.file % c.readers) (some b), mn := wakeM s.mn, rd := upd s.rd j .next } taken := by
  have hh : (s.rd j).holds = some b.file := by rw [h]; rfl
  have hI := I.held j _ hh
  have kr : ∀ j' k, (upd s.rd j .next j').holds = some k → j' ≠ j ∧ (s.rd j').holds = some k := by
    intro j' k e
    have e' : j' ≠ j := by rintro rfl; simp [RPc.holds] at e
    exact ⟨e', by simpa [upd_ne _ _ e'] using e⟩
  have kd : ∀ n x, upd s.data (b.file % c.readers) (some b) n = some x →
      (n = b.file % c.readers ∧ x = b) ∨ s.data n = some x := by
    intro n x e
    by_cases e' : n = b.file % c.readers
    · subst e'; rw [upd_self] at e; cases e; exact .inl ⟨rfl, rfl⟩
    · rw [upd_ne _ _ e'] at e; exact .inr e
  have kd' : ∀ n x, s.data n = some x → upd s.data (b.file % c.readers) (some b) n = some x := by
    intro n x e
    have e' : n ≠ b.file % c.readers := by rintro rfl; rw [hd] at e; cases e
    rw [upd_ne _ _ e', e]
  have I2 := I.main (wakeM s.mn) (wakeM_cases _)
  refine { I2 with slots := ?_, held := ?_, batch := ?_, apart := ?_, complete := ?_, ridle := ?_, single := ?_, rgone := ?_, rwait := ?_, mwait := ?_ }
  · intro n x e
    rcases kd n x e with ⟨rfl, rfl⟩ | e
    · exact ⟨rfl, hI.1, hI.2.1, I.batch j _ (.inl h)⟩
    · exact I.slots n x e
  · intro j' k e
    obtain ⟨e1, e2⟩ := kr j' k e
    obtain ⟨a1, a2, a3⟩ := I.held j' k e2
    refine ⟨a1, a2, fun n x e' => ?_⟩
    rcases kd n x e' with ⟨rfl, rfl⟩ | e'
    · rintro rfl; exact e1 (I.apart j' j _ e2 hh)
    · exact a3 n x e'
  · intro j' x e
    have e' : j' ≠ j := by rintro rfl; simp at e
    exact I.batch j' x (by simpa [upd_ne _ _ e'] using e)
  · intro j1 j2 k e1 e2
    exact I.apart j1 j2 k (kr j1 k e1).2 (kr j2 k e2).2
  · intro k hk
    rcases I.complete k hk with h' | ⟨n, x, h1, h2⟩ | ⟨j', h1, h2⟩
    · exact .inl h'
    · exact .inr (.inl ⟨n, x, kd' n x h1, h2⟩)
    · by_cases e : j' = j
      · subst e
        rw [hh] at h2
        exact .inr (.inl ⟨_, b, upd_self _ _ _, by simpa using h2⟩)
      · exact .inr (.inr ⟨j', h1, by simpa [upd_ne _ _ e] using h2⟩)
  · intro j' hj'
    have e : j' ≠ j := by omega
    simpa [upd_ne _ _ e] using I.ridle j' hj'
  · intro h1
    have A := I.single h1
    refine ⟨A.sorted, fun k hk n x e => ?_, fun k hk j' k' e => A.held k hk j' k' (kr j' k' e).2, fun n x j' k' e e' => ?_⟩
    · rcases kd n x e with ⟨rfl, rfl⟩ | e
      · exact A.held k hk j _ hh
      · exact A.slots k hk n x e
    · obtain ⟨e1, e2⟩ := kr j' k' e'
      rw [I.ridle j' (by omega)] at e2
      cases e2
  · intro j' e
    have e' : j' ≠ j := by rintro rfl; simp at e
    exact I.rgone j' (by simpa [upd_ne _ _ e'] using e)
  · intro j' x e
    have e' : j' ≠ j := by rintro rfl; simp at e
    obtain ⟨y, hy⟩ := I.rwait j' x (by simpa [upd_ne _ _ e'] using e)
    exact ⟨y, kd' _ _ hy⟩
  · intro e
    exact absurd e (by cases s.mn <;> simp [wakeM])

theorem cat_append (c : Cfg) (l m : List Nat) (i : Nat) : c.cat (l ++ m) i = c.cat l i ++ c.cat m i := by
  simp [Cfg.cat]

theorem cat_one (c : Cfg) {k : Nat} {f : Nat → List Byte} (h : c.read k = .ok f) (i : Nat) : c.cat [k] i = f i := by
  simp [Cfg.cat, Cfg.col, h]

/-- `main` takes a batch from its slot. -/
theorem Inv.taking {c : Cfg} {s : St} {taken : List Nat} (I : Inv c s taken) (hm : s.mn = .take) {b : Batch}
    (hd : s.data s.slot = some b) :
    Inv c { s with cur := some b, data := upd s.data s.slot none, wr := wakeW s.wr, rd := wakeR s.rd, slot := (s.slot + 1) % c.readers, mn := .told }
      (taken ++ [b.file]) := by
  obtain ⟨d1, d2, d3, f, hf, hcols⟩ := I.slots _ _ hd
  have hcur : s.cur = none := by
    have := I.mcur; rw [hm] at this; simpa using this
  have hleft : s.left ≠ 0 := by
    intro e; have := I.mleft.mp e; rw [hm] at this; simp at this
  have hstop : s.stop = false := by
    have := I.mstop; rw [hm] at this; simpa using this
  have kd : ∀ n x, upd s.data s.slot none n = some x → n ≠ s.slot ∧ s.data n = some x := by
    intro n x e
    have e' : n ≠ s.slot := by rintro rfl; simp at e
    exact ⟨e', by simpa [upd_ne _ _ e'] using e⟩
  have hne : ∀ i, b.cols i ≠ none := by intro i; rw [hcols]; simp
  constructor
  · exact I.bound
  · rw [List.nodup_append]; simp only [List.nodup_cons, List.not_mem_nil, not_false_eq_true, List.nodup_nil, and_self, true_and]
    exact ⟨I.nodup, by intro x hx y hy; simp at hy; rintro rfl; exact d3 (hy ▸ hx)⟩
  · intro k hk
    rcases List.mem_append.mp hk with hk | hk
    · exact I.below k hk
    · simp at hk; subst hk; exact d2
  · intro k hk
    rcases List.mem_append.mp hk with hk | hk
    · exact I.read k hk
    · simp at hk; subst hk; exact ⟨f, hf⟩
  · intro j k e
    rw [List.getElem?_append] at e
    split at e
    · exact I.order j k e
    · have : j = taken.length := by
        by_contra h
        rw [List.getElem?_eq_none (by simp; omega)] at e; cases e
      subst this
      simp at e; subst e
      rw [d1, I.slot]
  · show (s.slot + 1) % c.readers = _
    rw [I.slot, List.length_append, List.length_singleton, Nat.mod_add_mod]
  · intro n x e
    obtain ⟨e1, e2⟩ := kd n x e
    obtain ⟨a1, a2, a3, a4⟩ := I.slots n x e2
    refine ⟨a1, a2, ?_, a4⟩
    simp only [List.mem_append, List.mem_singleton, not_or]
    refine ⟨a3, fun e3 => e1 ?_⟩
    rw [← a1, ← d1, e3]
  · intro j k e
    replace e : (wakeR s.rd j).holds = some k := e
    rw [wakeR_holds] at e
    obtain ⟨a1, a2, a3⟩ := I.held j k e
    refine ⟨a1, ?_, fun n x e' => a3 n x (kd n x e').2⟩
    simp only [List.mem_append, List.mem_singleton, not_or]
    exact ⟨a2, fun e' => a3 _ _ hd e'.symm⟩
  · intro j x e
    rcases e with e | e
    · exact I.batch j x (wakeR_put e)
    · exact absurd e wakeR_wait
  · intro j j' k e e'
    exact I.apart j j' k (by rw [← wakeR_holds]; exact e) (by rw [← wakeR_holds]; exact e')
  · intro k hk
    rcases I.complete k hk with h | ⟨n, x, h1, h2⟩ | ⟨j, h1, h2⟩
    · exact .inl (List.mem_append_left _ h)
    · by_cases e : n = s.slot
      · subst e; rw [hd] at h1; cases h1; subst h2; exact .inl (by simp)
      · exact .inr (.inl ⟨n, x, by show upd _ _ _ _ = _; rw [upd_ne _ _ e]; exact h1, h2⟩)
    · exact .inr (.inr ⟨j, h1, by show (wakeR s.rd j).holds = _; rw [wakeR_holds]; exact h2⟩)
  · intro j hj; show wakeR s.rd j = _; unfold wakeR; rw [I.ridle j hj]
  · intro h1
    have A := I.single h1
    refine ⟨?_, fun k hk n x e => ?_, fun k hk j k' e => ?_, fun n x j k e e' => ?_⟩
    · rw [List.pairwise_append]
      exact ⟨A.sorted, by simp, fun k hk y hy => by simp at hy; subst hy; exact A.slots k hk _ _ hd⟩
    · obtain ⟨e1, e2⟩ := kd n x e
      have := (I.slots n x e2).1
      rw [h1] at this d1
      omega
    · replace e : (wakeR s.rd j).holds = some k' := e
      rw [wakeR_holds] at e
      rcases List.mem_append.mp hk with hk | hk
      · exact A.held k hk j k' e
      · simp at hk; subst hk; exact A.both _ _ j k' hd e
    · replace e' : (wakeR s.rd j).holds = some k := e'
      rw [wakeR_holds] at e'
      exact A.both n x j k (kd n x e).2 e'
  · intro j e; exact I.rgone j (wakeR_gone e)
  · intro j x e; exact absurd e wakeR_wait
  · have := I.cnt; rw [hcur] at this; simp at this ⊢; omega
  · simp
  · simpa using hleft
  · simp
  · simpa using hstop
  · simp
  · intro x e
    simp only [Option.some.injEq] at e; subst e
    exact ⟨taken, f, rfl, hf, fun i => .inr (by rw [hcols])⟩
  · intro i e
    have e1 : s.wr i = .write ∨ s.wr i = .clear := e.imp (wakeW_eq (by simp)) (wakeW_eq (by simp))
    obtain ⟨x, hx, _⟩ := I.wact i e1
    rw [hcur] at hx; cases hx
  · intro i e
    rcases I.wgo i (wakeW_eq (by simp) e) with h | ⟨x, hx, _⟩
    · rw [hstop] at h; cases h
    · rw [hcur] at hx; cases hx
  · intro i e; exact absurd e wakeW_ne
  · intro i e; exact I.wgone i (wakeW_eq (by simp) e)
  · intro i hi; exact wakeW_keeps (by simp) (I.idle i hi)
  · intro i hi
    refine ⟨by simp, fun x e => ?_⟩
    simp only [Option.some.injEq] at e; subst e
    have hc : wakeW s.wr i ≠ .clear := by
      intro e
      obtain ⟨x, hx, _⟩ := I.wact i (.inr (wakeW_eq (by simp) e))
      rw [hcur] at hx; cases hx
    refine ⟨fun h => absurd h (by simp [hne, hc]), fun _ _ => ?_⟩
    rw [List.dropLast_concat]
    exact (I.out i hi).1 hcur

theorem pending_false {b : Batch} {n : Nat} (h : b.pending n = false) : ∀ i < n, b.cols i = none := by
  intro i hi
  simp only [Batch.pending, List.any_eq_false, List.mem_range] at h
  simpa using h i hi

/-- `main` finds the batch written. -/
theorem Inv.checked {c : Cfg} {s : St} {taken : List Nat} (I : Inv c s taken) (hm : s.mn = .check) {b : Batch}
    (hc : s.cur = some b) (hp : b.pending c.columns = false) :
    Inv c { s with left := s.left - 1, cur := none, mn := if s.left - 1 = 0 then .finish else .take } taken := by
  have hleft : s.left ≠ 0 := by
    intro e; have := I.mleft.mp e; rw [hm] at this; simp at this
  have hstop : s.stop = false := by
    have := I.mstop; rw [hm] at this; simpa using this
  have hnone := pending_false hp
  have hno : ∀ i, ¬ (s.wr i = .write ∨ s.wr i = .clear ∨ s.wr i = .go) := by
    intro i h
    by_cases hi : i < c.columns
    · have : ∃ x, s.cur = some x ∧ (x.cols i).isSome = true := by
        rcases h with h | h | h
        · exact I.wact i (.inl h)
        · exact I.wact i (.inr h)
        · exact (I.wgo i h).resolve_left (by simp [hstop])
      obtain ⟨x, hx, hx'⟩ := this
      rw [hc] at hx; cases hx
      rw [hnone i hi] at hx'; cases hx'
    · rw [I.idle i (by omega)] at h; simp at h
  refine { I with
    cnt := ?_, mcur := ?_, mleft := ?_, mwait := ?_, mstop := ?_, mend := ?_, current := by simp, wact := ?_, wgo := ?_, wwait := ?_, out := ?_ }
  · have := I.cnt; rw [hc] at this; simp at this ⊢; omega
  · simp only [Option.isSome_none, Bool.false_eq_true, false_iff]; split <;> simp
  · split <;> simp_all
  · split <;> simp
  · show s.stop = true ↔ _
    rw [hstop]; split <;> simp
  · split <;> simp
  · intro i h; exact absurd h (fun h => hno i (h.imp id .inl))
  · intro i h; exact absurd (show s.wr i = .go from h) (fun h => hno i (.inr (.inr h)))
  · intro i _; exact ⟨hstop, by simp⟩
  · intro i hi
    exact ⟨fun _ => ((I.out i hi).2 b hc).1 (.inl (hnone i hi)), by simp⟩

/-- `main` tells the writing threads to stop. -/
theorem Inv.finish {c : Cfg} {s : St} {taken : List Nat} (I : Inv c s taken) (hm : s.mn = .finish) :
    Inv c { s with stop := true, wr := wakeW s.wr, mn := .join } taken := by
  have hcur : s.cur = none := by have := I.mcur; rw [hm] at this; simpa using this
  have hl : s.left = 0 := I.mleft.mpr (.inl hm)
  refine { I with
    mcur := ?_, mleft := ?_, mwait := ?_, mstop := ?_, mend := ?_, wact := ?_, wgo := ?_, wwait := ?_, wgone := ?_, idle := ?_, out := ?_ }
  · simp [hcur]
  · simp [hl]
  · simp
  · simp
  · simp
  · intro i h; exact I.wact i (h.imp (wakeW_eq (by simp)) (wakeW_eq (by simp)))
  · intro i _; exact .inl rfl
  · intro i h; exact absurd h wakeW_ne
  · intro i _; rfl
  · intro i hi; exact wakeW_keeps (by simp) (I.idle i hi)
  · intro i hi
    exact ⟨(I.out i hi).1, fun b hb => by rw [show s.cur = some b from hb] at hcur; cases hcur⟩

/-- All writing threads have returned. -/
theorem Inv.ended {c : Cfg} {s : St} {taken : List Nat} (I : Inv c s taken) (hm : s.mn = .join)
    (hw : ∀ i < c.columns, s.wr i = .gone) : Inv c { s with mn := .ended } taken := by
  have hcur : s.cur = none := by have := I.mcur; rw [hm] at this; simpa using this
  have hl : s.left = 0 := I.mleft.mpr (.inr (.inl hm))
  have hs : s.stop = true := I.mstop.mpr (.inl hm)
  exact { I with mcur := by simp [hcur], mleft := by simp [hl], mwait := by simp, mstop := by simp [hs], mend := fun _ => hw }

/-- A column is written to its file. -/
theorem Inv.writes {c : Cfg} {s : St} {taken : List Nat} (I : Inv c s taken) {i : Nat} (hi : i < c.columns) (h : s.wr i = .write)
    {b : Batch} (hc : s.cur = some b) {v : List Byte} (hv : b.cols i = some v) :
    Inv c { s with out := upd s.out i (s.out i ++ v), wr := upd s.wr i .clear } taken := by
  obtain ⟨l, f, hl, hf, hcols⟩ := I.current b hc
  have hfv : v = f i := by rcases hcols i with e | e <;> rw [hv] at e <;> simp_all
  refine { I with mend := ?_, wact := ?_, wgo := ?_, wwait := ?_, wgone := ?_, idle := ?_, out := ?_ }
  · intro e
    have := I.mcur; rw [hc, show s.mn = .ended from e] at this; simp at this
  · intro i' h'
    by_cases e : i' = i
    · subst e; exact ⟨b, hc, by rw [hv]; rfl⟩
    · exact I.wact i' (by simpa [upd_ne _ _ e] using h')
  · intro i' h'
    have e : i' ≠ i := by rintro rfl; simp at h'
    exact I.wgo i' (by simpa [upd_ne _ _ e] using h')
  · intro i' h'
    have e : i' ≠ i := by rintro rfl; simp at h'
    exact I.wwait i' (by simpa [upd_ne _ _ e] using h')
  · intro i' h'
    have e : i' ≠ i := by rintro rfl; simp at h'
    exact I.wgone i' (by simpa [upd_ne _ _ e] using h')
  · intro i' hi'
    have e : i' ≠ i := by omega
    simpa [upd_ne _ _ e] using I.idle i' hi'
  · intro i' hi
    by_cases e : i' = i
    · subst e
      refine ⟨fun e => (by rw [show s.cur = none from e] at hc; cases hc), fun x hx => ?_⟩
      rw [show s.cur = some x from hx] at hc; cases hc
      refine ⟨fun _ => ?_, fun _ h2 => absurd (upd_self _ _ _) h2⟩
      have := ((I.out i' hi).2 b hx).2 (by rw [hv]; simp) (by rw [h]; simp)
      show upd s.out i' _ i' = _
      rw [upd_self, this, hl, List.dropLast_concat, cat_append, cat_one c hf, hfv]
    · simpa [upd_ne _ _ e] using I.out i' hi

/-- The written column is freed. -/
theorem Inv.clears {c : Cfg} {s : St} {taken : List Nat} (I : Inv c s taken) {i : Nat} (hi : i < c.columns) (h : s.wr i = .clear)
    {b : Batch} (hc : s.cur = some b) :
    Inv c { s with cur := some { b with cols := upd b.cols i none }, wr := upd s.wr i .tell } taken := by
  obtain ⟨l, f, hl, hf, hcols⟩ := I.current b hc
  have other : ∀ i', i' ≠ i → (∃ x, s.cur = some x ∧ (x.cols i').isSome = true) →
      ∃ x, some { b with cols := upd b.cols i none } = some x ∧ (x.cols i').isSome = true := by
    rintro i' e ⟨x, hx, hx'⟩
    rw [hc] at hx; cases hx
    exact ⟨_, rfl, by simpa [upd_ne _ _ e] using hx'⟩
  refine { I with cnt := ?_, mcur := ?_, mend := ?_, current := ?_, wact := ?_, wgo := ?_, wwait := ?_, wgone := ?_, idle := ?_, out := ?_ }
  · have := I.cnt; rw [hc] at this; exact this
  · have := I.mcur; rw [hc] at this; exact this
  · intro e
    have := I.mcur; rw [hc, show s.mn = .ended from e] at this; simp at this
  · intro x e
    simp only [Option.some.injEq] at e; subst e
    refine ⟨l, f, hl, hf, fun i' => ?_⟩
    by_cases e : i' = i
    · subst e; left; simp
    · simpa [upd_ne _ _ e] using hcols i'
  · intro i' h'
    have e : i' ≠ i := by rintro rfl; simp at h'
    exact other i' e (I.wact i' (by simpa [upd_ne _ _ e] using h'))
  · intro i' h'
    have e : i' ≠ i := by rintro rfl; simp at h'
    exact (I.wgo i' (by simpa [upd_ne _ _ e] using h')).imp id (other i' e)
  · intro i' h'
    have e : i' ≠ i := by rintro rfl; simp at h'
    obtain ⟨a1, a2⟩ := I.wwait i' (by simpa [upd_ne _ _ e] using h')
    refine ⟨a1, fun x hx => ?_⟩
    simp only [Option.some.injEq] at hx; subst hx
    simpa [upd_ne _ _ e] using a2 b hc
  · intro i' h'
    have e : i' ≠ i := by rintro rfl; simp at h'
    exact I.wgone i' (by simpa [upd_ne _ _ e] using h')
  · intro i' hi'
    have e : i' ≠ i := by omega
    simpa [upd_ne _ _ e] using I.idle i' hi'
  · intro i' hi
    refine ⟨by simp, fun x hx => ?_⟩
    simp only [Option.some.injEq] at hx; subst hx
    by_cases e : i' = i
    · subst e
      refine ⟨fun _ => ((I.out i' hi).2 b hc).1 (.inr h), fun h' => absurd ?_ h'⟩
      exact upd_self _ _ _
    · simpa [upd_ne _ _ e] using (I.out i' hi).2 b hc

/-- Every step keeps the invariant; the process ends early only where a file cannot be read. -/
theorem inv_step {c : Cfg} (hr : 0 < c.readers) (hub : ∀ k < c.files, c.read k ≠ .ub) {s t : St} {taken : List Nat}
    (I : Inv c s taken) {ch : Choice} (h : step c s ch = some t) :
    (t.halt = none ∨ t.halt = some .exit ∧ ∃ k < c.files, ∃ e, c.read k = .throw e) ∧ ∃ taken', Inv c t taken' := by
  unfold step at h
  split at h
  · cases h
  rename_i hh
  have hn : s.halt = none := by simpa using hh
  split at h
  · -- a reading thread
    rename_i j
    split at h
    swap
    · cases h
    rename_i hj
    unfold readerStep at h
    split at h
    · rename_i hp
      split at h <;> cases h
      · exact ⟨.inl hn, _, I.take j hj hp (by assumption)⟩
      · rename_i hlt
        exact ⟨.inl hn, _, I.reader j hj .gone (by rw [hp]; rfl) (by simp) (fun _ => by have := I.bound; omega) (by simp)⟩
    · rename_i k hp
      have hk := (I.held j k (by rw [hp]; rfl)).1
      split at h <;> cases h
      · rename_i f hf
        exact ⟨.inl hn, _, I.reader j hj _ (by rw [hp]; rfl) (by simp only [RPc.put.injEq, reduceCtorEq, or_false]; rintro b rfl; exact ⟨f, hf, rfl⟩) (by simp) (by simp)⟩
      · rename_i e he
        exact ⟨.inr ⟨rfl, k, by have := I.bound; omega, e, he⟩, taken, { I with }⟩
      · rename_i he
        exact absurd he (hub k (by have := I.bound; omega))
    · rename_i b hp
      split at h <;> cases h
      · rename_i b' hd
        exact ⟨.inl hn, _, I.reader j hj _ (by rw [hp]; rfl) (by simp only [RPc.wait.injEq, reduceCtorEq, false_or]; rintro b rfl; exact I.batch j _ (.inl hp)) (by simp)
          (by simp only [RPc.wait.injEq]; rintro b rfl; exact ⟨b', hd⟩)⟩
      · rename_i hd
        exact ⟨.inl hn, _, I.put j hj hp hd⟩
    · cases h
    · cases h
  · -- main
    unfold mainStep at h
    split at h
    · rename_i hm
      have hcur : s.cur = none := by have := I.mcur; rw [hm] at this; simpa using this
      split at h
      swap
      · rename_i hs
        exact absurd (by rw [I.slot]; exact Nat.mod_lt _ hr) hs
      split at h <;> cases h
      · rename_i hd
        refine ⟨.inl hn, taken, ?_⟩
        have I' : Inv c { s with mn := .takeWait } taken :=
          { I with
            mcur := by simp [hcur], mwait := fun _ => hd, mend := by simp
            mleft := by have := I.mleft; rw [hm] at this; simpa using this
            mstop := by have := I.mstop; rw [hm] at this; simpa using this }
        have e : s = { s with cur := none } := by rw [← hcur]
        rw [e] at I'
        exact I'
      · rename_i b hd
        exact ⟨.inl hn, _, I.taking hm hd⟩
    · cases h
    · rename_i hm; cases h
      exact ⟨.inl hn, _, I.main .doneWait (by simp [hm])⟩
    · cases h
    · rename_i hm
      split at h
      · rename_i hc
        have := I.mcur; rw [hm, hc] at this; simp at this
      · rename_i b hc
        split at h <;> cases h
        · exact ⟨.inl hn, _, I.main .doneWait (by simp [hm])⟩
        · rename_i hp
          exact ⟨.inl hn, _, I.checked hm hc (by simpa using hp)⟩
    · rename_i hm; cases h
      exact ⟨.inl hn, _, I.finish hm⟩
    · rename_i hm
      split at h <;> cases h
      rename_i hw
      exact ⟨.inl hn, _, I.ended hm (by simpa using hw)⟩
    · cases h
  · -- a writing thread
    rename_i i
    split at h
    swap
    · cases h
    rename_i hi
    have hend : ∀ p, s.wr i = p → p ≠ .gone → s.mn ≠ .ended := by
      intro p hp hne e
      exact hne (hp ▸ I.mend e i hi)
    unfold writerStep at h
    split at h
    · rename_i hp; cases h
      refine ⟨.inl hn, _, I.writer i hi _ (by simp [hp]) ?_ ?_ ?_ ?_ ?_ (.inl (hend _ hp (by simp)))⟩ <;> split <;> simp_all
    · rename_i hp
      split at h <;> cases h
      · rename_i hc
        refine ⟨.inl hn, _, I.writer i hi .wait (by simp [hp]) (by simp) (by simp) (by simp) (fun _ => ?_) (by simp) (.inl (hend _ hp (by simp)))⟩
        refine ⟨hc.1, fun b hb => ?_⟩
        have := hc.2
        rw [nothing, hb] at this
        simpa using this
      · rename_i hc
        refine ⟨.inl hn, _, I.writer i hi .go (by simp [hp]) (by simp) (by simp) (fun _ => ?_) (by simp) (by simp) (.inl (hend _ hp (by simp)))⟩
        cases hs : s.stop
        · right
          have hc := fun h => hc ⟨hs, h⟩
          unfold nothing at hc
          cases hcur : s.cur with
          | none => simp [hcur] at hc
          | some b =>
            refine ⟨b, rfl, ?_⟩
            rw [hcur] at hc
            cases hv : b.cols i <;> simp_all
        · left; rfl
    · cases h
    · rename_i hp; cases h
      refine ⟨.inl hn, _, I.writer i hi _ (by simp [hp]) ?_ ?_ ?_ ?_ ?_ (.inl (hend _ hp (by simp)))⟩
      · split <;> simp
      · intro e
        refine (I.wgo i hp).resolve_left (fun hs => ?_)
        simp [hs] at e
      · split <;> simp
      · split <;> simp
      · split <;> simp_all
    · rename_i hp
      obtain ⟨b, hb, hv⟩ := I.wact i (.inl hp)
      split at h
      · simp_all
      split at h
      · simp_all
      · rename_i hb _ _ hv
        cases h
        exact ⟨.inl hn, _, I.writes hi hp hb hv⟩
    · rename_i hp
      obtain ⟨b, hb, _⟩ := I.wact i (.inr hp)
      split at h
      · simp_all
      · rename_i hb
        cases h
        exact ⟨.inl hn, _, I.clears hi hp hb⟩
    · rename_i hp; cases h
      have I2 := I.main (wakeM s.mn) (wakeM_cases _)
      refine ⟨.inl hn, _, I2.writer i hi .top (by simp [hp]) (by simp) (by simp) (by simp) (by simp) (by simp) (.inl ?_)⟩
      have := hend _ hp (by simp)
      show wakeM s.mn ≠ _
      cases hm : s.mn <;> simp_all [wakeM]
    · cases h
  · rename_i j
    split at h <;> cases h
    rename_i b hp
    have hj : j < c.readers := by
      by_contra e
      have := I.ridle j (by omega)
      rw [hp] at this; cases this
    exact ⟨.inl hn, _, I.reader j hj _ (by rw [hp]; rfl) (by simp only [RPc.put.injEq, reduceCtorEq, or_false]; rintro b rfl; exact I.batch j _ (.inr hp)) (by simp) (by simp)⟩
  · split at h <;> cases h
    · rename_i hm; exact ⟨.inl hn, _, I.main .take (by simp [hm])⟩
    · rename_i hm; exact ⟨.inl hn, _, I.main .check (by simp [hm])⟩
  · rename_i i
    split at h <;> cases h
    rename_i hp
    have hi : i < c.columns := by
      by_contra e
      have := I.idle i (by omega)
      rw [hp] at this; cases this
    refine ⟨.inl hn, _, I.writer i hi .check (by simp [hp]) (by simp) (by simp) (by simp) (by simp) (by simp) (.inl fun e => ?_)⟩
    have := I.mend e i hi
    rw [hp] at this; cases this

/-- What holds after every schedule. -/
theorem inv_run {c : Cfg} (hr : 0 < c.readers) (hub : ∀ k < c.files, c.read k ≠ .ub) :
    ∀ (sched : List Choice) (s t : St), (s.halt = none ∨ s.halt = some .exit ∧ ∃ k < c.files, ∃ e, c.read k = .throw e) →
      (∃ taken, Inv c s taken) → run c s sched = some t →
      (t.halt = none ∨ t.halt = some .exit ∧ ∃ k < c.files, ∃ e, c.read k = .throw e) ∧ ∃ taken, Inv c t taken
  | [], s, t, hs, I, h => by cases h; exact ⟨hs, I⟩
  | ch :: rest, s, t, hs, I, h => by
    rw [run] at h
    split at h
    · cases h
    rename_i u hu
    obtain ⟨taken, I⟩ := I
    obtain ⟨h1, h2⟩ := inv_step hr hub I hu
    exact inv_run hr hub rest u t h1 h2 h

end LibLAS.Las2col
