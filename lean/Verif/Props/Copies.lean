import Verif.Lemmas.Copies
import Verif.Props.WriterSession
/-
C106: copies of readers and writers.
-/
namespace LibLAS.Copies
open LibLAS.Spec Spec

variable {F S C R Z : Type}

/-- C106: after every program each file is in the state that one object, made from the same stream and given in the same order
all the calls made through the original and the copies, would be in: open as long as an object stands for it, closed once none
does. -/
theorem one_file {K : Kind F S C R Z} {ops : List (Op F C)} {w : World S Z} {r : Option R} (h : run K ops = .ok (w, r))
    {k : Nat} {f : F} {cs : List C} (hk : (ledger ops).files[k]? = some (f, cs)) :
    ∃ s q, alone K f cs = .ok (s, q) ∧ (some k ∈ (ledger ops).stands → IsOpen w k s) ∧
      (some k ∉ (ledger ops).stands → Closed w k (K.close s)) := by
  obtain ⟨-, hf, -⟩ := run_good K ops w r h
  obtain ⟨s, q, e1, e2⟩ := hf.entries k f cs hk
  refine ⟨s, q, e1, fun hm => ?_, fun hm => ?_⟩
  · have := List.count_pos_iff.2 hm
    unfold entry at e2
    rw [if_neg (by omega)] at e2
    exact ⟨_, e2⟩
  · have := List.count_eq_zero.2 hm
    unfold entry at e2
    rw [if_pos this] at e2
    exact e2

/-- C106: every call answers what it would answer on the one object. -/
theorem same_answer {K : Kind F S C R Z} {ops : List (Op F C)} {i : Nat} {c : C} {w : World S Z} {r : Option R}
    (h : run K (ops ++ [.call i c]) = .ok (w, r)) :
    ∃ k f cs s, (ledger ops).stands[i]? = some (some k) ∧ (ledger ops).files[k]? = some (f, cs) ∧
      alone K f (cs ++ [c]) = .ok (s, r) := by
  rw [run_snoc] at h
  cases e : run K ops with
  | throw x => rw [e] at h; cases h
  | ub => rw [e] at h; cases h
  | ok a =>
    rw [e] at h
    have h : step K a.1 (.call i c) = .ok (w, r) := h
    have hg := run_good K ops a.1 a.2 e
    obtain ⟨k, hi⟩ := step_uses hg h
    have hlt := hg.known k (List.mem_of_getElem? hi)
    have hf : (ledger ops).files[k]? = some ((ledger ops).files[k].1, (ledger ops).files[k].2) := List.getElem?_eq_getElem hlt
    obtain ⟨s, q, e1, e2⟩ := hg.fits.entries k _ _ hf
    have hpos : 0 < (ledger ops).stands.count (some k) := List.count_pos_iff.2 (List.mem_of_getElem? hi)
    unfold entry at e2
    rw [if_neg (by omega)] at e2
    unfold step at h
    dsimp only at h
    rw [hg.objs, hi] at h
    dsimp only at h
    rw [e2] at h
    dsimp only at h
    cases e3 : K.call s c with
    | throw x => rw [e3] at h; cases h
    | ub => rw [e3] at h; cases h
    | ok b =>
      rw [e3] at h
      injection h with h
      injection h with _ h
      refine ⟨k, _, _, b.1, hi, hf, ?_⟩
      rw [alone_snoc, e1]
      show (K.call s c >>= _) = _
      rw [e3, ← h]
      rfl

/-- What is in the books stays in the books: files keep their number and their calls. -/
private theorem note_files (l : Ledger F C) (op : Op F C) {k : Nat} {f : F} {cs : List C} (h : l.files[k]? = some (f, cs)) :
    ∃ ds, (l.note op).files[k]? = some (f, cs ++ ds) := by
  have hlt := (List.getElem?_eq_some_iff.1 h).1
  cases op with
  | make g =>
    refine ⟨[], ?_⟩
    show (l.files ++ [(g, [])])[k]? = _
    rw [List.getElem?_append_left hlt, h, List.append_nil]
  | copy i => exact ⟨[], by rw [List.append_nil]; exact h⟩
  | assign i j => exact ⟨[], by rw [List.append_nil]; exact h⟩
  | destroy i => exact ⟨[], by rw [List.append_nil]; exact h⟩
  | call i c =>
    unfold Ledger.note
    dsimp only
    cases l.stands[i]?.join with
    | none => exact ⟨[], by rw [List.append_nil]; exact h⟩
    | some m =>
      dsimp only
      rw [List.getElem?_modify, h]
      by_cases e : m = k
      · exact ⟨[c], by simp [e]⟩
      · exact ⟨[], by simp [e]⟩

private theorem alone_prefix {K : Kind F S C R Z} {f : F} {cs ds : List C} (h : ∃ x, alone K f (cs ++ ds) = .ok x) :
    ∃ x, alone K f cs = .ok x := by
  induction ds using List.reverseRecOn with
  | nil => rwa [List.append_nil] at h
  | append_singleton ds d ih =>
    obtain ⟨x, h⟩ := h
    rw [← List.append_assoc, alone_snoc] at h
    cases e : alone K f (cs ++ ds) with
    | ok a => exact ih ⟨a, e⟩
    | throw x => rw [e] at h; cases h
    | ub => rw [e] at h; cases h

/-- C106: copying brings no failures of its own. A program that uses living objects goes through exactly if all the files do by
themselves. -/
theorem fails_as_files_do (K : Kind F S C R Z) (ops : List (Op F C)) (hu : WellUsed ops) :
    (∃ x, run K ops = .ok x) ↔ ∀ (k : Nat) (f : F) (cs : List C), (ledger ops).files[k]? = some (f, cs) → ∃ x, alone K f cs = .ok x := by
  constructor
  · rintro ⟨⟨w, r⟩, h⟩ k f cs hk
    obtain ⟨s, q, e, -⟩ := one_file h hk
    exact ⟨_, e⟩
  · induction ops using List.reverseRecOn with
    | nil => exact fun _ => ⟨_, rfl⟩
    | append_singleton ops op ih =>
      intro ha
      rw [ledger_snoc] at ha
      obtain ⟨a, e⟩ := ih (fun pre o post he => hu pre o (post ++ [op]) (by rw [he]; simp)) (by
        intro k f cs hk
        obtain ⟨ds, hd⟩ := note_files (ledger ops) op hk
        exact alone_prefix (ha k f _ hd))
      have hg := run_good K ops a.1 a.2 e
      rw [run_snoc, e]
      show ∃ x, step K a.1 op = .ok x
      rcases step_good hg op (hu ops op [] (by simp)) with ⟨w', r', h1, -⟩ | ⟨f, rfl, -, h2⟩ | ⟨i, c, k, f, cs, s, q, rfl, hi, hk, h0, -, h2⟩
      · exact ⟨_, h1⟩
      · obtain ⟨x, hx⟩ := ha (ledger ops).files.length f [] (by
          show ((ledger ops).files ++ [(f, [])])[_]? = _
          simp)
        unfold alone at hx
        rw [List.foldl_nil] at hx
        cases e2 : K.make f with
        | ok s => exact absurd e2 (h2 s)
        | throw y => rw [e2] at hx; cases hx
        | ub => rw [e2] at hx; cases hx
      · obtain ⟨x, hx⟩ := ha k f (cs ++ [c]) (by
          unfold Ledger.note
          dsimp only
          rw [hi]
          simp [hk])
        rw [alone_snoc, h0] at hx
        have hx : (K.call s c >>= fun b => pure (b.1, some b.2)) = .ok x := hx
        cases e2 : K.call s c with
        | ok b => exact absurd e2 (h2 b)
        | throw y => rw [e2] at hx; cases hx
        | ub => rw [e2] at hx; cases hx

/-- C106: using an object that has been destroyed is undefined. -/
theorem destroyed_object_undefined {K : Kind F S C R Z} {ops : List (Op F C)} {op : Op F C} {x : World S Z × Option R}
    (h : run K ops = .ok x) (hu : ¬ Uses (ledger ops) op) : run K (ops ++ [op]) = .ub := by
  rw [run_snoc, h]
  exact step_dead (run_good K ops x.1 x.2 h) hu

/-! Writers. -/

private theorem alone_writer (env : Env) (file : List Byte) (h : Header) (cs : List WriterCall) {o : OpenWriter}
    {q : Option Unit} (ha : alone (writers env) (file, h) cs = .ok (o, q)) :
    ∃ w, Writer.make env (OStream.onFile file) h = .ok w ∧ OpenWriter.calls env cs (.opened w) = .ok o := by
  induction cs using List.reverseRecOn generalizing o q with
  | nil =>
    have ha : ((Writer.make env (OStream.onFile file) h >>= fun w => pure (.opened w)) >>= fun s => pure (s, none)) = .ok (o, q) := ha
    cases e : Writer.make env (OStream.onFile file) h with
    | throw x => rw [e] at ha; cases ha
    | ub => rw [e] at ha; cases ha
    | ok w =>
      rw [e] at ha
      injection ha with ha
      injection ha with ha _
      exact ⟨w, rfl, by rw [← ha]; rfl⟩
  | append_singleton cs c ih =>
    rw [alone_snoc] at ha
    cases e : alone (writers env) (file, h) cs with
    | throw x => rw [e] at ha; cases ha
    | ub => rw [e] at ha; cases ha
    | ok a =>
      rw [e] at ha
      have ha : ((a.1.call env c >>= fun o => pure (o, ())) >>= fun b => pure (b.1, some b.2)) = .ok (o, q) := ha
      cases e2 : a.1.call env c with
      | throw x => rw [e2] at ha; cases ha
      | ub => rw [e2] at ha; cases ha
      | ok o' =>
        rw [e2] at ha
        injection ha with ha
        injection ha with ha _
        obtain ⟨w, h1, h2⟩ := ih (o := a.1) (q := a.2) e
        refine ⟨w, h1, ?_⟩
        rw [calls_append, h2]
        show (a.1.call env c >>= OpenWriter.calls env []) = _
        rw [e2, ← ha]
        rfl

/-- C106, writers: when the last of the objects that stand for a file is gone, and not before, the file is finished; it has
the bytes it has after a session of one writer with the calls of all of them. -/
theorem writer_copies {env : Env} {ops : List (Op (List Byte × Header) WriterCall)} {w : World OpenWriter (List Byte)}
    {q : Option Unit} (h : run (writers env) ops = .ok (w, q)) {k : Nat} {file : List Byte} {hd : Header}
    {cs : List WriterCall} (hk : (ledger ops).files[k]? = some ((file, hd), cs)) :
    (some k ∈ (ledger ops).stands → ∃ o, IsOpen w k o) ∧
    (some k ∉ (ledger ops).stands → ∃ b, Closed w k b ∧ writerSession env file hd cs = .ok b) := by
  obtain ⟨o, q', e, h1, h2⟩ := one_file h hk
  refine ⟨fun hm => ⟨o, h1 hm⟩, fun hm => ⟨_, h2 hm, ?_⟩⟩
  obtain ⟨w', e1, e2⟩ := alone_writer env file hd cs e
  unfold writerSession
  rw [e1]
  show (OpenWriter.calls env cs (.opened w') >>= _) = _
  rw [e2]
  rfl

/-- C106, writers: points written to a new file through any of the objects that stand for it are all there, in the order in
which they were written, when the file is read after the last object has gone. -/
theorem copies_write_one_file {env : Env} (today : BitVec 16 × BitVec 16)
    {ops : List (Op (List Byte × Header) WriterCall)} {w : World OpenWriter (List Byte)} {q : Option Unit}
    (hrun : run (writers env) ops = .ok (w, q)) {k : Nat} {h : Header} {ps : List (List Byte)}
    (hk : (ledger ops).files[k]? = some (([], h), ps.map .point)) (hgone : some k ∉ (ledger ops).stands)
    {v : Writer} (hs : StorableHeader h) (hmk : Writer.make env (OStream.onFile []) h = .ok v)
    (hsmall : h.headerSize.toNat + recordBytes v.hdr.vlrs + 4 < 2 ^ 31)
    (hns : NoSchema env v.hdr.vlrs) (hpad : v.hdr.padding = 0) (h0 : 0 < h.dataRecordLength)
    (hp : ∀ p ∈ ps, p.length = h.dataRecordLength) (hn : ps.length < 2 ^ 32) :
    ∃ b r, Closed w k b ∧ Reader.make env today (IStream.onFile b) = .ok r ∧ r.hdr.pointCount.toNat = ps.length ∧
      delivers r ps := by
  obtain ⟨b, h1, h2⟩ := (writer_copies hrun hk).2 hgone
  obtain ⟨b', r, g1, g2, g3, g4, -⟩ := header_rewritten env today hs hmk hsmall hns hpad h0 ps hp [] (by simp) trivial (by simpa using hn)
  simp only [List.flatMap_nil, List.append_nil] at g1 g3 g4
  rw [h2] at g1
  injection g1 with g1
  subst g1
  exact ⟨b, r, h1, g2, g3, g4⟩

/-! Readers. -/

private theorem alone_reader (env : Env) (b : Build) (today : BitVec 16 × BitVec 16) (file : List Byte) (cs : List HeaderCall)
    {o : OpenReader} {q : Option (Outcome Bool × Option (List Byte))} (ha : alone (readers env b today) file cs = .ok (o, q)) :
    ∃ r, Reader.make env today (IStream.onFile file) = .ok r ∧ headerRun env b (.opened r) cs = .ok o := by
  induction cs using List.reverseRecOn generalizing o q with
  | nil =>
    have ha : ((Reader.make env today (IStream.onFile file) >>= fun w => pure (.opened w)) >>= fun s => pure (s, none)) = .ok (o, q) := ha
    cases e : Reader.make env today (IStream.onFile file) with
    | throw x => rw [e] at ha; cases ha
    | ub => rw [e] at ha; cases ha
    | ok w =>
      rw [e] at ha
      injection ha with ha
      injection ha with ha _
      exact ⟨w, rfl, by rw [← ha]; rfl⟩
  | append_singleton cs c ih =>
    rw [alone_snoc] at ha
    cases e : alone (readers env b today) file cs with
    | throw x => rw [e] at ha; cases ha
    | ub => rw [e] at ha; cases ha
    | ok a =>
      rw [e] at ha
      have ha : ((headerStep env b a.1 c >>= fun o' => pure (o', answer a.1 c)) >>= fun b => pure (b.1, some b.2)) = .ok (o, q) := ha
      cases e2 : headerStep env b a.1 c with
      | throw x => rw [e2] at ha; cases ha
      | ub => rw [e2] at ha; cases ha
      | ok o' =>
        rw [e2] at ha
        injection ha with ha
        injection ha with ha _
        obtain ⟨w, h1, h2⟩ := ih (o := a.1) (q := a.2) e
        refine ⟨w, h1, ?_⟩
        have app : ∀ (ds : List HeaderCall) (x y : OpenReader), headerRun env b x ds = .ok y →
            headerRun env b x (ds ++ [c]) = headerRun env b y [c] := by
          intro ds
          induction ds with
          | nil => intro x y hxy; injection hxy with hxy; subst hxy; rfl
          | cons d ds ih =>
            intro x y hxy
            show (match headerStep env b x d with | .ok o => headerRun env b o (ds ++ [c]) | .throw e => .throw e | .ub => .ub) = _
            have hxy : (match headerStep env b x d with | .ok o => headerRun env b o ds | .throw e => .throw e | .ub => .ub) = .ok y := hxy
            cases ed : headerStep env b x d with
            | ok z => rw [ed] at hxy; exact ih z y hxy
            | throw x => rw [ed] at hxy; cases hxy
            | ub => rw [ed] at hxy; cases hxy
        rw [app cs _ _ h2]
        show (match headerStep env b a.1 c with | .ok o => headerRun env b o [] | .throw e => .throw e | .ub => .ub) = _
        rw [e2, ← ha]
        rfl

/-- C106, readers: a call through any of the objects that stand for a file answers what one reader would answer after all the
calls made so far through all of them. -/
theorem reader_copies {env : Env} {b : Build} {today : BitVec 16 × BitVec 16} {ops : List (Op (List Byte) HeaderCall)}
    {i : Nat} {c : HeaderCall} {w : World OpenReader Unit} {x : Option (Outcome Bool × Option (List Byte))}
    (h : run (readers env b today) (ops ++ [.call i c]) = .ok (w, x)) :
    ∃ k file cs r o, (ledger ops).stands[i]? = some (some k) ∧ (ledger ops).files[k]? = some (file, cs) ∧
      Reader.make env today (IStream.onFile file) = .ok r ∧ headerRun env b (.opened r) cs = .ok o ∧ x = some (answer o c) := by
  obtain ⟨k, file, cs, s, h1, h2, h3⟩ := same_answer h
  rw [alone_snoc] at h3
  cases e : alone (readers env b today) file cs with
  | throw x => rw [e] at h3; cases h3
  | ub => rw [e] at h3; cases h3
  | ok a =>
    rw [e] at h3
    obtain ⟨r, g1, g2⟩ := alone_reader env b today file cs (o := a.1) (q := a.2) e
    have h3 : ((headerStep env b a.1 c >>= fun o' => pure (o', answer a.1 c)) >>= fun b => pure (b.1, some b.2)) = .ok (s, x) := h3
    refine ⟨k, file, cs, r, a.1, h1, h2, g1, g2, ?_⟩
    cases e2 : headerStep env b a.1 c with
    | throw x => rw [e2] at h3; cases h3
    | ub => rw [e2] at h3; cases h3
    | ok o' =>
      rw [e2] at h3
      injection h3 with h3
      injection h3 with _ h3
      exact h3.symm

/-- C106 (a part that fails the expectation that a copy has a place in the file of its own): in every file of two points or
more, once a copy of the reader has read a point, the original gets the second point first. -/
theorem copy_takes_points (env : Env) (b : Build) (today : BitVec 16 × BitVec 16) {file : List Byte} {r : Reader}
    (hr : Reader.make env today (IStream.onFile file) = .ok r) {p q : List Byte} {ps : List (List Byte)}
    (hd : delivers r (p :: q :: ps)) :
    ∃ w, run (readers env b today) [.make file, .copy 0, .call 1 (.op .next), .call 0 (.op .next)] =
      .ok (w, some (.ok true, some q)) := by
  obtain ⟨-, -, h1, h2, -⟩ := hd
  have ans : answer ⟨r.readNext.1, r.hdr, false⟩ (.op .next) = (.ok true, some q) := by
    show (r.readNext.1.readNext.2, if r.readNext.1.readNext.2 = .ok true then some r.readNext.1.readNext.1.point else none) = _
    rw [h1, if_pos rfl, h2]
  refine ⟨⟨[some 0, some 0], [.live 2 ⟨r.readNext.1.readNext.1, r.hdr, false⟩]⟩, ?_⟩
  rw [← ans]
  show (((((Outcome.ok (⟨[], []⟩, none) >>= fun a => step (readers env b today) a.1 (.make file)) >>=
    fun a => step (readers env b today) a.1 (.copy 0)) >>= fun a => step (readers env b today) a.1 (.call 1 (.op .next))) >>=
    fun a => step (readers env b today) a.1 (.call 0 (.op .next)))) = _
  have hm : step (readers env b today) (⟨[], []⟩ : World OpenReader Unit) (.make file) = .ok (⟨[some 0], [.live 1 (.opened r)]⟩, none) := by
    unfold step readers
    dsimp only
    rw [hr]
    rfl
  show (((step (readers env b today) (⟨[], []⟩ : World OpenReader Unit) (.make file) >>= _) >>= _) >>= _) = _
  rw [hm]
  rfl

/-! Concrete programs. -/

/-- A writer is handed over by value: a copy writes a point and is destroyed; the file stays open, and the original writes
another point. -/
private def handedOver : List (Op (List Byte × Header) WriterCall) :=
  [.make ([], sampleHeader), .copy 0, .call 1 (.point (List.replicate 28 1#8)), .destroy 1,
    .call 0 (.point (List.replicate 28 2#8)), .destroy 0]

example : WellUsed handedOver ∧ (ledger handedOver).stands = [none, none] ∧
    (ledger handedOver).files = [(([], sampleHeader), [List.replicate 28 1#8, List.replicate 28 2#8].map .point)] := by
  refine ⟨?_, rfl, rfl⟩
  intro pre op post h
  have hlen : pre.length < 6 := by have := congrArg List.length h; simp [handedOver] at this; omega
  have hpre : pre = handedOver.take pre.length := by rw [h]; simp
  have hop : handedOver[pre.length]? = some op := by rw [h]; simp
  generalize pre.length = n at *
  subst hpre
  match n, hlen with
  | 0, _ => injection hop with hop; subst hop; trivial
  | 1, _ => injection hop with hop; subst hop; exact ⟨0, rfl⟩
  | 2, _ => injection hop with hop; subst hop; exact ⟨0, rfl⟩
  | 3, _ => injection hop with hop; subst hop; exact ⟨0, rfl⟩
  | 4, _ => injection hop with hop; subst hop; exact ⟨0, rfl⟩
  | 5, _ => injection hop with hop; subst hop; exact ⟨0, rfl⟩

/-- The hypotheses of `copies_write_one_file` are met by this program: it runs, and the two points are read. -/
example (today : BitVec 16 × BitVec 16) : ∃ w q b r, run (writers plainEnv) handedOver = .ok (w, q) ∧ Closed w 0 b ∧
    Reader.make plainEnv today (IStream.onFile b) = .ok r ∧ delivers r [List.replicate 28 1#8, List.replicate 28 2#8] := by
  obtain ⟨x, hx, -⟩ : ∃ x, run (writers plainEnv) handedOver = .ok x ∧ x.1.objs = [none, none] :=
    Outcome.exists_of_check (by decide +kernel)
  obtain ⟨v, h1, h2, h3, h4, h5⟩ : ∃ w, Writer.make plainEnv (OStream.onFile []) sampleHeader = .ok w ∧
      (w.hdr.padding = 0 ∧ sampleHeader.headerSize.toNat + recordBytes w.hdr.vlrs + 4 < 2 ^ 31 ∧
      w.hdr.vlrs.find? VLR.isSchema = none ∧ sampleHeader.dataRecordLength = 28) := Outcome.exists_of_check (by decide +kernel)
  obtain ⟨b, r, g1, g2, -, g4⟩ := copies_write_one_file today (w := x.1) (q := x.2) hx (k := 0) (h := sampleHeader)
    (ps := [List.replicate 28 1#8, List.replicate 28 2#8]) rfl (by decide) sampleHeader_storable h1 h3 (noSchema_none h4) h2
    (by rw [h5]; decide) (by rw [h5]; simp) (by decide)
  exact ⟨x.1, x.2, b, r, hx, g1, g2, g4⟩

/-- Assigning another writer to the only object of a file closes that file; the other one stays open. -/
example : ∃ x, run (writers plainEnv) [.make ([], sampleHeader), .make ([], sampleHeader),
      .call 0 (.point (List.replicate 28 1#8)), .assign 0 1, .call 0 (.point (List.replicate 28 2#8))] = .ok x ∧
    (x.1.objs = [some 1, some 1] ∧ (∃ b, Closed x.1 0 b) ∧ ∃ o, IsOpen x.1 1 o) := by
  obtain ⟨x, hx, h1, h2⟩ : ∃ x, run (writers plainEnv) [.make ([], sampleHeader), .make ([], sampleHeader),
      .call 0 (.point (List.replicate 28 1#8)), .assign 0 1, .call 0 (.point (List.replicate 28 2#8))] = .ok x ∧
      (x.1.objs = [some 1, some 1] ∧ x.1.objs = [some 1, some 1]) := Outcome.exists_of_check (by decide +kernel)
  refine ⟨x, hx, h1, ?_, ?_⟩
  · obtain ⟨b, hb, -⟩ := (writer_copies (w := x.1) (q := x.2) hx (k := 0) rfl).2 (by decide)
    exact ⟨b, hb⟩
  · exact (writer_copies (w := x.1) (q := x.2) hx (k := 1) rfl).1 (by decide)

end LibLAS.Copies
