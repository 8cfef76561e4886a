import Verif.Model.IndexAgain
import Verif.Props.IndexStale
/-
C107: an index object that is prepared again.
-/
namespace LibLAS.Index
open Spec Point

variable {env : Env} {today : BitVec 16 × BitVec 16} {b : LibLAS.Build}

theorem prepFrom_new (s : Setup) (r : Reader) (idx : Option LibLAS.Header) : prepFrom env b s r idx 43 = prep env b s r idx := rfl

/-- A call that finds an index header finds one that names the usual number, 43, for the data records. -/
def Usual (env : Env) (today : BitVec 16 × BitVec 16) (c : PrepCall) : Prop :=
  ∀ r made i, c.open env today = .ok (r, made) → headerRead (c.idx.getD r.hdr) = some i → i.dataId = 43

theorem prep_number {o : Obj} (ho : o.dataId = 43) {c : PrepCall} (hc : Usual env today c) : (o.prep env today b c).1.dataId = 43 := by
  unfold Obj.prep
  dsimp only
  rcases hopen : c.open env today with ⟨r, made⟩ | e | _
  · dsimp only
    split
    · exact ho
    · exact ho
    · dsimp only
      cases hr : headerRead (c.idx.getD r.hdr) with
      | some i => exact hc r made i hopen hr
      | none => exact ho
  · exact ho
  · exact ho

theorem prepAll_number : ∀ (cs : List PrepCall) {o : Obj}, o.dataId = 43 → (∀ c ∈ cs, Usual env today c) → (o.prepAll env today b cs).dataId = 43 := by
  intro cs
  induction cs with
  | nil => intro o ho _; exact ho
  | cons c cs ih =>
    intro o ho hc
    show ((o.prep env today b c).1.prepAll env today b cs).dataId = 43
    exact ih (prep_number ho (hc c (by simp))) (fun c' h => hc c' (by simp [h]))

/-- **C107** An index object that has been prepared any number of times before, and has met no index but those whose data records have the usual number:
`Prep` returns what it returns for a new object (whether it throws, and what, included). If it returns and its stream could be opened, the object has
the reader and the header of the index that the new object would have, and says of itself that it is ready exactly if `Prep` said so. Missing: a stream
that cannot be opened, an index of another number, the readers the object made (refuted below). -/
theorem prepared_again_partial (h0 h1 : LibLAS.Header) (cs : List PrepCall) (hcs : ∀ c ∈ cs, Usual env today c) (c : PrepCall) :
    let o := (Obj.new h0).prepAll env today b cs
    (o.prep env today b c).2 = ((Obj.new h1).prep env today b c).2 ∧
    ∀ r made ready, c.open env today = .ok (r, made) → (o.prep env today b c).2 = .ok ready →
      (o.prep env today b c).1.reader = some r ∧ ((Obj.new h1).prep env today b c).1.reader = some r ∧
      (o.prep env today b c).1.hdr = ((Obj.new h1).prep env today b c).1.hdr ∧
      (o.prep env today b c).1.ready = ready ∧ ((Obj.new h1).prep env today b c).1.ready = ready := by
  intro o
  have ho : o.dataId = 43 := prepAll_number cs rfl hcs
  clear_value o
  unfold Obj.prep
  rw [ho]
  dsimp only
  rcases hopen : c.open env today with ⟨r, made⟩ | e | _
  · dsimp only
    have hn : (Obj.new h1).dataId = 43 := rfl
    rw [hn]
    cases hp : prepFrom env b c.s r c.idx 43 with
    | ok life =>
      refine ⟨rfl, ?_⟩
      intro r' made' ready h1 h2
      injection h1 with h1
      injection h1 with h1 h3
      injection h2 with h2
      subst h1 h2
      exact ⟨rfl, rfl, rfl, rfl, rfl⟩
    | throw e => exact ⟨rfl, fun _ _ _ _ h => by cases h⟩
    | ub => exact ⟨rfl, fun _ _ _ _ h => by cases h⟩
  · exact ⟨rfl, fun _ _ _ h => by cases h⟩
  · exact ⟨rfl, fun _ _ _ h => by cases h⟩

/-- **C107** refuted: an object that is ready and is prepared with a stream from which no reader can be made (`Prep` returns `false`) says that it is ready
all the same; its queries all find nothing. -/
theorem failed_still_ready {o : Obj} (ho : o.ready = true) {c : PrepCall} {e : Exc} (hg : c.given = none) (hx : Reader.make env today c.stream = .throw e)
    (he : e.isRuntime = true) :
    (o.prep env today b c).2 = .ok false ∧ (o.prep env today b c).1.ready = true ∧
      ∀ pts q pos, (o.prep env today b c).1.filter pts q pos = .ok [] := by
  have : c.open env today = .throw e := by
    unfold PrepCall.open
    rw [hg, hx]
    rfl
  unfold Obj.prep
  dsimp only
  rw [this]
  dsimp only
  rw [if_pos he]
  exact ⟨rfl, ho, fun _ _ _ => rfl⟩

/-! The records with the data have the number 43, whatever the index header says. -/

def All43 (o : Out) : Prop := ∀ v ∈ o.vlrs, v.recordId = 43#16

theorem All43.emit {o : Out} (h : All43 o) (d : List Byte) (n : Nat) : All43 (o.emit d n) := by
  intro v hv
  unfold Out.emit at hv
  rcases List.mem_append.1 hv with hv | hv
  · exact h v hv
  · rw [List.mem_singleton] at hv
    rw [hv]
    rfl

theorem All43.congr {o o' : Out} (h : All43 o) (e : o'.vlrs = o.vlrs) : All43 o' := by
  unfold All43
  rw [e]
  exact h

theorem All43.init {o o' : Out} {x y : Nat} (h : All43 o) (e : o.init x y = .ok o') : All43 o' := by
  unfold Out.init at e
  dsimp only at e
  obtain ⟨_, -, e⟩ := bind_eq_ok e
  obtain ⟨_, -, e⟩ := bind_eq_ok e
  obtain ⟨_, -, e⟩ := bind_eq_ok e
  obtain ⟨_, -, e⟩ := bind_eq_ok e
  obtain ⟨_, -, e⟩ := bind_eq_ok e
  obtain ⟨_, -, e⟩ := bind_eq_ok e
  injection e with e
  exact h.congr (by rw [← e])

theorem All43.rest : ∀ (k : Nat) {o o' : Out} {bs : List Byte}, All43 o → Out.rest k o bs = .ok o' → All43 o' := by
  intro k
  induction k with
  | zero =>
    intro o o' bs h e
    cases bs with
    | nil => injection e with e; rw [← e]; exact h
    | cons => cases e
  | succ k ih =>
    intro o o' bs h e
    cases bs with
    | nil => injection e with e; rw [← e]; exact h
    | cons =>
      unfold Out.rest at e
      dsimp only at e
      obtain ⟨d, -, e⟩ := bind_eq_ok e
      refine ih ?_ e
      exact All43.emit (o := { o with data := d }) h _ _

theorem All43.cell {o o' : Out} {x y : Nat} {c : Cell} (h : All43 o) (e : o.cell x y c = .ok o') : All43 o' := by
  unfold Out.cell at e
  obtain ⟨o1, e1, e⟩ := bind_eq_ok e
  have h1 : All43 o1 := by
    unfold Out.begin at e1
    split at e1
    · exact h.init e1
    · injection e1 with e1; rw [← e1]; exact h
  split at e
  · dsimp only at e
    obtain ⟨o2, e2, e⟩ := bind_eq_ok e
    have h2 : All43 o2 := by
      unfold Out.flush at e2
      split at e2
      · obtain ⟨o3, e3, e2⟩ := bind_eq_ok e2
        injection e2 with e2
        rw [← e2]
        have h3 : All43 o3 := by
          refine All43.init ?_ e3
          exact All43.emit (h1.congr (o' := { o1 with data := _, points := _ }) rfl) _ _
        exact h3
      · injection e2 with e2; rw [← e2]; exact h1.congr rfl
    split at e
    · unfold Out.append at e
      obtain ⟨_, -, e⟩ := bind_eq_ok e
      obtain ⟨_, -, e⟩ := bind_eq_ok e
      obtain ⟨_, -, e⟩ := bind_eq_ok e
      obtain ⟨_, -, e⟩ := bind_eq_ok e
      obtain ⟨_, -, e⟩ := bind_eq_ok e
      injection e with e
      exact h2.congr (by rw [← e])
    · unfold Out.long at e
      dsimp only at e
      obtain ⟨_, -, e⟩ := bind_eq_ok e
      obtain ⟨_, -, e⟩ := bind_eq_ok e
      obtain ⟨_, -, e⟩ := bind_eq_ok e
      obtain ⟨o4, e4, e⟩ := bind_eq_ok e
      injection e with e
      rw [← e]
      have h4 : All43 o4 := by
        refine All43.rest _ ?_ e4
        exact All43.emit (h2.congr (o' := { o2 with data := _, size := _ }) rfl) _ _
      exact h4
  · injection e with e; rw [← e]; exact h1

theorem All43.cells : ∀ (es : List ((Nat × Nat) × Cell)) {o o' : Out}, All43 o → o.cells es = .ok o' → All43 o' := by
  intro es
  induction es with
  | nil => intro o o' h e; injection e with e; rw [← e]; exact h
  | cons x es ih =>
    intro o o' h e
    unfold Out.cells at e
    obtain ⟨o1, e1, e⟩ := bind_eq_ok e
    exact ih (h.cell e1) e

theorem output_number {cs : List ((Nat × Nat) × Cell)} {vs : List VLR} (h : outputIndex cs = .ok vs) : ∀ v ∈ vs, v.recordId = 43#16 := by
  unfold outputIndex at h
  obtain ⟨o, e, h⟩ := bind_eq_ok h
  injection h with h
  have ho : All43 o := All43.cells cs (o := Out.start) (fun v hv => by cases hv) e
  rw [← h]
  show All43 o.finish
  unfold Out.finish
  split
  · exact All43.emit (ho.congr rfl) _ _
  · exact ho

/-- **C107** refuted: an index that is made for a file without one says in its header that its data is in records of the number that the index last met by the
object gave, whatever that was; the records with the data have the number 43. With another number than that they are not found. -/
theorem number_kept {o : Obj} {s : Setup} {r : Reader} {idx : Option LibLAS.Header} (hfresh : headerRead (idx.getD r.hdr) = none) {life : Life} {i : Info}
    (hp : prepFrom env b s r idx o.dataId = .ok life) (hi : life.info = some i) :
    i.dataId = o.dataId ∧ ∃ dvs, life.hdr.vlrs = (idx.getD r.hdr).vlrs ++ headerRecord i :: dvs ∧ ∀ v ∈ dvs, v.recordId = 43#16 := by
  unfold headerRead at hfresh
  unfold prepFrom at hp
  dsimp only at hp
  obtain ⟨found, hf, hp⟩ := bind_eq_ok hp
  rw [hf] at hfresh
  cases found with
  | some v =>
    obtain ⟨k, hk, hp⟩ := bind_eq_ok hp
    dsimp only at hfresh
    rw [hk] at hfresh
    dsimp only at hfresh
    subst hfresh
    cases hp
  | none =>
    dsimp only at hp
    unfold buildUnlessReadOnly at hp
    split at hp
    · injection hp with hp
      rw [← hp] at hi
      cases hi
    · unfold build at hp
      obtain ⟨r1, -, hp⟩ := bind_eq_ok hp
      obtain ⟨g, -, hp⟩ := bind_eq_ok hp
      cases g with
      | none =>
        injection hp with hp
        rw [← hp] at hi
        cases hi
      | some g =>
        obtain ⟨⟨r2, pts⟩, -, hp⟩ := bind_eq_ok hp
        obtain ⟨out, -, hp⟩ := bind_eq_ok hp
        cases out with
        | none =>
          injection hp with hp
          rw [← hp] at hi
          cases hi
        | some out =>
          obtain ⟨dvs, hd, hp⟩ := bind_eq_ok hp
          obtain ⟨f, -, hp⟩ := bind_eq_ok hp
          injection hp with hp
          subst hp
          injection hi with hi
          subst hi
          refine ⟨rfl, dvs, ?_, output_number hd⟩
          dsimp only
          rw [foldl_addVLR]

theorem prep_counts {o : Obj} {c : PrepCall} (hg : c.given = none) {r : Reader} (hx : Reader.make env today c.stream = .ok r) :
    (o.prep env today b c).1.made = true ∧ (o.prep env today b c).1.lost = if o.made then o.lost + 1 else o.lost := by
  have : c.open env today = .ok (r, true) := by
    unfold PrepCall.open
    rw [hg, hx]
    rfl
  unfold Obj.prep
  dsimp only
  rw [this]
  dsimp only
  split <;> exact ⟨rfl, rfl⟩

theorem prepAll_counts : ∀ (cs : List PrepCall) {o : Obj}, o.made = true → (∀ c ∈ cs, c.given = none ∧ ∃ r, Reader.make env today c.stream = .ok r) →
    (o.prepAll env today b cs).lost = o.lost + cs.length := by
  intro cs
  induction cs with
  | nil => intro o _ _; rfl
  | cons c cs ih =>
    intro o ho hc
    obtain ⟨hg, r, hx⟩ := hc c (by simp)
    obtain ⟨h1, h2⟩ := prep_counts (o := o) (b := b) hg hx
    show ((o.prep env today b c).1.prepAll env today b cs).lost = _
    rw [ih h1 (fun c' h => hc c' (by simp [h])), h2, ho, if_pos rfl, List.length_cons]
    omega

/-- **C107** refuted: of the readers that an object makes for the streams it is prepared with, only the last is ever deleted. -/
theorem readers_left (h0 : LibLAS.Header) (c : PrepCall) (cs : List PrepCall) (hc : ∀ c' ∈ c :: cs, c'.given = none ∧ ∃ r, Reader.make env today c'.stream = .ok r) :
    ((Obj.new h0).prepAll env today b (c :: cs)).leftover = cs.length := by
  obtain ⟨hg, r, hx⟩ := hc c (by simp)
  obtain ⟨h1, h2⟩ := prep_counts (o := Obj.new h0) (b := b) hg hx
  show (((Obj.new h0).prep env today b c).1.prepAll env today b cs).lost = _
  rw [prepAll_counts cs h1 (fun c' h => hc c' (by simp [h])), h2]
  show 0 + cs.length = _
  omega

/-- **C107** Nothing is left over by an object that is prepared once, or with readers of its callers. -/
theorem none_left (h0 : LibLAS.Header) (c : PrepCall) (cs : List PrepCall) (hcs : ∀ c' ∈ cs, c'.given ≠ none) :
    ((Obj.new h0).prepAll env today b (cs ++ [c])).leftover = 0 := by
  have hgiven : ∀ (cs : List PrepCall) (o : Obj), o.made = false → o.lost = 0 → (∀ c' ∈ cs, c'.given ≠ none) →
      (o.prepAll env today b cs).made = false ∧ (o.prepAll env today b cs).lost = 0 := by
    intro cs
    induction cs with
    | nil => intro o h1 h2 _; exact ⟨h1, h2⟩
    | cons c cs ih =>
      intro o h1 h2 h
      have hc := h c (by simp)
      obtain ⟨r, hr⟩ := Option.ne_none_iff_exists'.1 hc
      have ho : c.open env today = .ok (r, false) := by unfold PrepCall.open; rw [hr]
      refine ih (o.prep env today b c).1 ?_ ?_ (fun c' h' => h c' (by simp [h']))
      · unfold Obj.prep
        dsimp only
        rw [ho]
        dsimp only
        split <;> rfl
      · unfold Obj.prep
        dsimp only
        rw [ho, h1]
        dsimp only
        split <;> exact h2
  obtain ⟨h1, h2⟩ := hgiven cs (Obj.new h0) rfl rfl hcs
  unfold Obj.prepAll at h1 h2 ⊢
  rw [List.foldl_append]
  generalize cs.foldl (fun o c => (o.prep env today b c).1) (Obj.new h0) = o at h1 h2
  show (o.prep env today b c).1.lost = 0
  unfold Obj.prep
  dsimp only
  rw [h1, h2]
  split
  · rfl
  · rfl
  · split <;> rfl

/-! Sessions -/

/-- `areaFile` to be prepared from its stream. -/
def areaCall (f : List Byte) : PrepCall := ⟨areaSetup (.fin 0), none, IStream.onFile f, none⟩

/-- The file of `areaFile` with an index of the number 44. -/
def otherFile : List Byte :=
  let made : Outcome Life := do
    let r ← Reader.make plainEnv (1, 2000) (IStream.onFile areaFile)
    prepFrom plainEnv ⟨.little, false⟩ (areaSetup (.fin 0)) r none 44
  match made with
  | .ok l => l.file.getD []
  | _ => []

/-- The hypotheses of `prepared_again_partial` on a file with an index. -/
theorem grown_usual : Usual plainEnv (1, 2000) (areaCall grownFile) := by
  obtain ⟨r, h1, -, -, -, h5, h5', -⟩ := grown_copyable
  intro r' made i ho hr
  unfold PrepCall.open areaCall at ho
  dsimp only at ho
  rw [h1.opens, bindOk] at ho
  injection ho with ho
  injection ho with ho
  subst ho
  unfold headerRead at hr
  have hx := found (hasIndex_second h5 h5') (counted h1)
  unfold areaCall at hr
  rw [Option.getD_none, hx] at hr
  dsimp only at hr
  rw [index_header grownInfo_fits] at hr
  injection hr with hr
  rw [← hr]
  rfl

/-- A new object prepared with `areaFile` is ready; prepared with the first 100 bytes of it then, it is ready still, and finds nothing. -/
theorem area_then_broken : ∀ o, o = (Obj.new (areaHeader 4)).prepAll plainEnv (1, 2000) ⟨.little, false⟩ [areaCall areaFile] →
    o.ready = true ∧ (o.prep plainEnv (1, 2000) ⟨.little, false⟩ (areaCall (areaFile.take 100))).2 = .ok false ∧
    (o.prep plainEnv (1, 2000) ⟨.little, false⟩ (areaCall (areaFile.take 100))).1.ready = true := by
  intro o ho
  have h1 : o.ready = true := by rw [ho]; decide +kernel
  have h2 : ∃ e, Reader.make plainEnv (1, 2000) (IStream.onFile (areaFile.take 100)) = .throw e ∧ e.isRuntime = true := by
    cases h : Reader.make plainEnv (1, 2000) (IStream.onFile (areaFile.take 100)) with
    | throw e =>
      refine ⟨e, rfl, ?_⟩
      have : (match Reader.make plainEnv (1, 2000) (IStream.onFile (areaFile.take 100)) with | .throw e => e.isRuntime | _ => false) = true := by decide +kernel
      rw [h] at this
      exact this
    | ok r =>
      have : (match Reader.make plainEnv (1, 2000) (IStream.onFile (areaFile.take 100)) with | .throw e => e.isRuntime | _ => false) = true := by decide +kernel
      rw [h] at this
      cases this
    | ub =>
      have : (match Reader.make plainEnv (1, 2000) (IStream.onFile (areaFile.take 100)) with | .throw e => e.isRuntime | _ => false) = true := by decide +kernel
      rw [h] at this
      cases this
  obtain ⟨e, h2, h3⟩ := h2
  obtain ⟨k1, k2, -⟩ := failed_still_ready (env := plainEnv) (today := (1, 2000)) (b := ⟨.little, false⟩) (c := areaCall (areaFile.take 100)) h1 rfl h2 h3
  exact ⟨h1, k1, k2⟩

/-- The records of "liblas" in a header: the number, and for an index header the number it gives for the data records. -/
def numbers (h : LibLAS.Header) : List (Nat × Option Nat) :=
  (h.vlrs.filter fun v => v.getUserId false == lit "liblas").map fun v =>
    (v.recordId.toNat, match loadInfo v with | .ok (some i) => if v.recordId = 42#16 then some i.dataId else none | _ => none)

/-- An object that has been prepared with the file with the index of number 44 makes an index for the next file whose header says 44 and whose data
is in a record of number 43; a new object does not. -/
theorem area_after_other :
    numbers ((Obj.new (areaHeader 4)).prepAll plainEnv (1, 2000) ⟨.little, false⟩ [areaCall otherFile, areaCall areaFile]).hdr = [(42, some 44), (43, none)] ∧
    numbers ((Obj.new (areaHeader 4)).prepAll plainEnv (1, 2000) ⟨.little, false⟩ [areaCall areaFile]).hdr = [(42, some 43), (43, none)] ∧
    ((Obj.new (areaHeader 4)).prepAll plainEnv (1, 2000) ⟨.little, false⟩ [areaCall otherFile, areaCall areaFile]).leftover = 1 := by
  refine ⟨?_, ?_, ?_⟩ <;> decide +kernel

end LibLAS.Index
