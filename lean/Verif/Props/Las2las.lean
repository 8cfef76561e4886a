import Verif.Lemmas.Las2las
import Verif.Props.Reset
import Verif.Props.WriteRead
import Verif.Props.Records
/-
C61 to C64: las2las copies points, repairs headers, splits output.
-/
namespace LibLAS
open Spec Point

namespace Las2las

/-- A run has an input it can work on: a file that opens, whose header has an ordinary scale and offset, a record long
enough for its format, and no readable schema record (files written by libLAS never have one). `ps` are the points a
reader with the given filters and transforms delivers. Transforms keep the length of a record. -/
structure Input (env : Env) (today : BitVec 16 × BitVec 16) (o : Opts) (input : List Byte) (r₀ : Reader)
    (ps : List (List Byte)) : Prop where
  opens : Reader.make env today (IStream.onFile input) = .ok r₀
  points : delivers ((r₀.setFilters o.filters).setTransforms o.transforms) ps
  long : 227 ≤ input.length
  schema : NoSchema env r₀.hdr.vlrs
  ordinary : OrdinaryScaling r₀.hdr.toP
  record : formatSize r₀.hdr.schema.fmt ≤ r₀.hdr.dataRecordLength
  lengths : ∀ t ∈ o.transforms, ∀ p : List Byte, (t p).length = p.length

/-- The header for the output is one a file can be made from. `w` is the writer on the new file. -/
structure Target (env : Env) (h : Header) (w : Writer) : Prop where
  storable : StorableHeader h
  make : Writer.make env (OStream.onFile []) h = .ok w
  small : h.headerSize.toNat + recordBytes w.hdr.vlrs + 4 < 2 ^ 31
  schema : NoSchema env w.hdr.vlrs
  positive : 0 < h.dataRecordLength
  sane : h.schema.byteSize < 2 ^ 16

/-- Moreover its records are no longer than those of the input (otherwise bytes behind the record are written,
`longer_output_ub`). -/
structure Output (env : Env) (r₀ : Reader) (h : Header) (w : Writer) : Prop extends Target env h w where
  fits : h.dataRecordLength ≤ r₀.hdr.dataRecordLength

theorem ordinary_finite {h : Header} (hs : OrdinaryScaling h.toP) : FiniteScaling h := by
  obtain ⟨⟨sx, ox, hsx, hox, -⟩, ⟨sy, oy, hsy, hoy, -⟩, ⟨sz, oz, hsz, hoz, -⟩⟩ := hs
  exact ⟨⟨sx, sy, sz, hsx, hsy, hsz⟩, ⟨ox, oy, oz, hox, hoy, hoz⟩⟩

section
variable {env : Env} {today : BitVec 16 × BitVec 16} {o : Opts} {input : List Byte} {r₀ : Reader}
  {ps : List (List Byte)} {h : Header} {w : Writer}

theorem Target.writing (ho : Target env h w) : Writing env w [] ∧
    (w.hdr.dataRecordLength = h.dataRecordLength ∧ w.hdr.schema = h.schema ∧ w.hdr.scale = h.scale ∧
      w.hdr.offset = h.offset ∧ w.hdr.verMinor = h.verMinor ∧ w.hdr.min = h.min ∧ w.hdr.max = h.max ∧
      w.hdr.byReturn = h.byReturn) := by
  obtain ⟨pad, hf⟩ := new_file (StorableHeader.good ho.storable) ho.storable.size ho.make ho.small
  refine ⟨hf.writing ho.storable (Or.inl ho.schema) ho.positive ho.small, ?_⟩
  rw [hf.hdr]
  exact ⟨rfl, rfl, rfl, rfl, rfl, rfl, rfl, rfl⟩

theorem toFile (ho : Target env h w) {f : List Byte} {c : List (List Byte)} {r : Reader}
    (hf : FileWith env today w.hdr w.hdr.vlrs f c r) : FileWith env today h (outputRecords env h) f c r := by
  obtain ⟨-, e1, e2, e3, e4, e5, -⟩ := ho.writing
  obtain ⟨pad, hn⟩ := new_file (StorableHeader.good ho.storable) ho.storable.size ho.make ho.small
  have ev : w.hdr.vlrs = outputRecords env h := newVLRs_eq hn.vlrs
  have es : w.hdr.systemId = h.systemId ∧ w.hdr.softwareId = h.softwareId ∧ w.hdr.doy = h.doy ∧ w.hdr.year = h.year := by
    rw [hn.hdr]; exact ⟨rfl, rfl, rfl, rfl⟩
  exact ⟨hf.opens, by rw [← e1]; exact hf.points, hf.count, by rw [← e1]; exact hf.recordLength,
    by rw [← e2]; exact hf.format, by rw [← e3]; exact hf.scale, by rw [← e4]; exact hf.offset, by rw [← e5]; exact hf.version,
    by rw [systemId_text h, ← es.1]; exact hf.system, by rw [softwareId_text h, ← es.2.1]; exact hf.software,
    by rw [← es.2.2.1]; exact hf.day, by rw [← es.2.2.2]; exact hf.year, by rw [← ev]; exact hf.records,
    by rw [← e1]; exact hf.bytes⟩

theorem Input.lengths_eq (hi : Input env today o input r₀ ps) :
    ∀ p ∈ ps, p.length = r₀.hdr.dataRecordLength ∧ (⟨p, r₀.hdr.toP⟩ : Point).WF := by
  have hopen := open_file hi.long hi.opens hi.schema
  have hk : ((r₀.setFilters o.filters).setTransforms o.transforms).KeepsLength := by
    intro f e
    have hf : ∀ (ts : List (List Byte → List Byte)), (∀ t ∈ ts, ∀ p : List Byte, (t p).length = p.length) →
        ∀ p : List Byte, (ts.foldl (fun p t => t p) p).length = p.length := by
      intro ts
      induction ts with
      | nil => intro _ p; rfl
      | cons t ts ih => intro h p; rw [List.foldl_cons, ih (fun t ht => h t (by simp [ht])), h t (by simp)]
    unfold Reader.setTransforms at e
    dsimp only at e
    split at e
    · cases e
    · injection e with e; subst e; exact hf _ hi.lengths
  intro p hp
  have hl := delivers_lengths hk hi.points p hp
  have hl : p.length = r₀.hdr.dataRecordLength := by
    rw [hl]
    show r₀.point.length = _
    rw [hopen.point, hopen.recordLength]; simp
  refine ⟨hl, hopen.std, ?_⟩
  show formatSize r₀.hdr.schema.fmt ≤ p.length
  rw [hl]; exact hi.record

private theorem Input.handled (hi : Input env today o input r₀ ps) (ho : Output env r₀ h w) :
    ∀ p ∈ ps, Handled id r₀.hdr.toP w.hdr.dataRecordLength p := by
  intro p hp
  obtain ⟨h1, h2⟩ := hi.lengths_eq p hp
  refine ⟨h2, ?_⟩
  rw [ho.writing.2.1, id, h1]; exact ho.fits

theorem Input.short (hi : Input env today o input r₀ ps) : ps.length ≤ r₀.size ∧ ps.length < 2 ^ 32 ∧
    ((r₀.setFilters o.filters).setTransforms o.transforms).size = r₀.size := by
  have hopen := open_file hi.long hi.opens hi.schema
  have h1 := delivers_length hi.points
  have h2 : ((r₀.setFilters o.filters).setTransforms o.transforms).size = r₀.size := rfl
  have h3 : r₀.size < 2 ^ 32 := by rw [hopen.size]; exact BitVec.isLt _
  omega

/-- The state in which the loop begins. -/
def start (o : Opts) (r : Reader) (w : Writer) : Run := ⟨r, [], w, CoordinateSummary.new, budget o, 0⟩

/-- What `process` does after header and reader are prepared. -/
def rest (env : Env) (today : BitVec 16 × BitVec 16) (b : Build) (o : Opts) (h : Header) (w : Writer) (r : Reader) :
    Outcome (List (List Byte)) :=
  (loop env today b o h (r.size + 1) (start o r w)).bind fun s => finish env today b o s

/-- The reader delivers the points `ps`, which can be written as `g p`. -/
structure Prepared (env : Env) (b : Build) (o : Opts) (h : Header) (g : List Byte → List Byte) (w : Writer) (src : PHeader)
    (r : Reader) (ps : List (List Byte)) : Prop where
  points : delivers r ps
  hdr : r.hdr.toP = src
  ordinary : OrdinaryScaling src
  few : ps.length ≤ r.size
  bound : ps.length < 2 ^ 32
  handled : ∀ p ∈ ps, Handled g src w.hdr.dataRecordLength p
  record : ∀ p ∈ ps, recordFor b o src h p = .ok (g p)
  reset : ∃ r', (readRun r (List.replicate (ps.length + 1) .next)).reset env b = .ok r'

private theorem main_eq {b : Build} {edit : Header → Outcome Header} {h' : Header} (hi : Input env today o input r₀ ps)
    (he : edit r₀.hdr = .ok h') (hh : h = { h' with compressed := false }) (ho : Output env r₀ h w)
    (hmin : o.minOffset = false) (hone : ¬ (0 < o.splitPts.toNat ∧ 0 < o.splitMb.toNat)) :
    main env today b o edit input = rest env today b o h w ((r₀.setFilters o.filters).setTransforms o.transforms) := by
  subst hh
  unfold main process
  rw [if_neg hone]
  simp only [Kernel.fetchHeader, hi.opens, Outcome.bind_ok, Outcome.pure_eq, he]
  simp only [chooseOffset, hmin, Bool.false_eq_true, if_false, Outcome.bind_ok, ho.make]
  rfl

theorem final_reset {b : Build} (hi : Input env today o input r₀ ps) (n : Nat) :
    ∃ r', (readRun ((r₀.setFilters o.filters).setTransforms o.transforms) (List.replicate n .next)).reset env b = .ok r' := by
  have hopen := open_file hi.long hi.opens hi.schema
  have hpos : 0 < r₀.hdr.dataRecordLength := by
    have h1 := hi.record
    have h2 := hopen.std
    have : 0 < formatSize r₀.hdr.schema.fmt := by cases r₀.hdr.schema.fmt <;> simp [formatSize]
    omega
  obtain ⟨r, e, -⟩ := reset_header_partial b hi.long hi.opens hi.schema hpos (ordinary_finite hi.ordinary)
    ([.op (.filters o.filters), .op (.transforms o.transforms)] ++ (List.replicate n (.op .next)) ++ [.reset]) (by
      intro c hc
      simp only [List.mem_append, List.mem_cons, List.not_mem_nil, or_false, List.mem_replicate] at hc
      rcases hc with ((rfl | rfl) | ⟨-, rfl⟩) | rfl
      · trivial
      · exact hi.lengths
      · trivial
      · trivial)
  have key : ∀ (n : Nat) (r : Reader), callRun env b r (List.replicate n (.op .next) ++ [.reset]) =
      callRun env b (readRun r (List.replicate n .next)) [.reset] := by
    intro n
    induction n with
    | zero => intro r; rfl
    | succ n ih => intro r; rw [List.replicate_succ, List.replicate_succ]; exact ih _
  rw [List.append_assoc] at e
  have e : callRun env b ((r₀.setFilters o.filters).setTransforms o.transforms) (List.replicate n (.op .next) ++ [.reset]) = .ok r := e
  rw [key] at e
  unfold callRun at e
  cases hx : (readRun ((r₀.setFilters o.filters).setTransforms o.transforms) (List.replicate n .next)).reset env b with
  | ok r' => exact ⟨r', rfl⟩
  | throw x => rw [hx] at e; cases e
  | ub => rw [hx] at e; cases e

private theorem prepared {b : Build} (hi : Input env today o input r₀ ps) (ho : Output env r₀ h w) (hmin : o.minOffset = false) :
    Prepared env b o h id w r₀.hdr.toP ((r₀.setFilters o.filters).setTransforms o.transforms) ps := by
  obtain ⟨n1, n2, n3⟩ := hi.short
  refine ⟨hi.points, rfl, hi.ordinary, by omega, n2, hi.handled ho, ?_, final_reset hi _⟩
  intro p _
  unfold recordFor
  rw [hmin]; rfl

private theorem start_mid (b : Build) (g : List Byte → List Byte) {r : Reader} {src : PHeader} (h : r.hdr.toP = src) :
    Mid b g w src (start o r w) [] := ⟨rfl, rfl, h⟩

theorem rest_one {b : Build} {g : List Byte → List Byte} {src : PHeader} {r₁ : Reader} (hp : Prepared env b o h g w src r₁ ps)
    (ho : Target env h w) (hmb : o.splitMb = 0) (hpts : o.splitPts = 0) :
    ∃ f r, rest env today b o h w r₁ = .ok [f] ∧ FileWith env today h (outputRecords env h) f (ps.map g) r ∧
      (ps ≠ [] → ∀ as, ps.map (fun p => observe b ⟨p, src⟩) = as.map .ok → Describes src as r.hdr) ∧
      (ps = [] → r.hdr.min = h.min ∧ r.hdr.max = h.max ∧ r.hdr.byReturn.take 5 = h.byReturn.take 5) := by
  obtain ⟨hw, hl, -, -, -, -, hmi, hma, hby⟩ := ho.writing
  obtain ⟨s, fs, full, last, e1, e2, e3, e4, e5, e6⟩ := loop_ok (today := today) (b := b) (o := o) (g := g) (K := 2 ^ 32)
    ho.make hw ho.schema hp.ordinary (by norm_num) (fun _ => false) id (fun j s => j = j) (by
      intro s
      unfold round
      show (emit b o h s).bind _ = (emit b o h s).bind _
      cases emit b o h s with
      | ok s =>
        show ((splitBytes env today b o h s).bind fun s => splitPoints env today b o h s) = .ok s
        unfold splitBytes
        rw [if_neg (by rw [hmb]; simp)]
        show splitPoints env today b o h s = .ok s
        unfold splitPoints
        rw [if_neg (by rw [hpts]; simp)]
      | throw e => rfl
      | ub => rfl) (fun _ _ _ _ _ _ => rfl) (fun _ _ _ _ => rfl) (fun j _ _ _ _ hj => by simp; omega) (fun s => ⟨rfl, rfl, rfl, rfl, rfl⟩)
    ps (r₁.size + 1) (start o r₁ w) [] hp.points (by have := hp.few; omega) (start_mid b g hp.hdr) (by simp) rfl
    (by simpa using hp.handled) hp.record (by simpa using hp.bound)
  rw [List.nil_append, splitEvery_short (by have := hp.bound; omega)] at e4
  have hfl : full = [] ∧ last = ps := by
    cases full with
    | nil => simpa using e4.symm
    | cons a t => have := congrArg List.length e4; simp at this
  obtain ⟨rfl, rfl⟩ := hfl
  have hfs : fs = [] := by cases e5; rfl
  subst hfs
  obtain ⟨r', er'⟩ := hp.reset
  have hrd : s.reader.reset env b = .ok r' := by rw [e6]; exact er'
  have hdone : s.done = [] := e2
  by_cases hne : last = []
  · subst hne
    have hwr : s.writer = w := by have := e3.writer; cases this; rfl
    obtain ⟨g, f, r, q1, q2, q3, q4, q5, q6, q7⟩ := empty_file today b hw ho.schema s.summary
    refine ⟨f, r, ?_, toFile ho q4, fun h => absurd rfl h, fun _ => ⟨by rw [q5, hmi], by rw [q6, hma], by rw [q7, hby]⟩⟩
    unfold rest
    rw [e1]
    show finish env today b o s = _
    unfold finish
    rw [if_pos ⟨hmb, hpts⟩, hwr]
    simp only [hrd, q1, q2, q3, Outcome.bind_ok, Outcome.pure_eq, hdone, List.nil_append]
  · obtain ⟨as, has⟩ := observed b hp.handled
    obtain ⟨g0, g, f, r, q1, q2, q3, q4, q5⟩ := repaired_file today hw ho.schema hp.ordinary hne hp.handled hp.bound has e3.writer e3.summary
    refine ⟨f, r, ?_, toFile ho q4, fun _ as' h' => ?_, fun h => absurd h hne⟩
    · unfold rest
      rw [e1]
      show finish env today b o s = _
      unfold finish
      rw [if_pos ⟨hmb, hpts⟩]
      simp only [hrd, q1, q2, q3, Outcome.bind_ok, Outcome.pure_eq, hdone, List.nil_append]
    · have : as = as' := by
        have hinj : Function.Injective (Outcome.ok : Attrs → Outcome Attrs) := fun _ _ h => by cases h; rfl
        exact List.map_injective_iff.2 hinj (has.symm.trans h')
      rw [← this]; exact q5

/-- C61, C62: las2las without split options. The output is one file, which holds exactly the points the filtered and
transformed input delivers, in order (as much of each as the output's record length says), and advertises their number;
record length, format, scale, offset, version, identifiers and date are those of the prepared header, and the variable
records are those a new file gets (C49). If there are points, the bounds of the
header are those of the points up to 15 significant digits and the counts by return are those of the points; if there are
none, bounds and counts stay those of the prepared header. Proved without `--min-offset`, compression and reprojection. -/
theorem copy_partial {b : Build} {edit : Header → Outcome Header} {h' : Header} (hi : Input env today o input r₀ ps)
    (he : edit r₀.hdr = .ok h') (hh : h = { h' with compressed := false }) (ho : Output env r₀ h w)
    (hmin : o.minOffset = false) (hmb : o.splitMb = 0) (hpts : o.splitPts = 0) :
    ∃ f r, main env today b o edit input = .ok [f] ∧ FileWith env today h (outputRecords env h) f ps r ∧
      (ps ≠ [] → ∀ as, ps.map (fun p => observe b ⟨p, r₀.hdr.toP⟩) = as.map .ok → Describes r₀.hdr.toP as r.hdr) ∧
      (ps = [] → r.hdr.min = h.min ∧ r.hdr.max = h.max ∧ r.hdr.byReturn.take 5 = h.byReturn.take 5) := by
  obtain ⟨f, r, h1, h2⟩ := rest_one (today := today) (b := b) (prepared hi ho hmin) ho.toTarget hmb hpts
  rw [List.map_id] at h2
  exact ⟨f, r, by rw [main_eq hi he hh ho hmin (by rw [hpts]; simp), h1], h2⟩

/-- What a split run leaves, when the point `p` is written as `g p`: the finished files with the full pieces, each described by its header, and the last file
with the rest, whose bounds and counts by return are still those of the prepared header. -/
structure PiecesAs (g : List Byte → List Byte) (env : Env) (today : BitVec 16 × BitVec 16) (b : Build) (src : PHeader) (h : Header)
    (files : List (List Byte)) (pieces : List (List (List Byte))) : Prop where
  same : files.length = pieces.length
  content : ∀ i f c, files[i]? = some f → pieces[i]? = some c → ∃ r, FileWith env today h (outputRecords env h) f (c.map g) r ∧
    (i + 1 < pieces.length → ∀ as, c.map (fun p => observe b ⟨p, src⟩) = as.map .ok → Describes src as r.hdr) ∧
    (i + 1 = pieces.length → r.hdr.min = h.min ∧ r.hdr.max = h.max ∧ r.hdr.byReturn.take 5 = h.byReturn.take 5)

/-- What a split run leaves: the finished files with the full pieces, each described by its header, and the last file
with the rest, whose bounds and counts by return are still those of the prepared header. -/
structure Pieces (env : Env) (today : BitVec 16 × BitVec 16) (b : Build) (src : PHeader) (h : Header)
    (files : List (List Byte)) (pieces : List (List (List Byte))) : Prop where
  same : files.length = pieces.length
  content : ∀ i f c, files[i]? = some f → pieces[i]? = some c → ∃ r, FileWith env today h (outputRecords env h) f c r ∧
    (i + 1 < pieces.length → ∀ as, c.map (fun p => observe b ⟨p, src⟩) = as.map .ok → Describes src as r.hdr) ∧
    (i + 1 = pieces.length → r.hdr.min = h.min ∧ r.hdr.max = h.max ∧ r.hdr.byReturn.take 5 = h.byReturn.take 5)

theorem PiecesAs.plain {b : Build} {src : PHeader} {files : List (List Byte)} {pieces : List (List (List Byte))}
    (hp : PiecesAs id env today b src h files pieces) : Pieces env today b src h files pieces :=
  ⟨hp.same, fun i f c hf hc => by
    have := hp.content i f c hf hc
    rwa [List.map_id] at this⟩

private theorem pieces_of {b : Build} {g : List Byte → List Byte} (ho : Target env h w) {src : PHeader} {fs : List (List Byte)} {lastf : List Byte}
    {full : List (List (List Byte))} {last : List (List Byte)}
    (hd : List.Forall₂ (DoneFile env today b g w src) fs full) {r : Reader}
    (hl : FileWith env today w.hdr w.hdr.vlrs lastf (last.map g) r)
    (h1 : r.hdr.min = w.hdr.min ∧ r.hdr.max = w.hdr.max ∧ r.hdr.byReturn.take 5 = w.hdr.byReturn.take 5) :
    PiecesAs g env today b src h (fs ++ [lastf]) (full ++ [last]) := by
  obtain ⟨-, -, -, -, -, -, hmi, hma, hby⟩ := ho.writing
  have hlen := hd.length_eq
  refine ⟨by simp [hlen], ?_⟩
  intro i f c hf hc
  by_cases hi : i < fs.length
  · rw [List.getElem?_append_left hi] at hf
    rw [List.getElem?_append_left (by omega)] at hc
    have hdi := (List.forall₂_iff_get.1 hd).2 i hi (by omega)
    obtain ⟨hi1, rfl⟩ := List.getElem?_eq_some_iff.1 hf
    obtain ⟨hi2, rfl⟩ := List.getElem?_eq_some_iff.1 hc
    obtain ⟨r, as, d1, d2, d3⟩ := hdi
    refine ⟨r, toFile ho d1, fun _ as' h' => ?_, fun h => ?_⟩
    · have : as = as' := by
        have hinj : Function.Injective (Outcome.ok : Attrs → Outcome Attrs) := fun _ _ h => by cases h; rfl
        exact List.map_injective_iff.2 hinj (d2.symm.trans h')
      rw [← this]; exact d3
    · simp at h; omega
  · have hi' : i = fs.length := by
      have := (List.getElem?_eq_some_iff.1 hf).1; simp at this; omega
    subst hi'
    have hf : lastf = f := by simpa using hf
    have hc : last = c := by rw [hlen] at hc; simpa using hc
    subst hf hc
    exact ⟨r, toFile ho hl, fun h => by simp at h; omega, fun _ => ⟨by rw [h1.1, hmi], by rw [h1.2.1, hma], by rw [h1.2.2, hby]⟩⟩

private theorem split_end {b : Build} {g : List Byte → List Byte} {src : PHeader} {r₁ : Reader}
    (hp : Prepared env b o h g w src r₁ ps) (ho : Target env h w)
    (hsp : ¬ (o.splitMb = 0 ∧ o.splitPts = 0)) {K : Nat} {s : Run} {fs : List (List Byte)}
    {full : List (List (List Byte))} {last : List (List Byte)}
    (e1 : loop env today b o h (r₁.size + 1) (start o r₁ w) = .ok s) (e2 : s.done = (start o r₁ w).done ++ fs)
    (e3 : Mid b g w src s last) (e4 : splitEvery K ([] ++ ps) = full ++ [last])
    (e5 : List.Forall₂ (DoneFile env today b g w src) fs full) :
    ∃ files, rest env today b o h w r₁ = .ok files ∧ PiecesAs g env today b src h files (splitEvery K ps) := by
  obtain ⟨hw, hl, -⟩ := ho.writing
  rw [List.nil_append] at e4
  have hsub : ∀ p ∈ last, p ∈ ps := by
    intro p hq
    have : last ∈ splitEvery K ps := by rw [e4]; simp
    unfold splitEvery at this
    obtain ⟨i, -, rfl⟩ := List.mem_map.1 this
    exact List.mem_of_mem_drop (List.mem_of_mem_take hq)
  have hll : last.length ≤ ps.length := by
    have : last ∈ splitEvery K ps := by rw [e4]; simp
    unfold splitEvery at this
    obtain ⟨i, -, rfl⟩ := List.mem_map.1 this
    simp
  obtain ⟨r, q1, q2⟩ := plain_file today hw ho.schema (ps := last.map g) (fun p hq => by
    obtain ⟨q, hm, rfl⟩ := List.mem_map.1 hq; exact (hp.handled q (hsub q hm)).len)
    (by rw [List.length_map]; have := hp.bound; omega) e3.writer
  refine ⟨fs ++ [s.writer.close.buf], ?_, by rw [e4]; exact pieces_of ho e5 q1 q2⟩
  unfold rest
  rw [e1]
  show finish env today b o s = _
  unfold finish
  rw [if_neg hsp, e2]
  rfl

theorem rest_points {b : Build} {g : List Byte → List Byte} {src : PHeader} {r₁ : Reader} (hp : Prepared env b o h g w src r₁ ps)
    (ho : Target env h w) (hmb : o.splitMb = 0) (hpts : o.splitPts ≠ 0) :
    ∃ files, rest env today b o h w r₁ = .ok files ∧
      PiecesAs g env today b src h files (splitEvery o.splitPts.toNat ps) := by
  obtain ⟨hw, hl, -⟩ := ho.writing
  have hk : 0 < o.splitPts.toNat := by
    rcases Nat.eq_zero_or_pos o.splitPts.toNat with h | h
    · exact absurd (BitVec.eq_of_toNat_eq h) hpts
    · exact h
  have hk2 := o.splitPts.isLt
  obtain ⟨s, fs, full, last, e1, e2, e3, e4, e5, -⟩ := loop_ok (today := today) (b := b) (o := o) (g := g) (K := o.splitPts.toNat)
    ho.make hw ho.schema hp.ordinary hk (fun s => s.points = o.splitPts) (fun s => { s with points := 0 })
    (fun j s => s.points = BitVec.ofNat 32 j) (by
      intro s
      unfold round
      show (emit b o h s).bind _ = (emit b o h s).bind _
      cases emit b o h s with
      | ok s =>
        show ((splitBytes env today b o h s).bind fun s => splitPoints env today b o h s) = _
        unfold splitBytes
        rw [if_neg (by rw [hmb]; simp)]
        show splitPoints env today b o h s = _
        unfold splitPoints
        by_cases hd : s.points = o.splitPts
        · rw [if_pos ⟨hk, hmb, hd⟩]
          show _ = if decide (s.points = o.splitPts) = true then _ else _
          rw [if_pos (by simpa using hd)]; rfl
        · rw [if_neg (fun h => hd h.2.2)]
          show _ = if decide (s.points = o.splitPts) = true then _ else _
          rw [if_neg (by simpa using hd)]
      | throw e => rfl
      | ub => rfl)
    (fun j s s' hc _ h => by rw [h, hc]; simp [BitVec.ofNat_add]) (fun _ _ _ h => h)
    (fun j s hc h0 hj hlt => by
      rw [hc, decide_eq_true_eq]
      constructor
      · intro h
        have := congrArg BitVec.toNat h
        rw [BitVec.toNat_ofNat, Nat.mod_eq_of_lt hlt] at this; exact this
      · intro h; rw [h]; simp)
    (fun s => ⟨rfl, rfl, rfl, rfl, rfl⟩)
    ps (r₁.size + 1) (start o r₁ w) [] hp.points (by have := hp.few; omega) (start_mid b g hp.hdr) (by simpa using hk) rfl
    (by simpa using hp.handled) hp.record (by simpa using hp.bound)
  exact split_end hp ho (fun h => hpts h.2) e1 e2 e3 e4 e5
/-- C63: `--split-pts k`. File number `i` (from 0) holds the points `i * k` to `i * k + k - 1` the filtered and transformed
input delivers; there are `n / k + 1` files, so an empty one at the end when `k` divides `n`. All but the last are
described by their headers; the last keeps bounds and counts of the prepared header. -/
theorem split_points_partial {b : Build} {edit : Header → Outcome Header} {h' : Header} (hi : Input env today o input r₀ ps)
    (he : edit r₀.hdr = .ok h') (hh : h = { h' with compressed := false }) (ho : Output env r₀ h w)
    (hmin : o.minOffset = false) (hmb : o.splitMb = 0) (hpts : o.splitPts ≠ 0) :
    ∃ files, main env today b o edit input = .ok files ∧
      Pieces env today b r₀.hdr.toP h files (splitEvery o.splitPts.toNat ps) := by
  obtain ⟨files, h1, h2⟩ := rest_points (today := today) (b := b) (prepared hi ho hmin) ho.toTarget hmb hpts
  exact ⟨files, by rw [main_eq hi he hh ho hmin (by rw [hmb]; simp), h1], h2.plain⟩

/-- When the byte counter turns negative. -/
private theorem byte_counter {mb : BitVec 32} {S j : Nat} (h0 : 0 < S) (hS : S < 2 ^ 16) (hj : 0 < j)
    (hk : j ≤ pointsPerFile S mb.toNat) :
    (1048576#32 * mb - BitVec.ofNat 32 (j * S)).slt 0 = true ↔ j = pointsPerFile S mb.toNat := by
  have hB : (1048576#32 * mb).toNat = mb.toNat * 2 ^ 20 % 2 ^ 32 := by
    rw [BitVec.toNat_mul]; simp [Nat.mul_comm]
  have hslt : ∀ x : BitVec 32, x.slt 0 = true ↔ 2 ^ 31 ≤ x.toNat := by
    intro x
    rw [BitVec.slt_iff_toInt_lt, BitVec.toInt_eq_toNat_cond]
    have := x.isLt
    simp only [BitVec.ofNat_eq_ofNat, BitVec.toInt_zero]
    split <;> omega
  have hdvd : 2 ^ 20 ∣ mb.toNat * 2 ^ 20 % 2 ^ 32 := by
    rw [Nat.dvd_mod_iff ⟨2 ^ 12, by norm_num⟩]; exact ⟨mb.toNat, by ring⟩
  rw [hslt, BitVec.toNat_sub, hB]
  unfold pointsPerFile at hk ⊢
  dsimp only at hk ⊢
  have hlt : mb.toNat * 2 ^ 20 % 2 ^ 32 < 2 ^ 32 := Nat.mod_lt _ (by norm_num)
  generalize mb.toNat * 2 ^ 20 % 2 ^ 32 = B at *
  split at hk
  · rename_i hle
    rw [if_pos hle]
    have h1 : B / S * S ≤ B := Nat.div_mul_le_self B S
    have h2 : B < (B / S + 1) * S := by
      have := Nat.lt_div_mul_add (a := B) h0
      rw [Nat.succ_mul]; omega
    rcases Nat.lt_or_ge (B / S) j with hjj | hjj
    · have hj2 : j = B / S + 1 := by omega
      have h3 : j * S = B / S * S + S := by rw [hj2, Nat.succ_mul]
      have h5 : B < j * S := by rw [hj2]; exact h2
      have hm : (BitVec.ofNat 32 (j * S)).toNat = j * S := by rw [BitVec.toNat_ofNat, Nat.mod_eq_of_lt (by omega)]
      rw [hm]
      refine ⟨fun _ => hj2, fun _ => ?_⟩
      omega
    · have h3 : j * S ≤ B := (Nat.mul_le_mul_right _ hjj).trans h1
      have h4 : 0 < j * S := Nat.mul_pos hj h0
      have hm : (BitVec.ofNat 32 (j * S)).toNat = j * S := by rw [BitVec.toNat_ofNat, Nat.mod_eq_of_lt (by omega)]
      rw [hm]
      constructor
      · intro h; omega
      · intro h; omega
  · rename_i hle
    rw [if_neg hle]
    have hj1 : j = 1 := by omega
    subst hj1
    obtain ⟨q, hq⟩ := hdvd
    have hm : (BitVec.ofNat 32 (1 * S)).toNat = S := by rw [Nat.one_mul, BitVec.toNat_ofNat, Nat.mod_eq_of_lt (by omega)]
    rw [hm]
    simp only [iff_true]
    omega

theorem rest_bytes {b : Build} {g : List Byte → List Byte} {src : PHeader} {r₁ : Reader} (hp : Prepared env b o h g w src r₁ ps)
    (ho : Target env h w) (hmb : o.splitMb ≠ 0) (hpts : o.splitPts = 0) :
    ∃ files, rest env today b o h w r₁ = .ok files ∧
      PiecesAs g env today b src h files (splitEvery (pointsPerFile h.dataRecordLength o.splitMb.toNat) ps) := by
  obtain ⟨hw, hl, -⟩ := ho.writing
  have hk : 0 < o.splitMb.toNat := by
    rcases Nat.eq_zero_or_pos o.splitMb.toNat with h | h
    · exact absurd (BitVec.eq_of_toNat_eq h) hmb
    · exact h
  have hS : h.schema.byteSize = h.dataRecordLength := (Nat.mod_eq_of_lt ho.sane).symm
  have hpos := ho.positive
  have hsane := ho.sane
  have hK : 0 < pointsPerFile h.dataRecordLength o.splitMb.toNat := by unfold pointsPerFile; dsimp only; split <;> exact Nat.succ_pos _
  obtain ⟨s, fs, full, last, e1, e2, e3, e4, e5, -⟩ := loop_ok (today := today) (b := b) (o := o)
    (g := g) (K := pointsPerFile h.dataRecordLength o.splitMb.toNat)
    ho.make hw ho.schema hp.ordinary hK (fun s => s.bytes.slt 0) (fun s => { s with bytes := budget o })
    (fun j s => s.bytes = budget o - BitVec.ofNat 32 (j * h.dataRecordLength)) (by
      intro s
      unfold round
      show (emit b o h s).bind _ = (emit b o h s).bind _
      have hsp : ∀ s, splitPoints env today b o h s = .ok s := by
        intro s; unfold splitPoints; rw [if_neg (by rw [hpts]; simp)]
      cases emit b o h s with
      | ok s =>
        show ((splitBytes env today b o h s).bind fun s => splitPoints env today b o h s) = _
        unfold splitBytes
        by_cases hd : s.bytes.slt 0 = true
        · rw [if_pos ⟨hd, hk, hpts⟩]
          show _ = if s.bytes.slt 0 = true then _ else _
          rw [if_pos hd]
          show ((rollOver env today b h s).bind _).bind _ = (rollOver env today b h s).bind _
          cases rollOver env today b h s with
          | ok s => exact hsp _
          | throw e => rfl
          | ub => rfl
        · rw [if_neg (fun h => hd h.1)]
          show splitPoints env today b o h s = if s.bytes.slt 0 = true then _ else _
          rw [if_neg hd, hsp]
      | throw e => rfl
      | ub => rfl)
    (fun j s s' hc h _ => by
      rw [h, hc, hS, Nat.succ_mul, BitVec.ofNat_add]
      exact (by intros; grind : ∀ B x y : BitVec 32, B - x - y = B - (x + y)) _ _ _) (fun _ _ _ h => h)
    (fun j s hc h0 hj hlt => by
      show s.bytes.slt 0 = true ↔ _
      rw [hc]
      exact byte_counter hpos (by omega) h0 hj)
    (fun s => ⟨by simp, rfl, rfl, rfl, rfl⟩)
    ps (r₁.size + 1) (start o r₁ w) [] hp.points (by have := hp.few; omega) (start_mid b g hp.hdr) (by simpa using hK)
    (by simp [start]) (by simpa using hp.handled) hp.record (by simpa using hp.bound)
  exact split_end hp ho (fun h => hmb h.1) e1 e2 e3 e4 e5

/-- C64: `--split-mb m`, for every 32-bit `m`. As for `split_points_partial`, where the number of points of a full file is
`pointsPerFile` of the record length and `m`. -/
theorem split_bytes_partial {b : Build} {edit : Header → Outcome Header} {h' : Header} (hi : Input env today o input r₀ ps)
    (he : edit r₀.hdr = .ok h') (hh : h = { h' with compressed := false }) (ho : Output env r₀ h w)
    (hmin : o.minOffset = false) (hmb : o.splitMb ≠ 0) (hpts : o.splitPts = 0) :
    ∃ files, main env today b o edit input = .ok files ∧
      Pieces env today b r₀.hdr.toP h files (splitEvery (pointsPerFile h.dataRecordLength o.splitMb.toNat) ps) := by
  obtain ⟨files, h1, h2⟩ := rest_bytes (today := today) (b := b) (prepared hi ho hmin) ho.toTarget hmb hpts
  exact ⟨files, by rw [main_eq hi he hh ho hmin (by rw [hpts]; simp), h1], h2.plain⟩

end
end Las2las
end LibLAS
