import Verif.Model.Las2las
import Verif.Lemmas.Repair
import Verif.Lemmas.ReadCount
import Verif.Spec.Las2las
/-
The loop of las2las.
-/
namespace LibLAS
open Spec Point Las2las Summary

theorem FileOf.bytes {env : Env} {h : Header} {f : List Byte} {recs : List (List Byte)} (hf : FileOf env h f recs) :
    227 + recs.length * h.dataRecordLength ≤ f.length := by
  have h1 : 227 ≤ f.length := by
    have := congrArg List.length hf.block
    rw [slice_length, headerBytes_length hf.readable.toSized hf.readable.returns] at this; omega
  have h2 := congrArg List.length hf.data
  rw [slice_length, flatten_length_const hf.len] at h2
  have := hf.size
  have := hf.fits
  by_cases h0 : recs.length * h.dataRecordLength = 0
  · omega
  · omega

theorem shown_canon (v : VLR) : shown v.canon = shown v := by
  simp [shown, VLR.canon, VLR.getUserId, VLR.getDescription, cstr_padTo, cstr_cstr]

theorem shown_canons (vs : List VLR) : (vs.map VLR.canon).map shown = vs.map shown := by
  rw [List.map_map]
  exact List.map_congr_left fun v _ => shown_canon v

/-- The identifiers as read back. -/
theorem id_text (l : List Byte) : cstr (padTo 32 (cstr l)) = cstr l := by rw [cstr_padTo, cstr_cstr]

theorem systemId_text (h : Header) : h.getSystemId false = cstr h.systemId := rfl
theorem softwareId_text (h : Header) : h.getSoftwareId false = cstr h.softwareId := rfl

theorem splitEvery_short {α : Type} {k : Nat} {xs : List α} (h : xs.length < k) : splitEvery k xs = [xs] := by
  unfold splitEvery
  rw [Nat.div_eq_of_lt h]
  simp [List.take_of_length_le h.le]

theorem splitEvery_full {α : Type} {k : Nat} {xs ys : List α} (h0 : 0 < k) (h : xs.length = k) :
    splitEvery k (xs ++ ys) = xs :: splitEvery k ys := by
  unfold splitEvery
  have h1 : (xs ++ ys).length / k + 1 = (ys.length / k + 1) + 1 := by
    rw [List.length_append, h, Nat.add_div_left _ h0]
  rw [h1, List.range_succ_eq_map]
  simp only [List.map_cons, List.map_map, Nat.zero_mul, List.drop_zero]
  congr 1
  · rw [List.take_left' h]
  · apply List.map_congr_left
    intro i _
    simp only [Function.comp]
    rw [Nat.succ_mul, Nat.add_comm, ← h, List.drop_append, List.drop_eq_nil_of_le (Nat.le_add_right _ _)]
    simp

theorem writePoints_append (w : Writer) (xs ys : List (List Byte)) :
    w.writePoints (xs ++ ys) = (w.writePoints xs).bind fun w => w.writePoints ys := by
  induction xs generalizing w with
  | nil => rfl
  | cons x xs ih =>
    rw [List.cons_append, Writer.writePoints, Writer.writePoints]
    show (w.writePoint x).bind _ = ((w.writePoint x).bind _).bind _
    cases w.writePoint x with
    | ok w' => exact ih w'
    | throw e => rfl
    | ub => rfl

theorem addAll_append (b : Build) (s : CoordinateSummary) (xs ys : List Point) :
    CoordinateSummary.addAll b (xs ++ ys) s = (CoordinateSummary.addAll b xs s).bind fun s => CoordinateSummary.addAll b ys s := by
  induction xs generalizing s with
  | nil => rfl
  | cons x xs ih =>
    rw [List.cons_append, CoordinateSummary.addAll, CoordinateSummary.addAll]
    show (s.addPoint b x).bind _ = ((s.addPoint b x).bind _).bind _
    cases s.addPoint b x with
    | ok w' => exact ih w'
    | throw e => rfl
    | ub => rfl

/-- Points that can be handled: long enough for their format, and written as `g p`, long enough for the output record. -/
structure Handled (g : List Byte → List Byte) (src : PHeader) (len : Nat) (p : List Byte) : Prop where
  wf : (⟨p, src⟩ : Point).WF
  len : len ≤ (g p).length

theorem observed (b : Build) {g : List Byte → List Byte} {src : PHeader} {len : Nat} {ps : List (List Byte)} (h : ∀ p ∈ ps, Handled g src len p) :
    ∃ as : List Attrs, ps.map (fun q => observe b ⟨q, src⟩) = as.map .ok := by
  refine ⟨ps.map fun q => view b src.fmt q, ?_⟩
  rw [List.map_map]
  exact List.map_congr_left (fun q hq => observe_eq (h q hq).wf)

/-- A file just written, with at least one point; header fetched, repaired and written back. -/
theorem repaired_file {env : Env} (today : BitVec 16 × BitVec 16) {b : Build} {g : List Byte → List Byte} {w : Writer} {src : PHeader}
    (hw : Writing env w []) (hns : NoSchema env w.hdr.vlrs) (hs : OrdinaryScaling src) {ps : List (List Byte)}
    (hne : ps ≠ []) (hp : ∀ p ∈ ps, Handled g src w.hdr.dataRecordLength p) (hn : ps.length < 2 ^ 32) {as : List Attrs}
    (ho : ps.map (fun q => observe b ⟨q, src⟩) = as.map .ok) {w' : Writer} (hwp : w.writePoints (ps.map g) = .ok w')
    {s : CoordinateSummary} (hsum : CoordinateSummary.addAll b (ps.map fun q => ⟨q, src⟩) .new = .ok s) :
    ∃ g0 g1 f r, Kernel.fetchHeader env today w'.close.buf = .ok g0 ∧ Kernel.repairHeader b s g0 = .ok g1 ∧
      Kernel.rewriteHeader env g1 w'.close.buf = .ok f ∧ FileWith env today w.hdr w.hdr.vlrs f (ps.map g) r ∧
      Describes src as r.hdr := by
  obtain ⟨w2, e1, e2, -⟩ := hw.finish (ps.map g) (fun p h => by
    obtain ⟨q, hq, rfl⟩ := List.mem_map.1 h; exact (hp q hq).len) (by simpa using hn)
  rw [hwp] at e1
  cases e1
  rw [List.nil_append] at e2
  obtain ⟨r0, q1, q2, q3⟩ := e2.read today
  have hk := q2
  obtain ⟨srs, sch, eh, hfmt⟩ := q2.hdr
  have hfmt := hfmt hns
  obtain ⟨p, ps', rfl⟩ := List.exists_cons_of_ne_nil hne
  have hcount := e2.count
  have hcl : (cutTo w.hdr.dataRecordLength ((p :: ps').map g)).length = ((p :: ps').map g).length := by simp [cutTo]
  rw [hcl] at hcount
  have hpc : r0.hdr.pointCount = w'.count := by rw [eh]; rfl
  have h5 : 5 ≤ w.hdr.byReturn.length := e2.readable.returns
  obtain ⟨s', g1, a1, a2, a3, a4⟩ := repair_ok (h := r0.hdr) (fun q hq => (hp q hq).wf) ho hs hn
    ⟨w.hdr.byReturn.take 5, by rw [List.length_take]; omega, by rw [eh]; rfl⟩
    (by
      intro h0
      have : w'.count.toNat = 0 := by rw [← hpc, h0]; rfl
      simp only [List.length_map, List.length_cons] at hcount
      omega)
  rw [hsum] at a1
  cases a1
  obtain ⟨f, f1, f2, f3, f4, f5⟩ := e2.rewrite hns q2 a3
  obtain ⟨r, r1, r2, r3⟩ := f2.read today
  obtain ⟨srs', sch', er, hfr⟩ := r2.hdr
  have hfr := hfr f3
  have eg := a3.eq
  refine ⟨r0.hdr, g1, f, r, by unfold Kernel.fetchHeader; rw [q1]; rfl, a2, f1,
    ⟨r1, r3, ?_, ?_, ?_, ?_, ?_, ?_, ?_, ?_, ?_, ?_, ?_, ?_⟩, ?_⟩
  · rw [← hcount, er, eg, eh]; rfl
  · rw [r2.recordLength, f5]; rfl
  · rw [er]; show sch'.fmt = _; rw [hfr, eg, eh]; exact hfmt
  · rw [er]; show g1.scale = _; rw [eg, eh]; rfl
  · rw [er]; show g1.offset = _; rw [eg, eh]; rfl
  · rw [er]; show g1.verMinor = _; rw [eg, eh]; rfl
  · rw [systemId_text, systemId_text, er]; show cstr (padTo 32 (cstr g1.systemId)) = _; rw [id_text, eg, eh]
    exact id_text _
  · rw [softwareId_text, softwareId_text, er]; show cstr (padTo 32 (cstr g1.softwareId)) = _; rw [id_text, eg, eh]
    exact id_text _
  · rw [er]; show g1.doy = _; rw [eg, eh]; rfl
  · rw [er]; show g1.year = _; rw [eg, eh]; rfl
  · rw [er]; show (g1.vlrs.map VLR.canon).map shown = _; rw [shown_canons, eg, eh]; exact shown_canons _
  · have := f2.bytes; rw [f5, hcl] at this; exact this
  · have hret : (r.hdr.byReturn).take 5 = g1.byReturn.take 5 := by
      rw [er]
      show List.take 5 (g1.byReturn.take 5 ++ [0, 0]) = _
      rw [List.take_append_of_le_length (by rw [List.length_take]; have := a3.returns; omega), List.take_take]
      rfl
    have hmin : r.hdr.min = g1.min := by rw [er]; rfl
    have hmax : r.hdr.max = g1.max := by rw [er]; rfl
    exact ⟨by rw [hmin, hmax]; exact a4.x, by rw [hmin, hmax]; exact a4.y, by rw [hmin, hmax]; exact a4.z,
      by rw [hret]; exact a4.returns⟩

/-- A file just written, as it is. -/
theorem plain_file {env : Env} (today : BitVec 16 × BitVec 16) {w : Writer} (hw : Writing env w [])
    (hns : NoSchema env w.hdr.vlrs) {ps : List (List Byte)} (hp : ∀ p ∈ ps, w.hdr.dataRecordLength ≤ p.length)
    (hn : ps.length < 2 ^ 32) {w' : Writer} (hwp : w.writePoints ps = .ok w') :
    ∃ r, FileWith env today w.hdr w.hdr.vlrs w'.close.buf ps r ∧ r.hdr.min = w.hdr.min ∧ r.hdr.max = w.hdr.max ∧
      r.hdr.byReturn.take 5 = w.hdr.byReturn.take 5 := by
  obtain ⟨w2, e1, e2, -⟩ := hw.finish ps hp (by simpa using hn)
  rw [hwp] at e1
  cases e1
  rw [List.nil_append] at e2
  obtain ⟨r, q1, q2, q3⟩ := e2.read today
  obtain ⟨srs, sch, eh, hfmt⟩ := q2.hdr
  have hfmt := hfmt hns
  have hcount := e2.count
  have hcl : (cutTo w.hdr.dataRecordLength ps).length = ps.length := by simp [cutTo]
  rw [hcl] at hcount
  have h5 : 5 ≤ w.hdr.byReturn.length := e2.readable.returns
  refine ⟨r, ⟨q1, q3, ?_, ?_, ?_, ?_, ?_, ?_, ?_, ?_, ?_, ?_, ?_, ?_⟩, ?_, ?_, ?_⟩
  · rw [← hcount, eh]; rfl
  · rw [q2.recordLength]; rfl
  · rw [eh]; exact hfmt
  · rw [eh]; rfl
  · rw [eh]; rfl
  · rw [eh]; rfl
  · rw [eh]; exact id_text _
  · rw [eh]; exact id_text _
  · rw [eh]; rfl
  · rw [eh]; rfl
  · rw [eh]; exact shown_canons _
  · have := e2.bytes; rw [hcl] at this; exact this
  · rw [eh]; rfl
  · rw [eh]; rfl
  · rw [eh]
    show List.take 5 (w.hdr.byReturn.take 5 ++ [0, 0]) = _
    rw [List.take_append_of_le_length (by rw [List.length_take]; omega), List.take_take]
    rfl

/-- A file just written without points; header fetched, repaired (nothing is changed) and written back. -/
theorem empty_file {env : Env} (today : BitVec 16 × BitVec 16) (b : Build) {w : Writer}
    (hw : Writing env w []) (hns : NoSchema env w.hdr.vlrs) (s : CoordinateSummary) :
    ∃ g f r, Kernel.fetchHeader env today w.close.buf = .ok g ∧ Kernel.repairHeader b s g = .ok g ∧
      Kernel.rewriteHeader env g w.close.buf = .ok f ∧ FileWith env today w.hdr w.hdr.vlrs f [] r ∧ r.hdr.min = w.hdr.min ∧
      r.hdr.max = w.hdr.max ∧ r.hdr.byReturn.take 5 = w.hdr.byReturn.take 5 := by
  obtain ⟨w2, e1, e2, -⟩ := hw.finish [] (by simp) (by simp)
  cases e1
  obtain ⟨r0, q1, q2, q3⟩ := e2.read today
  obtain ⟨srs, sch, eh, hfmt⟩ := q2.hdr
  have hfmt := hfmt hns
  have hcount : w.count.toNat = 0 := e2.count
  have hpc : r0.hdr.pointCount = w.count := by rw [eh]; rfl
  have h5 : 5 ≤ w.hdr.byReturn.length := e2.readable.returns
  have h0 : r0.hdr.pointCount = 0 := by rw [hpc]; exact BitVec.eq_of_toNat_eq hcount
  have hby : r0.hdr.byReturn = w.hdr.byReturn.take 5 ++ [0, 0] := by rw [eh]; rfl
  have a3 : Restated r0.hdr r0.hdr := ⟨rfl, by rw [hby, List.length_append, List.length_take]; simp; omega⟩
  obtain ⟨f, f1, f2, f3, f4, f5⟩ := e2.rewrite hns q2 a3
  obtain ⟨r, r1, r2, r3⟩ := f2.read today
  obtain ⟨srs', sch', er, hfr⟩ := r2.hdr
  have hfr := hfr f3
  refine ⟨r0.hdr, f, r, by unfold Kernel.fetchHeader; rw [q1]; rfl, by unfold Kernel.repairHeader; rw [if_pos h0], f1,
    ⟨r1, r3, ?_, ?_, ?_, ?_, ?_, ?_, ?_, ?_, ?_, ?_, ?_, ?_⟩, ?_, ?_, ?_⟩
  · rw [er]; show r0.hdr.pointCount.toNat = _; rw [h0]; rfl
  · rw [r2.recordLength, f5]; rfl
  · rw [er]; show sch'.fmt = _; rw [hfr, eh]; exact hfmt
  · rw [er]; show r0.hdr.scale = _; rw [eh]; rfl
  · rw [er]; show r0.hdr.offset = _; rw [eh]; rfl
  · rw [er]; show r0.hdr.verMinor = _; rw [eh]; rfl
  · rw [systemId_text, systemId_text, er]; show cstr (padTo 32 (cstr r0.hdr.systemId)) = _; rw [id_text, eh]
    exact id_text _
  · rw [softwareId_text, softwareId_text, er]; show cstr (padTo 32 (cstr r0.hdr.softwareId)) = _; rw [id_text, eh]
    exact id_text _
  · rw [er]; show r0.hdr.doy = _; rw [eh]; rfl
  · rw [er]; show r0.hdr.year = _; rw [eh]; rfl
  · rw [er]; show (r0.hdr.vlrs.map VLR.canon).map shown = _; rw [shown_canons, eh]; exact shown_canons _
  · have := f2.bytes; simp only [cutTo, List.map_nil, List.append_nil, List.length_nil, Nat.zero_mul] at this ⊢; exact this
  · rw [er]; show r0.hdr.min = _; rw [eh]; rfl
  · rw [er]; show r0.hdr.max = _; rw [eh]; rfl
  · rw [er]
    show List.take 5 (r0.hdr.byReturn.take 5 ++ [0, 0]) = _
    rw [hby, List.take_append_of_le_length (by rw [List.length_take, List.length_append, List.length_take]; simp; omega),
      List.take_take, List.take_append_of_le_length (by rw [List.length_take]; omega), List.take_take]
    rfl

/-- Between two rounds: the current file holds `cur`. -/
structure Mid (b : Build) (g : List Byte → List Byte) (w : Writer) (src : PHeader) (s : Run) (cur : List (List Byte)) : Prop where
  writer : w.writePoints (cur.map g) = .ok s.writer
  summary : CoordinateSummary.addAll b (cur.map fun q => ⟨q, src⟩) .new = .ok s.summary
  hdr : s.reader.hdr.toP = src

theorem summary_ok (b : Build) {g : List Byte → List Byte} {src : PHeader} {len : Nat} {ps : List (List Byte)} (h : ∀ p ∈ ps, Handled g src len p) :
    ∃ s, CoordinateSummary.addAll b (ps.map fun q => ⟨q, src⟩) .new = .ok s := by
  cases ps with
  | nil => exact ⟨_, rfl⟩
  | cons p ps =>
    obtain ⟨as, ho⟩ := observed b h
    obtain ⟨s, _, _, _, e, _⟩ := CoordinateSummary.coordinate_summary_exact_partial b src.fmt
      ⟨p, src⟩ (ps.map fun q => ⟨q, src⟩) as (by
        intro q hq
        rw [← List.map_cons (f := fun q => (⟨q, src⟩ : Point))] at hq
        obtain ⟨q', hq', rfl⟩ := List.mem_map.1 hq
        exact ⟨(h q' hq').wf, rfl⟩) (by rw [← ho]; simp)
    exact ⟨s, by rw [List.map_cons]; exact e⟩

theorem emit_ok {env : Env} {b : Build} {o : Opts} {h : Header} {g : List Byte → List Byte} {w : Writer} {src : PHeader}
    (hw : Writing env w []) {s : Run} {cur : List (List Byte)} (hm : Mid b g w src s cur)
    (hp : ∀ p ∈ cur ++ [s.reader.point], Handled g src w.hdr.dataRecordLength p)
    (hrec : recordFor b o src h s.reader.point = .ok (g s.reader.point)) :
    ∃ s', emit b o h s = .ok s' ∧ Mid b g w src s' (cur ++ [s.reader.point]) ∧ s'.reader = s.reader ∧ s'.done = s.done ∧
      s'.bytes = s.bytes - BitVec.ofNat 32 h.schema.byteSize ∧ s'.points = s.points + 1 := by
  obtain ⟨w', e1, -⟩ := writePoints_ok ((cur ++ [s.reader.point]).map g) w hw.recPos hw.good (fun p h => by
    obtain ⟨q, hq, rfl⟩ := List.mem_map.1 h; exact (hp q hq).len)
  obtain ⟨sum, e2⟩ := summary_ok b hp
  have f1 := e1
  have f2 := e2
  rw [List.map_append, writePoints_append, hm.writer] at f1
  rw [List.map_append, addAll_append, hm.summary] at f2
  simp only [Outcome.bind, List.map_cons, List.map_nil, CoordinateSummary.addAll, Writer.writePoints] at f1 f2
  obtain ⟨x, f1, f1'⟩ := bind_ok_inv f1
  obtain ⟨y, f2, f2'⟩ := bind_ok_inv f2
  cases f1'
  cases f2'
  refine ⟨{ s with
      summary := sum
      writer := w'
      bytes := s.bytes - BitVec.ofNat 32 h.schema.byteSize
      points := s.points + 1 }, ?_, ⟨e1, e2, hm.hdr⟩, rfl, rfl, rfl, rfl⟩
  unfold emit
  simp only [hm.hdr, f2, hrec, Outcome.bind_ok, f1, Outcome.pure_eq]

/-- What is known of a finished file. -/
def DoneFile (env : Env) (today : BitVec 16 × BitVec 16) (b : Build) (g : List Byte → List Byte) (w : Writer) (src : PHeader) (f : List Byte)
    (c : List (List Byte)) : Prop :=
  ∃ r as, FileWith env today w.hdr w.hdr.vlrs f (c.map g) r ∧ c.map (fun q => observe b ⟨q, src⟩) = as.map .ok ∧ Describes src as r.hdr

theorem rollOver_ok {env : Env} {today : BitVec 16 × BitVec 16} {b : Build} {h : Header} {g : List Byte → List Byte} {w : Writer} {src : PHeader}
    (hmk : Writer.make env (OStream.onFile []) h = .ok w) (hw : Writing env w []) (hns : NoSchema env w.hdr.vlrs)
    (hs : OrdinaryScaling src) {s : Run} {cur : List (List Byte)} (hm : Mid b g w src s cur) (hne : cur ≠ [])
    (hp : ∀ p ∈ cur, Handled g src w.hdr.dataRecordLength p) (hn : cur.length < 2 ^ 32) :
    ∃ s' f, rollOver env today b h s = .ok s' ∧ Mid b g w src s' [] ∧ s'.reader = s.reader ∧ s'.done = s.done ++ [f] ∧
      DoneFile env today b g w src f cur := by
  obtain ⟨as, ho⟩ := observed b hp
  obtain ⟨g0, g1, f, r, e1, e2, e3, e4, e5⟩ := repaired_file today hw hns hs hne hp hn ho hm.writer hm.summary
  refine ⟨{ s with
    done := s.done ++ [f]
    writer := w
    summary := CoordinateSummary.new }, f, ?_, ⟨rfl, rfl, hm.hdr⟩, rfl, rfl, r, as, e4, ho, e5⟩
  unfold rollOver
  simp only [hmk, e1, e2, e3, Outcome.bind_ok, Outcome.pure_eq]

/-- The loop, for any way of deciding when to start the next file that amounts to: after `K` points. -/
theorem loop_ok {env : Env} {today : BitVec 16 × BitVec 16} {b : Build} {o : Opts} {h : Header} {g : List Byte → List Byte}
    {w : Writer} {src : PHeader}
    (hmk : Writer.make env (OStream.onFile []) h = .ok w) (hw : Writing env w []) (hns : NoSchema env w.hdr.vlrs)
    (hs : OrdinaryScaling src) {K : Nat} (hK : 0 < K) (due : Run → Bool) (restart : Run → Run) (cnt : Nat → Run → Prop)
    (hround : ∀ s, round env today b o h s = (emit b o h s).bind fun s =>
      if due s then (rollOver env today b h s).bind fun s => .ok (restart s) else .ok s)
    (hemit : ∀ j s s', cnt j s → s'.bytes = s.bytes - BitVec.ofNat 32 h.schema.byteSize → s'.points = s.points + 1 →
      cnt (j + 1) s')
    (hcnt : ∀ j s r, cnt j s → cnt j { s with reader := r })
    (hdue : ∀ j s, cnt j s → 0 < j → j ≤ K → j < 2 ^ 32 → (due s = true ↔ j = K))
    (hre : ∀ s, cnt 0 (restart s) ∧ (restart s).reader = s.reader ∧ (restart s).done = s.done ∧
      (restart s).writer = s.writer ∧ (restart s).summary = s.summary) :
    ∀ (ps : List (List Byte)) (fuel : Nat) (s : Run) (cur : List (List Byte)), delivers s.reader ps → ps.length < fuel →
      Mid b g w src s cur → cur.length < K → cnt cur.length s → (∀ p ∈ cur ++ ps, Handled g src w.hdr.dataRecordLength p) →
      (∀ p ∈ ps, recordFor b o src h p = .ok (g p)) → (cur ++ ps).length < 2 ^ 32 →
      ∃ s' fs full last, loop env today b o h fuel s = .ok s' ∧ s'.done = s.done ++ fs ∧ Mid b g w src s' last ∧
        splitEvery K (cur ++ ps) = full ++ [last] ∧ List.Forall₂ (DoneFile env today b g w src) fs full ∧
        s'.reader = readRun s.reader (List.replicate (ps.length + 1) .next) := by
  intro ps
  induction ps with
  | nil =>
    intro fuel s cur hd hf hm hc _ _ _ _
    obtain ⟨k, rfl⟩ : ∃ k, fuel = k + 1 := ⟨fuel - 1, by simp at hf; omega⟩
    refine ⟨{ s with reader := s.reader.readNext.1 }, [], [], cur, ?_, by simp, ⟨hm.writer, hm.summary, ?_⟩, ?_, .nil, rfl⟩
    · have hd : s.reader.readNext.2 = .ok false := hd
      unfold loop
      generalize s.reader.readNext = x at *
      obtain ⟨r, y⟩ := x
      dsimp only at hd
      subst hd
      rfl
    · show s.reader.readNext.1.hdr.toP = src
      rw [(Reader.readNext_forward s.reader).1.hdr]; exact hm.hdr
    · rw [List.append_nil]; exact splitEvery_short hc
  | cons p ps ih =>
    intro fuel s cur hd hf hm hc hcn hp hrec hn
    obtain ⟨k, rfl⟩ : ∃ k, fuel = k + 1 := ⟨fuel - 1, by simp at hf; omega⟩
    obtain ⟨d1, d2, d3⟩ := hd
    have hpt : ({ s with reader := s.reader.readNext.1 } : Run).reader.point = p := d2
    have hm1 : Mid b g w src { s with reader := s.reader.readNext.1 } cur := by
      refine ⟨hm.writer, hm.summary, ?_⟩
      show s.reader.readNext.1.hdr.toP = src
      rw [(Reader.readNext_forward s.reader).1.hdr]; exact hm.hdr
    obtain ⟨s1, a1, a2, a3, a4, a5, a6⟩ := emit_ok (o := o) (h := h) hw hm1 (by
      rw [hpt]; intro q hq; apply hp; simp at hq ⊢; tauto) (by rw [hpt]; exact hrec p (by simp))
    rw [hpt] at a2
    have hcn1 : cnt (cur.length + 1) s1 := hemit _ _ _ (hcnt _ _ _ hcn) a5 a6
    have hr1 : round env today b o h { s with reader := s.reader.readNext.1 } =
        if due s1 then (rollOver env today b h s1).bind fun s => .ok (restart s) else .ok s1 := by
      rw [hround, a1]; rfl
    have hloop : ∀ s2, round env today b o h { s with reader := s.reader.readNext.1 } = .ok s2 →
        loop env today b o h (k + 1) s = loop env today b o h k s2 := by
      intro s2 e
      rw [loop]
      generalize s.reader.readNext = x at *
      obtain ⟨r, y⟩ := x
      dsimp only at d1 e ⊢
      subst d1
      dsimp only
      rw [e]; rfl
    have hlen : (cur ++ [p]).length = cur.length + 1 := by simp
    have happ : cur ++ p :: ps = (cur ++ [p]) ++ ps := by simp
    have hrun : ∀ r, readRun s.reader.readNext.1 (List.replicate (ps.length + 1) .next) = r →
        r = readRun s.reader (List.replicate ((p :: ps).length + 1) .next) := by
      intro r hr
      rw [← hr, List.length_cons, List.replicate_succ (n := ps.length + 1)]
      rfl
    have hf' : ps.length < k := by simp at hf; omega
    rw [happ] at hp hn ⊢
    have hd3 : delivers s1.reader ps := by rw [a3]; exact d3
    by_cases hfull : cur.length + 1 = K
    · have hdt : due s1 = true := (hdue _ _ hcn1 (by omega) (by omega) (by simp at hn; omega)).2 hfull
      obtain ⟨s2, f, b1, b2, b3, b4, b5⟩ := rollOver_ok (today := today) hmk hw hns hs a2 (by simp)
        (fun q hq => hp q (List.mem_append_left _ hq)) (by simp at hn ⊢; omega)
      rw [hdt, b1] at hr1
      have hr1 : round env today b o h { s with reader := s.reader.readNext.1 } = .ok (restart s2) := hr1
      obtain ⟨c0, c1, c2, c3, c4⟩ := hre s2
      obtain ⟨s', fs, full, last, e1, e2, e3, e4, e5, e6⟩ := ih k (restart s2) [] (by rw [c1, b3]; exact hd3) hf'
        ⟨by rw [c3]; exact b2.writer, by rw [c4]; exact b2.summary, by rw [c1]; exact b2.hdr⟩ (by simpa using hK) c0
        (fun q hq => hp q (List.mem_append_right _ (by simpa using hq))) (fun q hq => hrec q (by simp [hq])) (by simp at hn ⊢; omega)
      refine ⟨s', f :: fs, (cur ++ [p]) :: full, last, by rw [hloop _ hr1, e1], ?_, e3, ?_, .cons b5 e5, ?_⟩
      · rw [e2, c2, b4, a4]; simp
      · rw [splitEvery_full hK (by rw [hlen]; exact hfull)]
        rw [List.nil_append] at e4
        rw [e4]; rfl
      · apply hrun; rw [e6, c1, b3, a3]
    · have hdt : due s1 = false := by
        have := hdue _ _ hcn1 (by omega) (by omega) (by simp at hn; omega)
        cases hx : due s1 with
        | false => rfl
        | true => exact absurd (this.1 hx) hfull
      rw [hdt] at hr1
      have hr1 : round env today b o h { s with reader := s.reader.readNext.1 } = .ok s1 := hr1
      obtain ⟨s', fs, full, last, e1, e2, e3, e4, e5, e6⟩ := ih k s1 (cur ++ [p]) hd3 hf' a2 (by rw [hlen]; omega)
        (by rw [hlen]; exact hcn1) hp (fun q hq => hrec q (by simp [hq])) hn
      refine ⟨s', fs, full, last, by rw [hloop _ hr1, e1], by rw [e2, a4], e3, e4, e5, ?_⟩
      apply hrun; rw [e6, a3]

end LibLAS
