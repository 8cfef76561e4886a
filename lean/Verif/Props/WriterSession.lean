import Verif.Lemmas.WriterSession
/-
C97: header, filters and transforms of an open writer.
-/
namespace LibLAS
open Spec

/-! Filters and transforms. -/

/-- Two writers that differ in their filters and transforms only. -/
private def Alike (a b : OpenWriter) : Prop :=
  a.ofs = b.ofs ∧ a.hdr = b.hdr ∧ a.count = b.count ∧ a.recLen = b.recLen

private theorem alike_call (env : Env) {a b : OpenWriter} (h : Alike a b) (c : WriterCall) (hc : isSetting c = false) :
    (∃ a' b', a.call env c = .ok a' ∧ b.call env c = .ok b' ∧ Alike a' b') ∨
    (∃ e, a.call env c = .throw e ∧ b.call env c = .throw e) ∨ (a.call env c = .ub ∧ b.call env c = .ub) := by
  obtain ⟨ofs, hdr, count, recLen, fs, ts⟩ := a
  obtain ⟨ofs', hdr', count', recLen', fs', ts'⟩ := b
  obtain ⟨h1, h2, h3, h4⟩ := h
  dsimp only at h1 h2 h3 h4
  subst h1 h2 h3 h4
  cases c with
  | point d =>
    show (∃ a' b', OpenWriter.writePoint _ d = .ok a' ∧ OpenWriter.writePoint _ d = .ok b' ∧ _) ∨
      (∃ e, OpenWriter.writePoint _ d = .throw e ∧ OpenWriter.writePoint _ d = .throw e) ∨
      (OpenWriter.writePoint _ d = .ub ∧ OpenWriter.writePoint _ d = .ub)
    unfold OpenWriter.writePoint OpenWriter.length
    dsimp only
    split
    · exact Or.inr (Or.inr ⟨rfl, rfl⟩)
    split
    · exact Or.inr (Or.inl ⟨_, rfl, rfl⟩)
    split
    · exact Or.inr (Or.inr ⟨rfl, rfl⟩)
    · exact Or.inl ⟨_, _, rfl, rfl, rfl, rfl, rfl, rfl⟩
  | setHeader g => exact Or.inl ⟨_, _, rfl, rfl, rfl, rfl, rfl, rfl⟩
  | writeHeader =>
    show (∃ a' b', OpenWriter.writeHeader env _ = .ok a' ∧ OpenWriter.writeHeader env _ = .ok b' ∧ _) ∨
      (∃ e, OpenWriter.writeHeader env _ = .throw e ∧ OpenWriter.writeHeader env _ = .throw e) ∨
      (OpenWriter.writeHeader env _ = .ub ∧ OpenWriter.writeHeader env _ = .ub)
    unfold OpenWriter.writeHeader
    dsimp only
    cases HeaderWriter.write env ofs count hdr with
    | ok x => exact Or.inl ⟨_, _, rfl, rfl, rfl, rfl, rfl, rfl⟩
    | throw e => exact Or.inr (Or.inl ⟨_, rfl, rfl⟩)
    | ub => exact Or.inr (Or.inr ⟨rfl, rfl⟩)
  | setFilters fs => cases hc
  | setTransforms ts => cases hc

private theorem alike_calls (env : Env) (cs : List WriterCall) : ∀ a b, Alike a b →
    (OpenWriter.calls env cs a).bind (fun o => .ok o.close.buf) =
    (OpenWriter.calls env (cs.filter fun c => !isSetting c) b).bind (fun o => .ok o.close.buf) := by
  induction cs with
  | nil =>
    intro a b ⟨h1, h2, h3, _⟩
    show Outcome.ok _ = Outcome.ok _
    unfold OpenWriter.close
    rw [h1, h2, h3]
  | cons c cs ih =>
    intro a b h
    cases hc : isSetting c with
    | true =>
      rw [List.filter_cons_of_neg (by simp [hc])]
      have : ∃ a', a.call env c = .ok a' ∧ Alike a' b := by
        cases c with
        | setFilters fs => exact ⟨_, rfl, h⟩
        | setTransforms ts => exact ⟨_, rfl, h⟩
        | point d => cases hc
        | setHeader g => cases hc
        | writeHeader => cases hc
      obtain ⟨a', e, h'⟩ := this
      show ((a.call env c).bind _).bind _ = _
      rw [e]
      exact ih a' b h'
    | false =>
      rw [List.filter_cons_of_pos (by simp [hc])]
      show ((a.call env c).bind _).bind _ = ((b.call env c).bind _).bind _
      rcases alike_call env h c hc with ⟨a', b', e1, e2, h'⟩ | ⟨e, e1, e2⟩ | ⟨e1, e2⟩
      · rw [e1, e2]; exact ih a' b' h'
      · rw [e1, e2]; rfl
      · rw [e1, e2]; rfl

/-- C97 (a part that fails what the interface promises): filters and transforms given to a writer are never applied. Every
session ends the same way, with the same bytes in the file, when they are not given at all. -/
theorem writer_filters_ignored (env : Env) (file : List Byte) (h : Header) (cs : List WriterCall) :
    writerSession env file h cs = writerSession env file h (cs.filter fun c => !isSetting c) := by
  unfold writerSession
  cases Writer.make env (OStream.onFile file) h with
  | ok w => exact alike_calls env cs _ _ ⟨rfl, rfl, rfl, rfl⟩
  | throw e => rfl
  | ub => rfl

/-! `SetHeader` alone. -/

/-- Two writers that write the same points. -/
private def SamePoints (a b : OpenWriter) : Prop :=
  a.ofs = b.ofs ∧ a.count = b.count ∧ a.length = b.length ∧ a.recLen = b.recLen

private theorem close_same {a b : OpenWriter} (h : SamePoints a b) : a.close.buf = b.close.buf := by
  obtain ⟨h1, h2, -, -⟩ := h
  unfold OpenWriter.close Writer.close Writer.updatePointCount
  dsimp only
  rw [h1, h2]
  split <;> rfl

private theorem same_calls (env : Env) (cs : List WriterCall) : ∀ a b, SamePoints a b →
    WriterCall.writeHeader ∉ cs →
    (a.recLen.isSome ∨ ∀ g, WriterCall.setHeader g ∈ cs → g.dataRecordLength = a.length) →
    (OpenWriter.calls env cs a).bind (fun o => .ok o.close.buf) =
    (OpenWriter.calls env (cs.filter fun c => !isSetHeader c) b).bind (fun o => .ok o.close.buf) := by
  induction cs with
  | nil =>
    intro a b h _ _
    show Outcome.ok _ = Outcome.ok _
    rw [close_same h]
  | cons c cs ih =>
    intro a b h hw hl
    have hw' : WriterCall.writeHeader ∉ cs := fun hh => hw (by simp [hh])
    obtain ⟨h1, h2, h3, h4⟩ := h
    cases c with
    | setHeader g =>
      rw [List.filter_cons_of_neg (by simp [isSetHeader])]
      have e : ({ a with hdr := g } : OpenWriter).length = a.length := by
        unfold OpenWriter.length
        dsimp only
        cases hr : a.recLen with
        | some n => rfl
        | none =>
          rcases hl with hl | hl
          · rw [hr] at hl; cases hl
          · have := hl g (by simp)
            unfold OpenWriter.length at this
            rw [hr] at this
            exact this
      refine ih { a with hdr := g } b ⟨h1, h2, by rw [e]; exact h3, h4⟩ hw' ?_
      rcases hl with hl | hl
      · exact Or.inl hl
      · right; intro g' hg'; rw [e]; exact hl g' (by simp [hg'])
    | writeHeader => exact absurd (by simp) hw
    | setFilters fs =>
      rw [List.filter_cons_of_pos (by simp [isSetHeader])]
      refine ih { a with filters := fs } { b with filters := fs } ⟨h1, h2, h3, h4⟩ hw' ?_
      rcases hl with hl | hl
      · exact Or.inl hl
      · exact Or.inr fun g hg => hl g (by simp [hg])
    | setTransforms ts =>
      rw [List.filter_cons_of_pos (by simp [isSetHeader])]
      refine ih { a with transforms := ts } { b with transforms := ts } ⟨h1, h2, h3, h4⟩ hw' ?_
      rcases hl with hl | hl
      · exact Or.inl hl
      · exact Or.inr fun g hg => hl g (by simp [hg])
    | point d =>
      rw [List.filter_cons_of_pos (by simp [isSetHeader])]
      show ((a.writePoint d).bind _).bind _ = ((b.writePoint d).bind _).bind _
      unfold OpenWriter.writePoint
      rw [← h1, ← h3]
      split
      · rfl
      split
      · rfl
      split
      · rfl
      · exact ih _ _ ⟨by dsimp only, by dsimp only; rw [h2], rfl, rfl⟩ hw' (Or.inl rfl)

/-- C97: a header that is set and never written, with the record length of the one the writer was opened with, has no
effect on the file. -/
theorem set_header_alone (env : Env) (file : List Byte) (h : Header) (w : Writer) (cs : List WriterCall)
    (hmk : Writer.make env (OStream.onFile file) h = .ok w) (hcs : WriterCall.writeHeader ∉ cs)
    (hl : ∀ g, WriterCall.setHeader g ∈ cs → g.dataRecordLength = w.hdr.dataRecordLength) :
    writerSession env file h cs = writerSession env file h (cs.filter fun c => !isSetHeader c) := by
  unfold writerSession
  rw [hmk]
  exact same_calls env cs _ _ ⟨rfl, rfl, rfl, rfl⟩ hcs (Or.inr hl)

/-- C97: once a point has been written, a header that is set and never written has no effect whatever its record length. -/
theorem set_header_late (env : Env) (file : List Byte) (h : Header) (p : List Byte) (cs : List WriterCall)
    (hcs : WriterCall.writeHeader ∉ cs) :
    writerSession env file h (.point p :: cs) =
      writerSession env file h (.point p :: cs.filter fun c => !isSetHeader c) := by
  unfold writerSession
  cases Writer.make env (OStream.onFile file) h with
  | throw e => rfl
  | ub => rfl
  | ok w =>
    show (((OpenWriter.opened w).writePoint p).bind _).bind _ = (((OpenWriter.opened w).writePoint p).bind _).bind _
    unfold OpenWriter.writePoint
    split
    · rfl
    split
    · rfl
    split
    · rfl
    · exact same_calls env cs _ _ ⟨rfl, rfl, rfl, rfl⟩ hcs (Or.inl rfl)

/-! Writing the header again. -/

private theorem same_fields {env : Env} {today : BitVec 16 × BitVec 16} {b : List Byte} {h : Header} {r : Reader}
    (hr : Reopened env today b h r) (hns : NoSchema env h.vlrs) (h5 : 5 ≤ h.byReturn.length) : SameFields r.hdr h := by
  obtain ⟨srs, sch, e, hf⟩ := hr.hdr
  rw [e]
  refine ⟨rfl, rfl, rfl, rfl, rfl, rfl, rfl, ?_, hf hns, ?_, ?_⟩
  · show (h.byReturn.take 5 ++ [0, 0]).take 5 = _
    rw [List.take_append_of_le_length (by simp; omega), List.take_take]; rfl
  · show cstr (padTo 32 (cstr h.systemId)) = _
    rw [cstr_padTo, cstr_cstr]
  · show cstr (padTo 32 (cstr h.softwareId)) = _
    rw [cstr_padTo, cstr_cstr]

private theorem rounds_ok {env : Env} {L : Nat} : ∀ (rounds : List (Header × List (List Byte))) (o : OpenWriter) (ps : List (List Byte)),
    Steady env o ps → o.hdr.dataRecordLength = L → (∀ r ∈ rounds, SameArrangement o.hdr r.1 ∧ ∀ p ∈ r.2, p.length = L) →
    Counted ps.length rounds → (ps ++ rounds.flatMap Prod.snd).length < 2 ^ 32 →
    ∃ o', OpenWriter.calls env (rounds.flatMap round) o = .ok o' ∧ Steady env o' (ps ++ rounds.flatMap Prod.snd) ∧
      o'.hdr = (rounds.getLast?.map Prod.fst).getD o.hdr
  | [], o, ps, ho, _, _, _, _ => ⟨o, rfl, by simpa using ho, rfl⟩
  | (h, qs) :: rounds, o, ps, ho, hL, hr, hc, hn => by
    obtain ⟨h1, h2⟩ := hr _ (List.mem_cons_self ..)
    obtain ⟨c1, c2⟩ := hc
    have hn' : ps.length + qs.length < 2 ^ 32 := by
      rw [List.flatMap_cons] at hn
      simp only [List.length_append] at hn
      omega
    obtain ⟨o1, e1, e2, e3⟩ := ho.round h1 c1 qs (by rw [hL]; exact h2) hn'
    have hL1 : o1.hdr.dataRecordLength = L := by rw [e2, h1.recordLength]; exact hL
    have hr1 : ∀ r ∈ rounds, SameArrangement o1.hdr r.1 ∧ ∀ p ∈ r.2, p.length = L := by
      intro r hr'
      obtain ⟨g1, g2⟩ := hr r (List.mem_cons_of_mem _ hr')
      refine ⟨?_, g2⟩
      rw [e2]
      exact ⟨g1.storable, g1.plain, g1.returns, g1.headerSize.trans h1.headerSize.symm, g1.dataOffset.trans h1.dataOffset.symm,
        ⟨g1.records.1.trans h1.records.1.symm, g1.records.2.trans h1.records.2.symm⟩,
        g1.recordLength.trans h1.recordLength.symm⟩
    obtain ⟨o2, f1, f2, f3⟩ := rounds_ok rounds o1 (ps ++ qs) e3 hL1 hr1 (by rw [List.length_append]; exact c2)
      (by rw [List.flatMap_cons] at hn; simpa [List.append_assoc] using hn)
    refine ⟨o2, ?_, ?_, ?_⟩
    · rw [List.flatMap_cons, calls_append, e1]
      exact f1
    · rw [List.flatMap_cons, ← List.append_assoc]; exact f2
    · rw [f3, e2]
      cases rounds with
      | nil => rfl
      | cons a l =>
        rw [List.getLast?_cons_cons]
        simp [List.getLast?_cons]

/-- C97: the header of a file can be written again while points are being added, any number of times, if the header given
keeps the arrangement of the file and says how many points have been written so far: the reader delivers the points of all
rounds, says how many there are, and shows the last header. -/
theorem header_rewritten (env : Env) (today : BitVec 16 × BitVec 16) {h : Header} {w : Writer} (hs : StorableHeader h)
    (hmk : Writer.make env (OStream.onFile []) h = .ok w)
    (hsmall : h.headerSize.toNat + recordBytes w.hdr.vlrs + 4 < 2 ^ 31)
    (hns : NoSchema env w.hdr.vlrs) (hpad : w.hdr.padding = 0) (h0 : 0 < h.dataRecordLength)
    (ps : List (List Byte)) (hp : ∀ p ∈ ps, p.length = h.dataRecordLength)
    (rounds : List (Header × List (List Byte)))
    (hr : ∀ r ∈ rounds, SameArrangement w.hdr r.1 ∧ ∀ p ∈ r.2, p.length = h.dataRecordLength)
    (hc : Counted ps.length rounds) (hn : (ps ++ rounds.flatMap Prod.snd).length < 2 ^ 32) :
    ∃ file r, writerSession env [] h (ps.map .point ++ rounds.flatMap round) = .ok file ∧
      Reader.make env today (IStream.onFile file) = .ok r ∧
      r.hdr.pointCount.toNat = (ps ++ rounds.flatMap Prod.snd).length ∧ delivers r (ps ++ rounds.flatMap Prod.snd) ∧
      SameFields r.hdr ((rounds.getLast?.map Prod.fst).getD w.hdr) := by
  obtain ⟨s1, s2⟩ := Steady.opened hs hmk hsmall hns hpad h0
  obtain ⟨o1, a1, a2, a3⟩ := s1.points ps (by intro p hp'; rw [hp p hp']; exact s2.symm) (by simp at hn ⊢; omega)
  have a2' : o1.hdr = w.hdr := a2
  rw [List.nil_append] at a3
  obtain ⟨o2, b1, b2, b3⟩ := rounds_ok (L := h.dataRecordLength) rounds o1 ps a3 (by rw [a2']; exact s2) (by rw [a2']; exact hr) hc hn
  have hf := b2.close
  obtain ⟨r, r1, r2, r3⟩ := hf.read today
  refine ⟨_, r, ?_, r1, ?_, r3, ?_⟩
  · unfold writerSession
    rw [hmk]
    show (OpenWriter.calls env (ps.map .point ++ rounds.flatMap round) (.opened w)).bind _ = _
    rw [calls_append, a1]
    show (OpenWriter.calls env (rounds.flatMap round) o1).bind _ = _
    rw [b1]
    rfl
  · obtain ⟨srs, sch, e, -⟩ := r2.hdr
    rw [e]; exact hf.count
  · have := same_fields r2 b2.noSchema b2.writing.readable.returns
    rw [a2'] at b3
    rw [← b3]
    exact this

/-- C97 (a part that fails the expectation that all points written are in the file): a header given in the course of writing
replaces the count of points by its own. With a count of zero the points written so far are given up: the file has the points
written afterwards only. With another count, of points that are in the file, the file ends that many points after
the first, plus one for each point written afterwards, and the rest is lost. -/
theorem header_count_believed (env : Env) (today : BitVec 16 × BitVec 16) {h : Header} {w : Writer} (hs : StorableHeader h)
    (hmk : Writer.make env (OStream.onFile []) h = .ok w)
    (hsmall : h.headerSize.toNat + recordBytes w.hdr.vlrs + 4 < 2 ^ 31)
    (hns : NoSchema env w.hdr.vlrs) (hpad : w.hdr.padding = 0) (h0 : 0 < h.dataRecordLength)
    (ps : List (List Byte)) (hp : ∀ p ∈ ps, p.length = h.dataRecordLength) {g : Header} (hg : SameArrangement w.hdr g)
    (hc : g.pointCount.toNat ≤ ps.length) (qs : List (List Byte)) (hq : ∀ p ∈ qs, p.length = h.dataRecordLength)
    (hn : ps.length + qs.length < 2 ^ 32) :
    ∃ file r, writerSession env [] h (ps.map .point ++ .setHeader g :: .writeHeader :: qs.map .point) = .ok file ∧
      Reader.make env today (IStream.onFile file) = .ok r ∧
      r.hdr.pointCount.toNat = g.pointCount.toNat + qs.length ∧
      delivers r (if g.pointCount = 0 then qs else (ps ++ qs).take (g.pointCount.toNat + qs.length)) := by
  obtain ⟨s1, s2⟩ := Steady.opened hs hmk hsmall hns hpad h0
  obtain ⟨o, a1, a2, ho⟩ := s1.points ps (by intro p hp'; rw [hp p hp']; exact s2.symm) (by simp; omega)
  have a2' : o.hdr = w.hdr := a2
  rw [List.nil_append] at ho
  rw [← a2'] at hg s2
  obtain ⟨s', e1, e2, e3⟩ := ho.writing.rewrite ho.noSchema ho.tight hg o.count
  have e1' : HeaderWriter.write env o.ofs o.count g = .ok (s', g.pointCount, g) := e1
  have hl := hg.length ho.len s' g.pointCount
  have hgl : g.dataRecordLength = h.dataRecordLength := hg.recordLength.trans s2
  have hses : ∀ o', OpenWriter.calls env (qs.map .point) { o with ofs := s', count := g.pointCount, hdr := g } = .ok o' →
      writerSession env [] h (ps.map .point ++ .setHeader g :: .writeHeader :: qs.map .point) = .ok o'.close.buf := by
    intro o' ho'
    unfold writerSession
    rw [hmk]
    show (OpenWriter.calls env (ps.map .point ++ round (g, qs)) (.opened w)).bind _ = _
    rw [calls_append, a1]
    show (OpenWriter.calls env (round (g, qs)) o).bind _ = _
    rw [calls_round qs e1', ho']
    rfl
  by_cases hz : g.pointCount = 0
  · rw [if_pos hz]
    obtain ⟨g1, -⟩ := e2 hz
    obtain ⟨w', f1, f2, -⟩ := g1.finish qs (by intro p hp'; show g.dataRecordLength ≤ _; rw [hgl, hq p hp']) (by simp; omega)
    obtain ⟨o', k1, k2, -⟩ := calls_points env qs { o with ofs := s', count := g.pointCount, hdr := g } w' hl
      (by unfold OpenWriter.plain; dsimp only; rw [hz]; exact f1)
    obtain ⟨r, r1, r2, r3⟩ := f2.read today
    have hb : o'.close.buf = w'.close.buf := by rw [← k2]; rfl
    refine ⟨_, r, hses o' k1, by rw [hb]; exact r1, ?_, ?_⟩
    · obtain ⟨srs, sch, e, -⟩ := r2.hdr
      have := f2.count
      rw [e, hz]
      show w'.count.toNat = _
      rw [show w'.count.toNat = _ from this]
      simp [cutTo]
    · rw [List.nil_append, cutTo_eq (by intro p hp'; rw [hq p hp']; exact hgl.symm)] at r3
      exact r3
  · rw [if_neg hz]
    have hne : ps ≠ [] := by
      rintro rfl
      apply hz
      apply BitVec.eq_of_toNat_eq
      simpa using hc
    obtain ⟨g1, -⟩ := e3 hz hne
    obtain ⟨w1, f1, f2, -⟩ := g1.finish qs (by intro p hp'; show g.dataRecordLength ≤ _; rw [hgl, hq p hp']) hn
    obtain ⟨v1, x1, x2, x3, x4, x5, -⟩ := writePoints_ok qs ⟨s', g, BitVec.ofNat 32 ps.length⟩ g1.recPos g1.good
      (by intro p hp'; show g.dataRecordLength ≤ _; rw [hgl, hq p hp'])
    obtain ⟨v2, y1, y2, y3, y4, y5, -⟩ := writePoints_ok qs ⟨s', g, g.pointCount⟩ g1.recPos g1.good
      (by intro p hp'; show g.dataRecordLength ≤ _; rw [hgl, hq p hp'])
    rw [x1] at f1
    injection f1 with f1
    subst f1
    obtain ⟨o', k1, k2, -⟩ := calls_points env qs { o with ofs := s', count := g.pointCount, hdr := g } v2 hl y1
    have hcnt : v2.count.toNat = g.pointCount.toNat + qs.length := by
      rw [y3, BitVec.toNat_add, BitVec.toNat_ofNat]
      dsimp only
      omega
    have hcut : cutTo g.dataRecordLength qs = qs := cutTo_eq (by intro p hp'; rw [hq p hp']; exact hgl.symm)
    dsimp only at f2
    rw [hcut] at f2
    have hre := f2.recount (k := g.pointCount.toNat + qs.length) (c := v2.count) (by rw [List.length_append]; omega) hcnt
    have hb : overlay v1.close.buf 107 (put 4 v2.count) = o'.close.buf := by
      have : o'.close.buf = v2.close.buf := by rw [← k2]; rfl
      rw [this, close_buf x4, close_buf y4, x5, y5]
      exact overlay_twice (by rw [put_length, put_length])
    rw [hb] at hre
    obtain ⟨r, r1, r2, r3⟩ := hre.read today
    refine ⟨_, r, hses o' k1, r1, ?_, r3⟩
    obtain ⟨srs, sch, e, -⟩ := r2.hdr
    rw [e]
    exact hcnt

/-- The header the writer has made of the one it was opened with. -/
private theorem own_arrangement {env : Env} {h : Header} {w : Writer} (hs : StorableHeader h)
    (hmk : Writer.make env (OStream.onFile []) h = .ok w)
    (hsmall : h.headerSize.toNat + recordBytes w.hdr.vlrs + 4 < 2 ^ 31) :
    SameArrangement w.hdr w.hdr ∧ w.hdr.pointCount = h.pointCount := by
  obtain ⟨pad, hf⟩ := new_file (StorableHeader.good hs) hs.size hmk hsmall
  have e := hf.hdr
  refine ⟨⟨⟨?_, ?_, ?_, ?_, ?_, ?_, ?_, ?_, ?_⟩, ?_, ?_, rfl, rfl, ⟨rfl, rfl⟩, rfl⟩, by rw [e]⟩
  · rw [e]; exact hs.signature
  · rw [e]; exact hs.guid
  · rw [e]; exact hs.systemId
  · rw [e]; exact hs.softwareId
  · rw [e]; exact hs.major
  · rw [e]; exact hs.minor
  · rw [e]; exact hs.size
  · rw [e]; exact hs.format
  · intro v hv
    rcases List.mem_append.1 hv with hv | hv
    · exact hf.wf v hv
    · have : w.hdr.srs = h.srs := by rw [e]
      rw [this] at hv
      exact hs.records v (by simp [hv])
  · rw [e]; exact hf.raw
  · rw [e]; exact hf.returns

/-- C97 (the same with no header given): writing the header again in the course of writing gives up points. With a header
that said zero at the start (as every new one does), all that were written before. -/
theorem own_header_rewritten (env : Env) (today : BitVec 16 × BitVec 16) {h : Header} {w : Writer} (hs : StorableHeader h)
    (hmk : Writer.make env (OStream.onFile []) h = .ok w)
    (hsmall : h.headerSize.toNat + recordBytes w.hdr.vlrs + 4 < 2 ^ 31)
    (hns : NoSchema env w.hdr.vlrs) (hpad : w.hdr.padding = 0) (h0 : 0 < h.dataRecordLength) (hz : h.pointCount = 0)
    (ps qs : List (List Byte)) (hp : ∀ p ∈ ps, p.length = h.dataRecordLength) (hq : ∀ p ∈ qs, p.length = h.dataRecordLength)
    (hn : ps.length + qs.length < 2 ^ 32) :
    ∃ file r, writerSession env [] h (ps.map .point ++ .writeHeader :: qs.map .point) = .ok file ∧
      Reader.make env today (IStream.onFile file) = .ok r ∧ r.hdr.pointCount.toNat = qs.length ∧ delivers r qs := by
  obtain ⟨ha, hc⟩ := own_arrangement hs hmk hsmall
  rw [hz] at hc
  obtain ⟨file, r, e1, e2, e3, e4⟩ := header_count_believed env today hs hmk hsmall hns hpad h0 ps hp ha
    (by rw [hc]; exact Nat.zero_le _) qs hq hn
  rw [hc, if_pos rfl] at e4
  rw [hc] at e3
  refine ⟨file, r, ?_, e2, by simpa using e3, e4⟩
  rw [← e1]
  obtain ⟨s1, s2⟩ := Steady.opened hs hmk hsmall hns hpad h0
  obtain ⟨o, a1, a2, -⟩ := s1.points ps (by intro p hp'; rw [hp p hp']; exact s2.symm) (by simp; omega)
  unfold writerSession
  rw [hmk]
  show (OpenWriter.calls env (_ ++ _) (.opened w)).bind _ = (OpenWriter.calls env (_ ++ _) (.opened w)).bind _
  rw [calls_append, calls_append, a1]
  show (OpenWriter.calls env (.writeHeader :: _) o).bind _ =
    (OpenWriter.calls env (.writeHeader :: _) { o with hdr := w.hdr }).bind _
  have : o.hdr = w.hdr := a2
  rw [← this]

/-! Examples. -/

/-- The header of the examples as a caller sees it after the file was begun, with another count and scale. -/
def laterHeader (n : BitVec 32) : Header :=
  match Writer.make plainEnv (OStream.onFile []) sampleHeader with
  | .ok w => { w.hdr with pointCount := n, scale := ⟨1, 2, 3⟩, year := 1999 }
  | _ => sampleHeader

private theorem later_check (n : BitVec 32) (hn : n = 0 ∨ n = 1 ∨ n = 2) : ∃ w, Writer.make plainEnv (OStream.onFile []) sampleHeader = .ok w ∧
    (w.hdr.padding = 0 ∧ sampleHeader.headerSize.toNat + recordBytes w.hdr.vlrs + 4 < 2 ^ 31 ∧
    w.hdr.vlrs.find? VLR.isSchema = none ∧ (laterHeader n).vlrs = w.hdr.vlrs ∧
    (laterHeader n).headerSize = w.hdr.headerSize ∧ (laterHeader n).dataOffset = w.hdr.dataOffset ∧
    (laterHeader n).recordsCount = w.hdr.recordsCount ∧ (laterHeader n).dataRecordLength = w.hdr.dataRecordLength ∧
    (laterHeader n).pointCount = n ∧ (laterHeader n).compressed = false ∧ 5 ≤ (laterHeader n).byReturn.length) := by
  rcases hn with rfl | rfl | rfl <;> exact Outcome.exists_of_check (by decide +kernel)

private theorem later_storable : StorableHeader (laterHeader 2) :=
  ⟨by decide +kernel, by decide +kernel, by decide +kernel, by decide +kernel, by decide +kernel, by decide +kernel, by decide +kernel,
    by decide +kernel, by
      have : ∀ v ∈ (laterHeader 2).vlrs ++ (laterHeader 2).srs, v.userId.length = 16 ∧ v.description.length = 32 ∧
        v.recordSize.toNat = v.data.length := by decide +kernel
      exact this⟩

/-- The hypotheses of C97 are met: a file with two points, a header for it that counts them, one more point. -/
example : ∃ w, Writer.make plainEnv (OStream.onFile []) sampleHeader = .ok w ∧ w.hdr.padding = 0 ∧
    SameArrangement w.hdr (laterHeader 2) ∧ Counted 2 [(laterHeader 2, [List.replicate 28 3#8])] := by
  obtain ⟨w, h1, h2, -, -, h5, h6, h7, h8, h9, h10, h11, h12⟩ := later_check 2 (by simp)
  refine ⟨w, h1, h2, ⟨later_storable, h11, h12, h6, h7, ⟨h5, h8⟩, h9⟩, ?_, trivial⟩
  rw [h10]; rfl

/-- Such a session: two points, a header that counts them and gives another scale, one point. -/
example : ∃ b, (do
    let b ← writerSession plainEnv [] sampleHeader [.point (List.replicate 28 1#8), .point (List.replicate 28 2#8),
      .setHeader (laterHeader 2), .writeHeader, .point (List.replicate 28 3#8)]
    let r ← Reader.make plainEnv (1, 2000) (IStream.onFile b)
    let (r, _) := r.readNext
    let p := r.point
    let (r, _) := r.readNext
    let (r, _) := r.readNext
    pure (p == List.replicate 28 1#8 && r.point == List.replicate 28 3#8 && r.hdr.pointCount == 3 && r.hdr.scale == ⟨1, 2, 3⟩ &&
      r.hdr.year == 1999)) = Outcome.ok b ∧ b = true :=
  Outcome.exists_of_check (by decide +kernel)

/-- The same with a header that counts one point: the third point written is lost. -/
example : ∃ b, (do
    let b ← writerSession plainEnv [] sampleHeader [.point (List.replicate 28 1#8), .point (List.replicate 28 2#8),
      .setHeader (laterHeader 1), .writeHeader, .point (List.replicate 28 3#8)]
    let r ← Reader.make plainEnv (1, 2000) (IStream.onFile b)
    let (r, _) := r.readNext
    let (r, _) := r.readNext
    let p := r.point
    let (r, more) := r.readNext
    let more ← more
    pure (p == List.replicate 28 2#8 && r.hdr.pointCount == 2 && !more)) = Outcome.ok b ∧ b = true :=
  Outcome.exists_of_check (by decide +kernel)

/-- C97 (a part that fails): a header of another record length, set before the first point and never written, decides how
long the records are while the header in the file says otherwise. Two points of format 0 written through a writer opened for
format 1: the reader finds no second point as it was written. -/
theorem set_header_early : ∃ g : Header, g.dataRecordLength = 20 ∧ sampleHeader.dataRecordLength = 28 ∧
    ∃ x, (do
      let b ← writerSession plainEnv [] sampleHeader [.setHeader g, .point (List.replicate 28 1#8), .point (List.replicate 28 2#8)]
      let r ← Reader.make plainEnv (1, 2000) (IStream.onFile b)
      let (r, a) := r.readNext
      let a ← a
      pure (r.hdr.dataRecordLength, a, r.point)) = Outcome.ok x ∧
      x = (28, true, List.replicate 20 1#8 ++ List.replicate 8 2#8) := by
  refine ⟨{ sampleHeader with schema := match Schema.make .f0 with
      | .ok s => s
      | _ => sampleHeader.schema }, by decide +kernel, by decide +kernel, Outcome.exists_of_check (by decide +kernel)⟩

/-- Filters given to a writer: everything is written all the same. -/
example : ∃ b, writerSession plainEnv [] sampleHeader [.setFilters [fun _ => false], .setTransforms [fun _ => []],
      .point (List.replicate 28 1#8)] = .ok b ∧
    writerSession plainEnv [] sampleHeader [.point (List.replicate 28 1#8)] = .ok b ∧ b.length = 255 + 57 := by
  rw [writer_filters_ignored]
  obtain ⟨b, h1, h2⟩ : ∃ b, writerSession plainEnv [] sampleHeader [.point (List.replicate 28 1#8)] = .ok b ∧
    b.length = 255 + 57 := Outcome.exists_of_check (by decide +kernel)
  exact ⟨b, h1, h1, h2⟩

end LibLAS
