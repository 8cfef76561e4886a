import Verif.Lemmas.Reset
import Verif.Lemmas.ResetSim
namespace LibLAS
open Spec HeaderReader Point

theorem bytes_zero_of_sum : ∀ (l : List Byte), (l.map BitVec.toNat).sum = 0 → ∀ x ∈ l, x.toNat = 0
  | [], _, x, hx => by simp at hx
  | y :: l, h, x, hx => by
    simp only [List.map_cons, List.sum_cons] at h
    rcases List.mem_cons.1 hx with rfl | hx
    · omega
    · exact bytes_zero_of_sum l (by omega) x hx

/-- State of a reader after `k` resets and any other calls. -/
structure Reread (env : Env) (b : List Byte) (f : PointFormat) (l : List VLR) (k : Nat) (r : Reader) : Prop where
  ready : r.Ready b (got 32 (slice b 96 4)).toNat (got 16 (slice b 105 2)).toNat (got 32 (slice b 107 4)).toNat
  hdr : r.hdr = { headerOf b with
    vlrs := (List.replicate (k + 1) l).flatten
    srs := (List.replicate (k + 1) l).flatten.filter VLR.isGeo
    padding := got 32 (slice b 96 4) - ((got 16 (slice b 94 2)).setWidth 32 +
      l.foldl (fun acc v => acc + BitVec.ofNat 32 v.totalSize) 0)
    schema := r.hdr.schema }
  fmt : r.hdr.schema.fmt = f
  len : r.hdr.schema.dataRecordLength = (got 16 (slice b 105 2)).toNat
  user : UserOK f (got 16 (slice b 105 2)).toNat r.hdr.schema
  named : Named f r.hdr.schema
  even : r.ifs.eof = r.ifs.fail

theorem readStep_even {r : Reader} {len : Nat} (hp : r.point.length = len) (hk : r.Keeps len) (o : ReadOp)
    (he : r.ifs.eof = r.ifs.fail) : (readStep r o).ifs.eof = (readStep r o).ifs.fail := by
  cases o with
  | next =>
    show r.readNext.1.ifs.eof = r.readNext.1.ifs.fail
    unfold Reader.readNext; rw [catchRange_fst]; exact (Reader.implReadNext_inv hp hk).1.even he
  | «at» n =>
    show (r.readAt n).1.ifs.eof = (r.readAt n).1.ifs.fail
    unfold Reader.readAt
    split
    · exact he
    · rw [catchRange_fst]; exact (Reader.implReadAt_inv hp hk).1.even he
  | seek n =>
    show (r.seek n).1.ifs.eof = (r.seek n).1.ifs.fail
    unfold Reader.seek; rw [catchRange_fst]; exact (Reader.implSeek_inv hp).1.even he
  | filters fs => exact he
  | transforms ts => exact he

theorem Reread.step {env : Env} {b : List Byte} {f : PointFormat} {l : List VLR} {k : Nat} {r : Reader} (h : Reread env b f l k r)
    {o : ReadOp} (ho : o.Benign) : Reread env b f l k (readStep r o) := by
  have hh := Reader.readStep_hdr h.ready.on.point h.ready.keeps o
  exact ⟨readStep_ready h.ready ho, by rw [hh]; exact h.hdr, by rw [hh]; exact h.fmt, by rw [hh]; exact h.len,
    by rw [hh]; exact h.user, by rw [hh]; exact h.named, readStep_even h.ready.on.point h.ready.keeps o h.even⟩

theorem Reread.reset {env : Env} {b : List Byte} {f : PointFormat} {l : List VLR} {k : Nat} {r : Reader} (bld : Build)
    (hB : Block env b f l) (h : Reread env b f l k r) (hs : sameScaling r.hdr.toP r.hdr.toP = true) :
    ∃ r', r.reset env bld = .ok r' ∧ Reread env b f l (k + 1) r' ∧ r'.ifs = ⟨b, 0, false, false⟩ ∧ r'.current = 0 ∧
      r'.filter = r.filter ∧ r'.xform = r.xform := by
  have ho := h.ready.on
  have hT : Times b f l (k + 1) r.hdr := ⟨by rw [h.hdr]; rfl, h.user, by rw [h.hdr], by rw [h.hdr]⟩
  have hifs : (if r.ifs.eof then r.ifs.clear else r.ifs) = ⟨b, r.ifs.pos, false, false⟩ := by
    have he := h.even
    have hb := ho.buf
    split
    · unfold IStream.clear; rw [hb]
    · rename_i hn
      have : r.ifs.eof = false := by simpa using hn
      rw [this] at he
      rcases hr : r.ifs with ⟨bb, pp, ee, ff⟩
      rw [hr] at this he hb
      simp only at this he hb
      rw [this, ← he, hb]
  obtain ⟨s', sch, e1, e2, e3, e4, e5, e6, e7⟩ := readHeader_again hB hT r.ifs.pos
  unfold Reader.reset
  dsimp only
  rw [hifs, e1]
  simp only [Outcome.bind_ok]
  rw [if_neg (by simp [headerOf])]
  generalize hH : ({ headerOf b with
    vlrs := (List.replicate (k + 1 + 1) l).flatten
    srs := (List.replicate (k + 1 + 1) l).flatten.filter VLR.isGeo
    padding := got 32 (slice b 96 4) - ((got 16 (slice b 94 2)).setWidth 32 +
      l.foldl (fun acc v => acc + BitVec.ofNat 32 v.totalSize) 0)
    schema := sch } : Header) = H
  have hlen : H.dataRecordLength = (got 16 (slice b 105 2)).toNat := by rw [← hH]; exact e5
  have hsc : sameScaling H.toP H.toP = true := by
    have e : H.toP.scale = r.hdr.toP.scale ∧ H.toP.offset = r.hdr.toP.offset := by
      unfold Header.toP
      dsimp only
      rw [h.hdr, ← hH]
      exact ⟨rfl, rfl⟩
    unfold sameScaling at hs ⊢
    rw [e.1, e.2]; exact hs
  have hset : Point.setHeader bld ⟨r.point, H.toP⟩ H.toP = .ok ⟨r.point, H.toP⟩ := by
    have hpl : r.point.length = H.toP.recLen := by rw [ho.point]; exact hlen.symm
    unfold Point.setHeader
    split
    · rename_i hz
      unfold byteSum at hz
      have : r.point = List.replicate H.toP.recLen 0#8 := by
        rw [← hpl]
        rw [List.eq_replicate_iff]
        refine ⟨rfl, fun x hx => ?_⟩
        have := bytes_zero_of_sum _ hz x hx
        exact BitVec.eq_of_toNat_eq (by simpa using this)
      rw [← this]
    · have : ¬ (H.toP.recLen ≠ r.point.length) := by simp [hpl]
      simp only [this, if_false, hsc, Bool.not_true, Bool.false_eq_true, Outcome.pure_eq, Outcome.bind_ok]
  rw [hset]
  simp only [Outcome.bind_ok, Outcome.pure_eq]
  have hifs' : s'.clear.seek 0 = ⟨b, 0, false, false⟩ := by rw [IStream.clear_seek, e2]
  refine ⟨_, rfl, ⟨⟨⟨?_, ?_, ?_, hlen, ho.point, ?_, ?_, ho.pos⟩, h.ready.keeps⟩, ?_, ?_, ?_, ?_, ?_, ?_⟩, hifs', rfl, rfl, rfl⟩
  · show (s'.clear.seek 0).buf = b; rw [hifs']
  · show H.dataOffset.toNat = _; rw [← hH]; rfl
  · show H.schema.byteSize = _; rw [← hH]; exact e4
  · show H.pointCount.toNat = _; rw [← hH]; rfl
  · show H.pointCount.toNat = _; rw [← hH]; rfl
  · show H = _; rw [← hH]; rfl
  · show H.schema.fmt = f; rw [← hH]; exact e3
  · show H.schema.dataRecordLength = _; rw [← hH]; exact e5
  · show UserOK f _ H.schema; rw [← hH]; exact e6
  · show Named f H.schema; rw [← hH]; exact e7
  · show (s'.clear.seek 0).eof = (s'.clear.seek 0).fail; rw [hifs']

theorem open_reread {env : Env} {today : BitVec 16 × BitVec 16} {b : List Byte} {r : Reader} (hb : 227 ≤ b.length)
    (e : Reader.make env today (IStream.onFile b) = .ok r) (hv : NoSchema env r.hdr.vlrs) (hl : 0 < r.hdr.dataRecordLength) :
    ∃ f, Block env b f r.hdr.vlrs ∧ Reread env b f r.hdr.vlrs 0 r := by
  have hop := open_file hb e hv
  have hon := hop.on hl
  unfold Reader.make at e
  have hif : (if (IStream.onFile b).eof then (IStream.onFile b).clear else IStream.onFile b) = ⟨b, 0, false, false⟩ := rfl
  rw [hif] at e
  obtain ⟨⟨s9, h9⟩, e1, e⟩ := bind_eq_ok e
  dsimp only at e
  by_cases hc : h9.compressed = true
  · rw [if_pos hc] at e; cases e
  rw [if_neg hc] at e
  injection e with e
  have hh : h9 = r.hdr := by rw [← e]; rfl
  rw [hh] at e1 hc
  obtain ⟨f, hB⟩ := readHeader_block hb e1 (by simpa using hc) rfl hv
  refine ⟨f, hB, ?_⟩
  have hT : Times b f r.hdr.vlrs 0 (Header.new today.1 today.2) := ⟨rfl, Or.inl (new_schema_user _ _), rfl, rfl⟩
  obtain ⟨s', sch, g1, g2, g3, g4, g5, g6, g7⟩ := readHeader_again hB hT 0
  rw [e1] at g1
  injection g1 with g1
  have g1 := congrArg Prod.snd g1
  simp only at g1
  have hsch : r.hdr.schema = sch := by rw [g1]
  have hon1 := hon.1
  have hk := hon.2.2
  rw [hop.dataOffset, hop.recordLength, hop.pointCount] at hon1
  rw [hop.recordLength] at hk
  exact ⟨⟨hon1, hk⟩, by rw [hsch]; exact g1, by rw [hsch]; exact g3, by rw [hsch]; exact g5, by rw [hsch]; exact g6,
    by rw [hsch]; exact g7,
    by rw [hop.ifs]⟩

theorem Reread.scaling {env : Env} {b : List Byte} {f : PointFormat} {l : List VLR} {k k' : Nat} {r r' : Reader}
    (h : Reread env b f l k r) (h' : Reread env b f l k' r') (hs : sameScaling r.hdr.toP r.hdr.toP = true) :
    sameScaling r'.hdr.toP r'.hdr.toP = true := by
  have e : r'.hdr.toP.scale = r.hdr.toP.scale ∧ r'.hdr.toP.offset = r.hdr.toP.offset := by
    unfold Header.toP
    dsimp only
    rw [h.hdr, h'.hdr]
    exact ⟨rfl, rfl⟩
  unfold sameScaling at hs ⊢
  rw [e.1, e.2]; exact hs

theorem run_reread {env : Env} {b : List Byte} {f : PointFormat} {l : List VLR} (bld : Build) (hB : Block env b f l)
    (cs : List Call) : ∀ {k : Nat} {r : Reader}, Reread env b f l k r → sameScaling r.hdr.toP r.hdr.toP = true →
    (∀ c ∈ cs, c.Benign) → ∃ r', callRun env bld r cs = .ok r' ∧ Reread env b f l (k + resets cs) r' := by
  induction cs with
  | nil => intro k r h _ _; exact ⟨r, rfl, h⟩
  | cons c cs ih =>
    intro k r h hs hb
    have hb' : ∀ c ∈ cs, c.Benign := fun c' hc => hb c' (List.mem_cons_of_mem _ hc)
    have h0 := hb c List.mem_cons_self
    cases c with
    | op o =>
      have h1 := h.step h0
      obtain ⟨r', e1, e2⟩ := ih h1 (h.scaling h1 hs) hb'
      exact ⟨r', e1, e2⟩
    | reset =>
      obtain ⟨r1, e1, e2, -⟩ := h.reset bld hB hs
      obtain ⟨r', e3, e4⟩ := ih e2 (h.scaling e2 hs) hb'
      refine ⟨r', ?_, ?_⟩
      · rw [callRun, e1]; exact e3
      · have : k + resets (Call.reset :: cs) = k + 1 + resets cs := by
          show k + (resets cs + 1) = _; omega
        rw [this]; exact e4

theorem compareDistance_self (q : Rat) : compareDistance (.fin q) (.fin q) = true := by
  have : Fl.sub (.fin q) (.fin q) = Fl.sub (.fin 0) (.fin 0) := by
    simp [Fl.sub, Fl.add, Fl.neg]
  unfold compareDistance
  rw [this]
  decide +kernel

theorem Spec.FiniteScaling.same {h : Header} (hf : FiniteScaling h) : sameScaling h.toP h.toP = true := by
  obtain ⟨⟨x, y, z, h1, h2, h3⟩, ⟨u, v, w, g1, g2, g3⟩⟩ := hf
  unfold sameScaling Header.toP
  simp only [h1, h2, h3, g1, g2, g3, compareDistance_self, Bool.and_self]

end LibLAS
