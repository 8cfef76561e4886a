import Verif.Lemmas.ReadOps
namespace LibLAS
open Spec HeaderReader Schema

/-- The variable record made of a 54-byte header and its data. -/
def vlrOf (vh data : List Byte) : VLR :=
  { ((({ VLR.new with reserved := got 16 (vh.take 2) } : VLR).setUserId ((vh.drop 2).take 16)).1.setDescription
      ((vh.drop 22).take 32)).1 with
    recordSize := got 16 ((vh.drop 20).take 2)
    recordId := got 16 ((vh.drop 18).take 2)
    data := data }

/-- The records read from a stream, whatever header they are added to. -/
def scanVLRs : List Byte → Nat → IStream → Outcome (IStream × List VLR)
  | _, 0, s => .ok (s, [])
  | old, k + 1, s => do
    let (vh, s) ← s.readN old
    let (data, s) ← readVLRData s (got 16 ((vh.drop 20).take 2)).toNat
    let (s, l) ← scanVLRs vh k s
    .ok (s, vlrOf vh data :: l)

theorem readVLRLoop_scan (n : Nat) : ∀ (old : List Byte) (s : IStream) (h : Header),
    readVLRLoop old n s h = (scanVLRs old n s >>= fun x =>
      .ok (x.1, { h with vlrs := h.vlrs ++ x.2, recordsCount := h.recordsCount + BitVec.ofNat 32 n })) := by
  induction n with
  | zero => intro old s h; simp [readVLRLoop, scanVLRs]
  | succ n ih =>
    intro old s h
    rw [readVLRLoop, scanVLRs]
    rcases s.readN old with ⟨vh, s1⟩ | e | _
    · simp only [Outcome.bind_ok]
      rcases hd : readVLRData s1 (got 16 ((vh.drop 20).take 2)).toNat with ⟨data, s2⟩ | e | _
      · simp only [Outcome.bind_ok]
        have := ih vh s2 (h.addVLR (vlrOf vh data))
        refine Eq.trans this ?_
        rcases scanVLRs vh n s2 with ⟨s3, l⟩ | e | _
        · simp only [Outcome.bind_ok, Header.addVLR, List.append_assoc, List.singleton_append]
          congr 3
          rw [BitVec.add_assoc, Nat.add_comm n 1, BitVec.ofNat_add]; rfl
        · rfl
        · rfl
      · rfl
      · rfl
    · rfl
    · rfl

theorem scanVLRs_length (n : Nat) : ∀ (old : List Byte) (s s' : IStream) (l : List VLR),
    scanVLRs old n s = .ok (s', l) → l.length = n ∧ s'.buf = s.buf := by
  intro old s s' l e
  have := readVLRLoop_scan n old s (Header.new 0 0)
  rw [e, Outcome.bind_ok] at this
  obtain ⟨-, ⟨l', h1, h2⟩, h3⟩ := readVLRLoop_frame _ _ _ _ _ _ this
  have hn : (Header.new 0 0).vlrs = [] := rfl
  rw [hn] at h1
  simp only [List.nil_append] at h1
  exact ⟨by rw [h1]; exact h2, h3⟩

/-- Everything but the variable records, the spatial reference and the schema that a header block says. -/
def headerOf (b : List Byte) : Header where
  signature := padTo 4 (cstr ((slice b 0 4).take 4))
  sourceId := got 16 (slice b 4 2)
  reserved := got 16 (slice b 6 2)
  guid := slice b 8 16
  verMajor := got 8 (slice b 24 1)
  verMinor := got 8 (slice b 25 1)
  systemId := padTo 32 ((cstr (slice b 26 32)).take 32)
  softwareId := padTo 32 ((cstr (slice b 58 32)).take 32)
  doy := got 16 (slice b 90 2)
  year := got 16 (slice b 92 2)
  headerSize := got 16 (slice b 94 2)
  dataOffset := got 32 (slice b 96 4)
  recordsCount := got 32 (slice b 100 4)
  pointCount := got 32 (slice b 107 4)
  byReturn := (List.range 5).map (fun j => got 32 (slice b (111 + 4 * j) 4)) ++ [0, 0]
  scale := ⟨got 64 (slice b 131 8), got 64 (slice b 139 8), got 64 (slice b 147 8)⟩
  offset := ⟨got 64 (slice b 155 8), got 64 (slice b 163 8), got 64 (slice b 171 8)⟩
  max := ⟨got 64 (slice b 179 8), got 64 (slice b 195 8), got 64 (slice b 211 8)⟩
  min := ⟨got 64 (slice b 187 8), got 64 (slice b 203 8), got 64 (slice b 219 8)⟩
  vlrs := []
  srs := []
  compressed := false
  padding := 0
  schema := (Header.new 0 0).schema

/-- The number of variable records a header block advertises. -/
def recordsOf (b : List Byte) : Nat := (got 32 (slice b 100 4)).toNat

/-- The stream on which the variable records are read. -/
def vlrStream (b : List Byte) : IStream := ⟨b, (got 16 (slice b 94 2)).toNat, false, false⟩

/-- A header block that can be read, with its format and variable records. -/
structure Block (env : Env) (b : List Byte) (f : PointFormat) (l : List VLR) : Prop where
  long : 227 ≤ b.length
  signature : slice b 0 4 = lit "LASF"
  major : got 8 (slice b 24 1) = 1
  minor : (got 8 (slice b 25 1)).toNat ≤ 3
  offsetOk : (got 16 (slice b 94 2)).toNat ≤ (got 32 (slice b 96 4)).toNat
  raw : compressionOf (got 8 (slice b 104 1)) = .ok false
  format : formatOf (got 8 (slice b 104 1) &&& 0x3f) = .ok f
  std : f.std = true
  count : l.length = recordsOf b
  scan : 0 < recordsOf b → ∃ s, scanVLRs (List.replicate 54 env.junk) (recordsOf b) (vlrStream b) = .ok (s, l)
  noSchema : 0 < recordsOf b → NoSchema env l

/-- A header object that has read the block `k` times (any number of times, perhaps none). -/
structure Times (b : List Byte) (f : PointFormat) (l : List VLR) (k : Nat) (h : Header) : Prop where
  returns : h.byReturn.drop 5 = [0, 0]
  user : UserOK f (got 16 (slice b 105 2)).toNat h.schema
  vlrs : h.vlrs = (List.replicate k l).flatten
  srs : h.srs = h.vlrs.filter VLR.isGeo

theorem find_copies (l : List VLR) (p : VLR → Bool) (k : Nat) :
    ((List.replicate k l).flatten ++ l).find? p = l.find? p := by
  induction k with
  | zero => simp
  | succ k ih =>
    rw [List.replicate_succ, List.flatten_cons, List.append_assoc, List.find?_append, ih]
    cases l.find? p <;> rfl

theorem setDataFormatId_user {s : Schema} {f : PointFormat} {rl : Nat} (hf : f.std = true) (hu : UserOK f rl s) :
    ∃ s', s.setDataFormatId f = (s', .ok ()) ∧ s'.fmt = f ∧
      (StdSchema s' ∧ s'.nextPos ≤ 19 ∨ s'.bitSize = 8 * rl ∧ UserOK f rl s' ∧ Named f s') := by
  rcases hu with hu | ⟨d, hu, hn, hb⟩
  · obtain ⟨s', h1, h2, h3, h4⟩ := setDataFormatId_noUser f hf hu
    have h16 := (stdBase_facts f f hf).2.2.2.2.1
    exact ⟨s', h1, h3, Or.inl ⟨⟨by rw [h3]; exact hf, by rw [h3]; exact h2, by omega⟩, by omega⟩⟩
  · have h := updateRequired_laid s f hf (us := [d]) hu.symm (by simp) (by
      intro e he; simp only [List.mem_singleton] at he; subst he; rw [hn]; decide) (by simp)
    have hreq : d.required = false := by
      have : d ∈ (IndexMap.byPosition s.dims).filter (fun d => !d.required) := by rw [hu]; simp
      simpa using (List.mem_filter.1 this).2
    unfold Schema.setDataFormatId
    generalize s.updateRequired f = r at h
    obtain ⟨s', o⟩ := r
    obtain ⟨h1, h2, h3, h4⟩ := h
    simp only at h1 h2 h3 h4
    subst h2
    have hc : Canon { s' with fmt := f } (stdL f ++ renumber (stdL f).length [d]) := ⟨h1.core, h1.sorted, h1.names, h1.pos⟩
    have hl := hc.laid
    refine ⟨_, rfl, rfl, Or.inr ⟨?_, Or.inr ?_, hl.named hf ?_⟩⟩
    · rw [hl.bits_eq, List.map_append, List.sum_append, (stdL_names f hf).2.2.2.2]
      simpa [renumber] using hb
    · obtain ⟨d', u1, u2⟩ := hl.user_one hf hreq
      exact ⟨d', u1, by rw [← Dim.core_name, u2]; exact hn, by rw [← Dim.core_bitSize, u2]; exact hb⟩
    · intro e he
      simp only [renumber, List.mem_cons, List.not_mem_nil, or_false] at he
      subst he
      show d.name ≠ _ ∧ d.name ≠ _
      rw [hn]; decide

theorem adoptSchema_plain {env : Env} {h : Header} (hs : h.schema.fmt.std = true) (hv : NoSchema env h.vlrs) :
    ∃ sch, adoptSchema env h = .ok { h with schema := sch } ∧ StdSchema sch ∧ sch.nextPos ≤ 19 ∧ sch.fmt = h.schema.fmt := by
  obtain ⟨x, hx1, hx2⟩ := hv
  unfold adoptSchema
  rw [hx1]
  simp only [hx2, if_true]
  unfold defaultSchema
  obtain ⟨s, h1, h2, h3, h4⟩ := make_std h.schema.fmt hs
  rw [h1]
  simp only [Outcome.bind_ok]
  obtain ⟨s', a, b, c, d⟩ := h2.setSchema (by omega) h
  rw [a]
  exact ⟨s', rfl, b, by omega, by rw [c, h3]⟩

/-- Reading the block into any header object that has read it before. -/
theorem readHeader_again {env : Env} {b : List Byte} {f : PointFormat} {l : List VLR} (hB : Block env b f l)
    {k : Nat} {h : Header} (hT : Times b f l k h) (q : Nat) :
    ∃ s' sch, readHeader env ⟨b, q, false, false⟩ h = .ok (s',
        { headerOf b with
          vlrs := (List.replicate (k + 1) l).flatten
          srs := (List.replicate (k + 1) l).flatten.filter VLR.isGeo
          padding := got 32 (slice b 96 4) - ((got 16 (slice b 94 2)).setWidth 32 +
            l.foldl (fun acc v => acc + BitVec.ofNat 32 v.totalSize) 0)
          schema := sch }) ∧ s'.buf = b ∧
      sch.fmt = f ∧ sch.byteSize = (got 16 (slice b 105 2)).toNat ∧ sch.dataRecordLength = (got 16 (slice b 105 2)).toNat ∧
      UserOK f (got 16 (slice b 105 2)).toNat sch ∧ Named f sch := by
  have hflat : (List.replicate (k + 1) l).flatten = h.vlrs ++ l := by
    rw [hT.vlrs, List.replicate_succ', List.flatten_append]; simp
  have hrl : (got 16 (slice b 105 2)).toNat < 2 ^ 16 := (got 16 (slice b 105 2)).isLt
  rw [readHeader_eq env b q _ hB.long]
  have hsig : ¬ ((slice b 0 4).take 4 ≠ lit "LASF") := by rw [hB.signature]; decide
  have hmaj : ¬ (1 > (got 8 (slice b 24 1)).toNat ∨ (got 8 (slice b 24 1)).toNat > 1) := by rw [hB.major]; decide
  have hmin : ¬ ((got 8 (slice b 25 1)).toNat > 3) := by have := hB.minor; omega
  have h4 : ¬ ((slice b 26 32).length > 32) := by rw [slice_length]; omega
  have h5 : ¬ ((slice b 58 32).length > 32) := by rw [slice_length]; omega
  have hoff : ¬ ((got 32 (slice b 96 4)).toNat < (got 16 (slice b 94 2)).toNat) := by have := hB.offsetOk; omega
  simp only [Header.setFileSignature, Header.setVersionMajor, Header.setVersionMinor, Header.setSystemId,
    Header.setSoftwareId, if_neg hsig, if_neg hmaj, if_neg hmin, if_neg h4, if_neg h5, if_neg hoff, HeaderReader.set,
    Outcome.bind_ok, hB.raw, hB.format, Header.setDataFormatId]
  obtain ⟨s1, e1, e2, e3⟩ := setDataFormatId_user hB.std hT.user
  rw [e1]
  simp only [Outcome.bind_ok]
  have hr5 : 5 ≤ h.byReturn.length := by
    have := congrArg List.length hT.returns
    simp only [List.length_drop, List.length_cons, List.length_nil] at this
    omega
  unfold returnsOf
  rw [if_pos (by exact hr5)]
  simp only [Outcome.bind_ok, hT.returns]
  -- the variable records
  have hV : ∃ s2 sch2, readVLRsIfAny env ⟨b, 227, false, false⟩
      { headerOf b with vlrs := h.vlrs, srs := h.srs, padding := h.padding, schema := s1 } =
        .ok (s2, { headerOf b with
          vlrs := h.vlrs ++ l
          srs := (h.vlrs ++ l).filter VLR.isGeo
          padding := h.padding
          schema := sch2 }) ∧ s2.buf = b ∧ sch2.fmt = f ∧
        (StdSchema sch2 ∧ sch2.nextPos ≤ 19 ∨ sch2.bitSize = 8 * (got 16 (slice b 105 2)).toNat ∧
          UserOK f (got 16 (slice b 105 2)).toNat sch2 ∧ Named f sch2) := by
    unfold readVLRsIfAny
    by_cases h0 : 0 < recordsOf b
    · rw [if_pos (by exact h0)]
      obtain ⟨s3, hs3⟩ := hB.scan h0
      unfold readVLRs
      simp only [readVLRLoop_scan]
      have est : (if (⟨b, 227, false, false⟩ : IStream).eof = true then (⟨b, 227, false, false⟩ : IStream).clear
          else ⟨b, 227, false, false⟩).seek (headerOf b).headerSize.toNat = vlrStream b := rfl
      have ecnt : (headerOf b).recordsCount.toNat = recordsOf b := rfl
      have ehs : (headerOf b).headerSize.toNat = (got 16 (slice b 94 2)).toNat := rfl
      rw [est, ecnt, hs3]
      simp only [Outcome.bind_ok]
      have hns : NoSchema env (h.vlrs ++ l) := by
        obtain ⟨x, hx1, hx2⟩ := hB.noSchema h0
        refine ⟨x, ?_, hx2⟩
        unfold schemaFromVLRs at hx1 ⊢
        rw [hT.vlrs, find_copies]; exact hx1
      obtain ⟨sch, g1, g2, g3, g4⟩ := adoptSchema_plain (env := env)
        (h := Header.setSRS { headerOf b with vlrs := h.vlrs ++ l, recordsCount := 0 + BitVec.ofNat 32 (recordsOf b), srs := h.srs, padding := h.padding, schema := s1 } (h.vlrs ++ l))
        (by show s1.fmt.std = true; rw [e2]; exact hB.std) hns
      rw [g1]
      simp only [Outcome.bind_ok, Outcome.pure_eq]
      refine ⟨s3, sch, ?_, (scanVLRs_length _ _ _ _ _ hs3).2, by rw [g4]; exact e2, Or.inl ⟨g2, g3⟩⟩
      congr 2
      simp only [Header.setSRS]
      congr 1
      show 0 + BitVec.ofNat 32 (got 32 (slice b 100 4)).toNat = got 32 (slice b 100 4)
      simp
    · rw [if_neg (by exact h0)]
      have hl0 : l = [] := by
        have := hB.count
        exact List.eq_nil_of_length_eq_zero (by omega)
      refine ⟨⟨b, 227, false, false⟩, s1, ?_, rfl, e2, e3⟩
      rw [hl0, List.append_nil, hT.srs]
  obtain ⟨s2, sch2, v1, v2, v3, v4⟩ := hV
  have v1' : readVLRsIfAny env ⟨b, 227, false, false⟩
      { headerOf b with vlrs := h.vlrs, srs := h.srs, padding := h.padding, schema := s1 } = _ := v1
  unfold headerOf at v1'
  simp only at v1'
  rw [v1']
  simp only [Outcome.bind_ok]
  -- the size of the block
  have hcount : (got 32 (slice b 100 4)).toNat = l.length := hB.count.symm
  have htake : (h.vlrs ++ l).take l.length = l := by
    rw [hT.vlrs]
    cases k with
    | zero => simp
    | succ k => rw [List.replicate_succ, List.flatten_cons, List.append_assoc, List.take_left' rfl]
  unfold Header.vlrBlockSize
  simp only [hcount]
  rw [if_pos (by simp), htake]
  simp only [Outcome.bind_ok]
  have hbuf : ((if s2.eof = true then s2.clear else s2).seek (got 32 (slice b 96 4)).toNat).buf = b := by
    rw [IStream.seek_buf]; split <;> exact v2
  rw [hflat]
  rcases v4 with ⟨v4, v5⟩ | ⟨v4, v5⟩
  · obtain ⟨sch9, x1, x2, x3, x4, -, x5⟩ := addExtra_std (g := { headerOf b with
        vlrs := h.vlrs ++ l
        srs := (h.vlrs ++ l).filter VLR.isGeo
        padding := got 32 (slice b 96 4) - ((got 16 (slice b 94 2)).setWidth 32 +
          l.foldl (fun acc v => acc + BitVec.ofNat 32 v.totalSize) 0)
        schema := sch2 }) v4 (by show sch2.nextPos ≤ 90; omega) (got 16 (slice b 105 2)).toNat hrl
    unfold headerOf at x1
    simp only at x1
    rw [x1]
    simp only at x2 x5
    rw [v3] at x2 x5
    exact ⟨_, sch9, rfl, hbuf, x2, x3, x4, x5⟩
  · have hbs : sch2.byteSize = (got 16 (slice b 105 2)).toNat := by unfold Schema.byteSize; omega
    have hdl : sch2.dataRecordLength = (got 16 (slice b 105 2)).toNat := by
      unfold Schema.dataRecordLength; rw [hbs]; exact Nat.mod_eq_of_lt hrl
    unfold addExtra
    rw [if_neg (fun hc => hc hdl)]
    exact ⟨_, sch2, rfl, hbuf, v3, hbs, hdl, v5⟩

/-- What a successful reading of a header block says about the block. -/
theorem readHeader_block {env : Env} {b : List Byte} {q : Nat} {h h' : Header} {s' : IStream} (hb : 227 ≤ b.length)
    (e : readHeader env ⟨b, q, false, false⟩ h = .ok (s', h')) (hc : h'.compressed = false) (h0 : h.vlrs = [])
    (hv : NoSchema env h'.vlrs) : ∃ f, Block env b f h'.vlrs := by
  rw [readHeader_eq env b q _ hb] at e
  obtain ⟨a1, q1, e⟩ := bind_eq_ok e
  obtain ⟨a2, q2, e⟩ := bind_eq_ok e
  obtain ⟨a3, q3, e⟩ := bind_eq_ok e
  obtain ⟨a4, q4, e⟩ := bind_eq_ok e
  obtain ⟨a5, q5, e⟩ := bind_eq_ok e
  by_cases hoff : (got 32 (slice b 96 4)).toNat < (got 16 (slice b 94 2)).toNat
  · rw [if_pos hoff] at e; cases e
  rw [if_neg hoff] at e
  obtain ⟨c, qc, e⟩ := bind_eq_ok e
  obtain ⟨f, qf, e⟩ := bind_eq_ok e
  obtain ⟨a6, q6, e⟩ := bind_eq_ok e
  obtain ⟨a7, q7, e⟩ := bind_eq_ok e
  obtain ⟨⟨s8, a8⟩, q8, e⟩ := bind_eq_ok e
  dsimp only at e
  obtain ⟨vb, _, e⟩ := bind_eq_ok e
  obtain ⟨a10, q10, e⟩ := bind_eq_ok e
  simp only [Outcome.pure_eq, Outcome.ok.injEq, Prod.mk.injEq] at e
  obtain ⟨-, rfl⟩ := e
  have p1 := set_ok q1
  unfold Header.setFileSignature at p1
  by_cases hsig : (slice b 0 4).take 4 ≠ lit "LASF"
  · rw [if_pos hsig] at p1; cases congrArg Prod.snd p1
  rw [if_neg hsig] at p1
  have p1 := congrArg Prod.fst p1
  simp only at p1
  have hsig' : slice b 0 4 = lit "LASF" := by
    have : (slice b 0 4).take 4 = slice b 0 4 := List.take_of_length_le (by rw [slice_length]; omega)
    rw [this] at hsig; simpa using hsig
  have p2 := set_ok q2
  unfold Header.setVersionMajor at p2
  by_cases hmaj : 1 > (got 8 (slice b 24 1)).toNat ∨ (got 8 (slice b 24 1)).toNat > 1
  · rw [if_pos hmaj] at p2; cases congrArg Prod.snd p2
  rw [if_neg hmaj] at p2
  have p2 := congrArg Prod.fst p2
  simp only at p2
  have p3 := set_ok q3
  unfold Header.setVersionMinor at p3
  by_cases hmin : (got 8 (slice b 25 1)).toNat > 3
  · rw [if_pos hmin] at p3; cases congrArg Prod.snd p3
  rw [if_neg hmin] at p3
  have p3 := congrArg Prod.fst p3
  simp only at p3
  have p4 := set_ok q4
  unfold Header.setSystemId at p4
  by_cases h4 : (slice b 26 32).length > 32
  · rw [if_pos h4] at p4; cases congrArg Prod.snd p4
  rw [if_neg h4] at p4
  have p4 := congrArg Prod.fst p4
  simp only at p4
  have p5 := set_ok q5
  unfold Header.setSoftwareId at p5
  by_cases h5 : (slice b 58 32).length > 32
  · rw [if_pos h5] at p5; cases congrArg Prod.snd p5
  rw [if_neg h5] at p5
  have p5 := congrArg Prod.fst p5
  simp only at p5
  have hvl5 : a5.vlrs = h.vlrs := by
    rw [← p5]; dsimp only; rw [← p4]; dsimp only; rw [← p3]; dsimp only; rw [← p2]; dsimp only; rw [← p1]
  have p6 := set_ok q6
  unfold Header.setDataFormatId at p6
  have hf : f.std = true := by
    by_contra hcon
    have e2 := congrArg Prod.snd p6
    simp only at e2
    have : ∀ s : Schema, (s.setDataFormatId f).2 = .throw .runtimeError := by
      intro s; cases f <;> first | (exact absurd rfl hcon) | rfl
    rw [this] at e2
    cases e2
  have p6 := congrArg Prod.fst p6
  simp only at p6
  unfold returnsOf at q7
  split at q7
  swap
  · cases q7
  injection q7 with q7
  -- compression
  have hx : ∀ {g g' : Header} {rl : Nat}, addExtra g rl = .ok g' → g'.vlrs = g.vlrs ∧ g'.compressed = g.compressed := by
    intro g g' rl hh
    unfold addExtra at hh
    split at hh
    · obtain ⟨d, _, hh⟩ := bind_eq_ok hh
      have e3 := congrArg Prod.fst (set_ok hh)
      dsimp only at e3
      rw [← e3, setSchema_frame]; exact ⟨rfl, rfl⟩
    · injection hh with hh; rw [← hh]; exact ⟨rfl, rfl⟩
  obtain ⟨x1, x2⟩ := hx q10
  have x1 : a10.vlrs = a8.vlrs := x1
  have x2 : a10.compressed = a8.compressed := x2
  have hbase : ∀ {s1 s2 : IStream} {g g' : Header}, readVLRsIfAny env s1 g = .ok (s2, g') → g'.compressed = g.compressed ∧
      (g.recordsCount.toNat = 0 → g'.vlrs = g.vlrs) ∧
      (0 < g.recordsCount.toNat → ∃ s3 l, scanVLRs (List.replicate 54 env.junk) g.recordsCount.toNat
          ((if s1.eof then s1.clear else s1).seek g.headerSize.toNat) = .ok (s3, l) ∧ g'.vlrs = g.vlrs ++ l) := by
    intro s1 s2 g g' hh
    unfold readVLRsIfAny at hh
    split at hh
    · rename_i hpos
      unfold readVLRs at hh
      simp only [readVLRLoop_scan] at hh
      rcases hs : scanVLRs (List.replicate 54 env.junk) g.recordsCount.toNat
          ((if s1.eof then s1.clear else s1).seek g.headerSize.toNat) with ⟨s3, l⟩ | ex | _
      · rw [hs] at hh
        simp only [Outcome.bind_ok] at hh
        obtain ⟨g2, e2, hh⟩ := bind_eq_ok hh
        simp only [Outcome.pure_eq, Outcome.ok.injEq, Prod.mk.injEq] at hh
        obtain ⟨-, rfl⟩ := hh
        have hd : ∀ g g2 : Header, defaultSchema g = .ok g2 → g2.vlrs = g.vlrs ∧ g2.compressed = g.compressed := by
          intro g g2 e2
          unfold defaultSchema at e2
          obtain ⟨sc, _, e2⟩ := bind_eq_ok e2
          have e3 := congrArg Prod.fst (set_ok e2)
          dsimp only at e3
          rw [← e3, setSchema_frame]; exact ⟨rfl, rfl⟩
        have ha : ∀ g g2 : Header, adoptSchema env g = .ok g2 → g2.vlrs = g.vlrs ∧ g2.compressed = g.compressed := by
          intro g g2 e2
          unfold adoptSchema at e2
          split at e2
          · cases e2
          · split at e2
            · exact hd g g2 e2
            · cases e2
          · rename_i sc _
            have hh := setSchema_frame g sc
            split at e2
            · rename_i hs'
              injection e2 with e2
              rw [hs', e2] at hh
              have hh : g2 = { g with schema := g2.schema } := hh
              rw [hh]; exact ⟨rfl, rfl⟩
            · cases e2
            · rename_i g3 _ hs'
              rw [hs'] at hh
              have hh : g3 = { g with schema := g3.schema } := hh
              split at e2
              · obtain ⟨i1, i2⟩ := hd _ _ e2
                rw [i1, i2, hh]; exact ⟨rfl, rfl⟩
              · cases e2
        obtain ⟨i1, i2⟩ := ha _ _ e2
        exact ⟨i2, fun h => absurd h (by omega), fun _ => ⟨s3, l, rfl, i1⟩⟩
      · rw [hs] at hh; cases hh
      · rw [hs] at hh; cases hh
    · rename_i hpos
      injection hh with hh
      rw [Prod.mk.injEq] at hh
      obtain ⟨-, rfl⟩ := hh
      exact ⟨rfl, fun _ => rfl, fun h => absurd h hpos⟩
  obtain ⟨g1, g2, g3⟩ := hbase q8
  have hrc : a7.recordsCount = got 32 (slice b 100 4) := by rw [← q7]; dsimp only; rw [← p6]
  have hhs : a7.headerSize = got 16 (slice b 94 2) := by rw [← q7]; dsimp only; rw [← p6]
  have hvl7 : a7.vlrs = [] := by rw [← q7]; dsimp only; rw [← p6]; dsimp only; rw [hvl5]; exact h0
  have hc7 : a7.compressed = c := by rw [← q7]; dsimp only; rw [← p6]
  simp only [hrc, hhs, hvl7, hc7, List.nil_append] at g1 g2 g3
  have hcf : c = false := by rw [← g1, ← x2]; exact hc
  have g2 : (got 32 (slice b 100 4)).toNat = 0 → a8.vlrs = [] := g2
  have g3 : 0 < (got 32 (slice b 100 4)).toNat → ∃ s3 l, scanVLRs (List.replicate 54 env.junk) (recordsOf b) (vlrStream b) = .ok (s3, l) ∧ a8.vlrs = l := g3
  rw [x1] at hv ⊢
  refine ⟨f, hb, hsig', ?_, by omega, by omega, by rw [← hcf]; exact qc, qf, hf, ?_, ?_, fun _ => hv⟩
  · apply BitVec.eq_of_toNat_eq; show _ = 1; omega
  · by_cases hz : (got 32 (slice b 100 4)).toNat = 0
    · rw [g2 hz]; exact hz.symm
    · obtain ⟨s3, l, j1, j2⟩ := g3 (by omega)
      rw [j2]; exact (scanVLRs_length _ _ _ _ _ j1).1
  · intro hz
    obtain ⟨s3, l, j1, j2⟩ := g3 hz
    exact ⟨s3, by rw [j2]; exact j1⟩

end LibLAS
