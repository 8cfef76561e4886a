import Verif.Spec.Reading
import Verif.Lemmas.SchemaRead
import Verif.Lemmas.HeaderRead
namespace LibLAS
open Spec HeaderReader Schema

theorem set_ok {x : Header × Outcome Unit} {h : Header} (e : HeaderReader.set x = .ok h) : x = (h, .ok ()) := by
  unfold HeaderReader.set at e
  split at e
  · injection e with e; rw [← e]
  · cases e
  · cases e

theorem read_buf (t : IStream) (k : Nat) : (t.read k).2.buf = t.buf := by
  unfold IStream.read
  split
  · rfl
  · dsimp only; split <;> rfl

theorem readN_buf {t : IStream} {o : List Byte} {r : List Byte × IStream} (hr : t.readN o = .ok r) : r.2.buf = t.buf := by
  unfold IStream.readN at hr
  by_cases hf : t.fail = true
  · rw [if_pos hf] at hr; cases hr
  · rw [if_neg hf] at hr
    have := read_buf t o.length
    generalize t.read o.length = x at hr this
    obtain ⟨g, s'⟩ := x
    injection hr with hr
    rw [← hr]; exact this

/-- The record loop changes the record list and count only. -/
theorem readVLRLoop_frame (n : Nat) : ∀ (old : List Byte) (s : IStream) (h : Header) (s' : IStream) (h' : Header),
    readVLRLoop old n s h = .ok (s', h') →
    h' = { h with vlrs := h'.vlrs, recordsCount := h.recordsCount + BitVec.ofNat 32 n } ∧
    (∃ l, h'.vlrs = h.vlrs ++ l ∧ l.length = n) ∧ s'.buf = s.buf := by
  induction n with
  | zero =>
    intro old s h s' h' e
    simp only [readVLRLoop, Outcome.pure_eq, Outcome.ok.injEq, Prod.mk.injEq] at e
    obtain ⟨rfl, rfl⟩ := e
    exact ⟨by simp, ⟨[], by simp⟩, rfl⟩
  | succ n ih =>
    intro old s h s' h' e
    rw [readVLRLoop] at e
    obtain ⟨⟨vh, s1⟩, e1, e⟩ := bind_eq_ok e
    dsimp only at e
    obtain ⟨⟨data, s2⟩, e2, e⟩ := bind_eq_ok e
    dsimp only at e
    obtain ⟨i1, ⟨l, i2, i3⟩, i4⟩ := ih _ _ _ _ _ e
    refine ⟨?_, ?_, ?_⟩
    · conv_lhs => rw [i1]
      simp only [Header.addVLR]
      congr 1
      rw [BitVec.add_assoc, Nat.add_comm n 1, BitVec.ofNat_add]; rfl
    · rw [i2]
      simp only [Header.addVLR, List.append_assoc]
      exact ⟨_, rfl, by simp [i3]⟩
    · rw [i4]
      have h1 := readN_buf e1
      unfold readVLRData at e2
      split at e2
      · have h2 := readN_buf e2; simp only at h1 h2; rw [h2, h1]
      · injection e2 with e2; rw [Prod.mk.injEq] at e2; rw [← e2.2]; exact h1

theorem readN_length {t : IStream} {o : List Byte} {r : List Byte × IStream} (hr : t.readN o = .ok r) : r.1.length = o.length := by
  unfold IStream.readN at hr
  by_cases hf : t.fail = true
  · rw [if_pos hf] at hr; cases hr
  · rw [if_neg hf] at hr
    have hle : (t.read o.length).1.length ≤ o.length := by
      unfold IStream.read
      split
      · simp
      · dsimp only; split <;> simp
    generalize t.read o.length = x at hr hle
    obtain ⟨g, s'⟩ := x
    injection hr with hr
    rw [← hr]
    simp only [List.length_append, List.length_drop] at hle ⊢
    omega

/-- The records read are consistent. -/
theorem readVLRLoop_wf (n : Nat) : ∀ (old : List Byte) (s : IStream) (h : Header) (s' : IStream) (h' : Header),
    old.length = 54 → readVLRLoop old n s h = .ok (s', h') → (∀ v ∈ h.vlrs, v.WF) → ∀ v ∈ h'.vlrs, v.WF := by
  induction n with
  | zero =>
    intro old s h s' h' _ e hw
    simp only [readVLRLoop, Outcome.pure_eq, Outcome.ok.injEq, Prod.mk.injEq] at e
    obtain ⟨rfl, rfl⟩ := e
    exact hw
  | succ n ih =>
    intro old s h s' h' ho e hw
    rw [readVLRLoop] at e
    obtain ⟨⟨vh, s1⟩, e1, e⟩ := bind_eq_ok e
    dsimp only at e
    obtain ⟨⟨data, s2⟩, e2, e⟩ := bind_eq_ok e
    dsimp only at e
    have hvh : vh.length = 54 := by have := readN_length e1; simp only at this; omega
    refine ih _ _ _ _ _ hvh e ?_
    intro v hv
    simp only [Header.addVLR, List.mem_append, List.mem_singleton] at hv
    rcases hv with hv | rfl
    · exact hw v hv
    · have hd : data.length = (got 16 ((vh.drop 20).take 2)).toNat := by
        unfold readVLRData at e2
        split at e2
        · have := readN_length e2; simpa using this
        · injection e2 with e2; rw [Prod.mk.injEq] at e2; rw [← e2.1]; simp; omega
      refine ⟨?_, ?_, by exact hd.symm⟩
      · simp [VLR.setUserId, VLR.setDescription, padTo]
      · simp [VLR.setUserId, VLR.setDescription, padTo]

theorem setSchema_frame (g : Header) (s : Schema) :
    (g.setSchema s).1 = { g with schema := (g.setSchema s).1.schema } := by
  unfold Header.setSchema
  cases s.getDimension "X" with
  | none => rfl
  | some x =>
    dsimp only
    cases (s.addDimension x).getDimension "Y" with
    | none => rfl
    | some y =>
      dsimp only
      cases ((s.addDimension x).addDimension y).getDimension "Z" <;> rfl

theorem noSchema_none {env : Env} {vs : List VLR} (h : vs.find? VLR.isSchema = none) : NoSchema env vs :=
  ⟨.runtimeError, by unfold schemaFromVLRs; rw [h], rfl⟩

/-- Without a readable schema record the schema read is the standard one of the format. -/
theorem adoptSchema_std {env : Env} {h h' : Header} (e : adoptSchema env h = .ok h') (hs : StdSchema h.schema)
    (hv : NoSchema env h.vlrs) :
    ∃ sch, h' = { h with schema := sch } ∧ StdSchema sch ∧ sch.nextPos ≤ 19 ∧ sch.fmt = h.schema.fmt := by
  obtain ⟨x, hx1, hx2⟩ := hv
  unfold adoptSchema at e
  rw [hx1] at e
  simp only [hx2, if_true] at e
  unfold defaultSchema at e
  obtain ⟨s, h1, h2, h3, h4⟩ := make_std h.schema.fmt hs.1
  rw [h1] at e
  simp only [Outcome.bind_ok] at e
  obtain ⟨s', a, b, c, d⟩ := h2.setSchema (by omega) h
  rw [a] at e
  injection e with e
  exact ⟨s', e.symm, b, by omega, by rw [c, h3]⟩

theorem readVLRsIfAny_frame {env : Env} {s s' : IStream} {h h' : Header} (e : readVLRsIfAny env s h = .ok (s', h'))
    (hs : StdSchema h.schema) (hp : h.schema.nextPos ≤ 19) (hc : h.vlrs = []) (hv : NoSchema env h'.vlrs)
    (hsr : h.srs = []) : ∃ sch srs, h' = { h with vlrs := h'.vlrs, srs := srs, recordsCount := h.recordsCount, schema := sch } ∧
      StdSchema sch ∧ sch.nextPos ≤ 19 ∧ sch.fmt = h.schema.fmt ∧ h'.vlrs.length = h.recordsCount.toNat ∧ s'.buf = s.buf ∧
      srs = h'.vlrs.filter VLR.isGeo ∧ ∀ v ∈ h'.vlrs, v.WF := by
  unfold readVLRsIfAny at e
  split at e
  · unfold readVLRs at e
    obtain ⟨⟨s1, h1⟩, e1, e⟩ := bind_eq_ok e
    dsimp only at e
    obtain ⟨h2, e2, e⟩ := bind_eq_ok e
    simp only [Outcome.pure_eq, Outcome.ok.injEq, Prod.mk.injEq] at e
    obtain ⟨rfl, rfl⟩ := e
    obtain ⟨f1, ⟨l, f2, f3⟩, f4⟩ := readVLRLoop_frame _ _ _ _ _ _ e1
    have hb : s1.buf = s.buf := by
      rw [f4]; unfold IStream.seek IStream.clear
      split <;> split <;> rfl
    have hsch : h1.schema = h.schema := by rw [f1]
    have hv2 : h2.vlrs = h1.vlrs := by
      have hm : ∀ (g : Header) (sc : Schema), (g.setSchema sc).1.vlrs = g.vlrs := by
        exact fun g sc => by rw [setSchema_frame g sc]
      have hd : ∀ g h2 : Header, defaultSchema g = .ok h2 → h2.vlrs = g.vlrs := by
        intro g h2 e2
        unfold defaultSchema at e2
        obtain ⟨sc, _, e2⟩ := bind_eq_ok e2
        have e3 := set_ok e2
        have e4 := congrArg (fun x => x.1.vlrs) e3
        simp only [hm] at e4
        exact e4.symm
      unfold adoptSchema at e2
      split at e2
      · cases e2
      · split at e2
        · exact hd (h1.setSRS h1.vlrs) _ e2
        · cases e2
      · rename_i sc _
        have hh := hm (h1.setSRS h1.vlrs) sc
        split at e2
        · rename_i hs'
          injection e2 with e2
          rw [hs', e2] at hh
          exact hh
        · cases e2
        · rename_i hs'
          rw [hs'] at hh
          split at e2
          · have := hd _ _ e2; rw [this]; exact hh
          · cases e2
    obtain ⟨sch, g1, g2, g3, g4⟩ := adoptSchema_std e2 (by show StdSchema h1.schema; rw [hsch]; exact hs)
      (by show NoSchema env h1.vlrs; rw [← hv2]; exact hv)
    refine ⟨sch, (h1.setSRS h1.vlrs).srs, ?_, g2, g3, ?_, ?_, hb, by rw [hv2]; rfl, by
      rw [hv2]
      exact readVLRLoop_wf _ _ _ _ _ _ (by simp) e1 (by show ∀ v ∈ h.vlrs, v.WF; rw [hc]; simp)⟩
    · rw [hv2]
      conv_lhs => rw [g1]
      unfold Header.setSRS
      conv_lhs => rw [f1]
      simp
    · rw [g4]; show h1.schema.fmt = _; rw [hsch]
    · rw [hv2, f2, hc]; simpa using f3
  · rename_i h0
    injection e with e
    rw [Prod.mk.injEq] at e
    obtain ⟨rfl, rfl⟩ := e
    exact ⟨h.schema, h.srs, rfl, hs, hp, rfl, by rw [hc]; simp; omega, rfl, by rw [hc, hsr]; rfl, by rw [hc]; simp⟩

/-- The header fields of a file of at least 227 bytes, as the format defines them. -/
structure Opened (b : List Byte) (r : Reader) : Prop where
  ifs : r.ifs = ⟨b, 0, false, false⟩
  current : r.current = 0
  filter : r.filter = none
  xform : r.xform = none
  size : r.size = (got 32 (slice b 107 4)).toNat
  pointCount : r.hdr.pointCount = got 32 (slice b 107 4)
  dataOffset : r.hdr.dataOffset = got 32 (slice b 96 4)
  headerSize : r.hdr.headerSize = got 16 (slice b 94 2)
  recordLength : r.hdr.dataRecordLength = (got 16 (slice b 105 2)).toNat
  recordSize : r.recordSize = (got 16 (slice b 105 2)).toNat
  point : r.point = List.replicate (got 16 (slice b 105 2)).toNat 0#8
  std : r.hdr.schema.fmt.std = true
  format : formatOf (got 8 (slice b 104 1) &&& 0x3f) = .ok r.hdr.schema.fmt
  raw : compressionOf (got 8 (slice b 104 1)) = .ok false
  signature : slice b 0 4 = lit "LASF"
  major : got 8 (slice b 24 1) = 1
  minor : (got 8 (slice b 25 1)).toNat ≤ 3
  offsetOk : (got 16 (slice b 94 2)).toNat ≤ (got 32 (slice b 96 4)).toNat
  records : r.hdr.vlrs.length = (got 32 (slice b 100 4)).toNat
  scale : r.hdr.scale = ⟨got 64 (slice b 131 8), got 64 (slice b 139 8), got 64 (slice b 147 8)⟩
  offset : r.hdr.offset = ⟨got 64 (slice b 155 8), got 64 (slice b 163 8), got 64 (slice b 171 8)⟩
  text : r.hdr.signature = lit "LASF" ∧ r.hdr.guid = slice b 8 16 ∧ r.hdr.systemId.length = 32 ∧ r.hdr.softwareId.length = 32
  version : r.hdr.verMajor = got 8 (slice b 24 1) ∧ r.hdr.verMinor = got 8 (slice b 25 1)
  returns : 5 ≤ r.hdr.byReturn.length
  plain : r.hdr.compressed = false
  reference : r.hdr.srs = r.hdr.vlrs.filter VLR.isGeo
  wf : ∀ v ∈ r.hdr.vlrs, v.WF
  filler : ∃ v, r.hdr.vlrBlockSize = .ok v ∧ r.hdr.padding = r.hdr.dataOffset - (r.hdr.headerSize.setWidth 32 + v)
  numbered : r.hdr.recordsCount = got 32 (slice b 100 4)
  standard : r.hdr.dataRecordLength = formatSize r.hdr.schema.fmt → StdSchema r.hdr.schema ∧ r.hdr.schema.nextPos ≤ 19

theorem format_std {n : BitVec 8} {f : PointFormat} (h : formatOf n = .ok f) (d y : BitVec 16)
    {g g' : Header} (hg : g.schema = (Header.new d y).schema) (hs : HeaderReader.set (g.setDataFormatId f) = .ok g') :
    f.std = true ∧ ∃ s', g' = { g with schema := s' } ∧ Laid s' (stdL f) ∧ s'.fmt = f ∧ s'.nextPos ≤ 16 := by
  have hf : f.std = true := by
    by_contra hc
    have e := set_ok hs
    unfold Header.setDataFormatId at e
    have e2 := congrArg Prod.snd e
    simp only at e2
    have : (g.schema.setDataFormatId f).2 = .throw .runtimeError := by
      cases f <;> first | (exact absurd rfl hc) | rfl
    rw [this] at e2
    cases e2
  refine ⟨hf, ?_⟩
  obtain ⟨s', h1, h2, h3, h4⟩ := new_setDataFormatId d y f hf
  have h16 := (stdBase_facts f f hf).2.2.2.2.1
  refine ⟨s', ?_, h2, h3, by omega⟩
  have e := set_ok hs
  unfold Header.setDataFormatId at e
  rw [hg, h1] at e
  exact (congrArg Prod.fst e).symm

/-- Opening a file without a schema record. -/
theorem open_file {env : Env} {today : BitVec 16 × BitVec 16} {b : List Byte} {r : Reader} (hb : 227 ≤ b.length)
    (e : Reader.make env today (IStream.onFile b) = .ok r) (hv : NoSchema env r.hdr.vlrs) : Opened b r := by
  unfold Reader.make at e
  have hif : (if (IStream.onFile b).eof then (IStream.onFile b).clear else IStream.onFile b) = ⟨b, 0, false, false⟩ := rfl
  rw [hif] at e
  obtain ⟨⟨s9, h9⟩, e1, e⟩ := bind_eq_ok e
  dsimp only at e
  rw [readHeader_eq env b 0 _ hb] at e1
  obtain ⟨a1, q1, e1⟩ := bind_eq_ok e1
  obtain ⟨a2, q2, e1⟩ := bind_eq_ok e1
  obtain ⟨a3, q3, e1⟩ := bind_eq_ok e1
  obtain ⟨a4, q4, e1⟩ := bind_eq_ok e1
  obtain ⟨a5, q5, e1⟩ := bind_eq_ok e1
  by_cases hoff : (got 32 (slice b 96 4)).toNat < (got 16 (slice b 94 2)).toNat
  · rw [if_pos hoff] at e1; cases e1
  rw [if_neg hoff] at e1
  obtain ⟨c, qc, e1⟩ := bind_eq_ok e1
  obtain ⟨f, qf, e1⟩ := bind_eq_ok e1
  obtain ⟨a6, q6, e1⟩ := bind_eq_ok e1
  obtain ⟨a7, q7, e1⟩ := bind_eq_ok e1
  obtain ⟨⟨s8, a8⟩, q8, e1⟩ := bind_eq_ok e1
  dsimp only at e1
  obtain ⟨vb, hvb, e1⟩ := bind_eq_ok e1
  obtain ⟨a10, q10, e1⟩ := bind_eq_ok e1
  simp only [Outcome.pure_eq, Outcome.ok.injEq, Prod.mk.injEq] at e1
  obtain ⟨es9, rfl⟩ := e1
  -- setters
  have p1 := set_ok q1
  unfold Header.setFileSignature at p1
  by_cases hsig : (slice b 0 4).take 4 ≠ lit "LASF"
  · rw [if_pos hsig] at p1; cases congrArg Prod.snd p1
  rw [if_neg hsig] at p1
  have p1 := congrArg Prod.fst p1
  simp only at p1
  have hsig' : slice b 0 4 = lit "LASF" := by
    have : (slice b 0 4).take 4 = slice b 0 4 := List.take_of_length_le (by rw [slice_length]; omega)
    rw [this] at hsig; simpa using hsig
  have p2 := set_ok q2
  unfold Header.setVersionMajor at p2
  by_cases hmaj : 1 > (got 8 (slice b 24 1)).toNat ∨ (got 8 (slice b 24 1)).toNat > 1
  · rw [if_pos hmaj] at p2; cases congrArg Prod.snd p2
  rw [if_neg hmaj] at p2
  have p2 := congrArg Prod.fst p2
  simp only at p2
  have p3 := set_ok q3
  unfold Header.setVersionMinor at p3
  by_cases hmin : (got 8 (slice b 25 1)).toNat > 3
  · rw [if_pos hmin] at p3; cases congrArg Prod.snd p3
  rw [if_neg hmin] at p3
  have p3 := congrArg Prod.fst p3
  simp only at p3
  have p4 := set_ok q4
  unfold Header.setSystemId at p4
  by_cases h4 : (slice b 26 32).length > 32
  · rw [if_pos h4] at p4; cases congrArg Prod.snd p4
  rw [if_neg h4] at p4
  have p4 := congrArg Prod.fst p4
  simp only at p4
  have p5 := set_ok q5
  unfold Header.setSoftwareId at p5
  by_cases h5 : (slice b 58 32).length > 32
  · rw [if_pos h5] at p5; cases congrArg Prod.snd p5
  rw [if_neg h5] at p5
  have p5 := congrArg Prod.fst p5
  simp only at p5
  have hsch5 : a5.schema = (Header.new today.1 today.2).schema := by
    rw [← p5]; dsimp only; rw [← p4]; dsimp only; rw [← p3]; dsimp only; rw [← p2]; dsimp only; rw [← p1]
  have hsr5 : a5.srs = [] := by
    rw [← p5]; dsimp only; rw [← p4]; dsimp only; rw [← p3]; dsimp only; rw [← p2]; dsimp only; rw [← p1]; rfl
  have hvl5 : a5.vlrs = [] := by
    rw [← p5]; dsimp only; rw [← p4]; dsimp only; rw [← p3]; dsimp only; rw [← p2]; dsimp only; rw [← p1]; rfl
  obtain ⟨hf, sch, p6, l1, l2, l3⟩ := format_std qf today.1 today.2 (by exact hsch5) q6
  -- per-return counts
  unfold returnsOf at q7
  split at q7
  swap
  · cases q7
  injection q7 with q7
  -- records
  have hstd : StdSchema sch := ⟨by rw [l2]; exact hf, by rw [l2]; exact l1, by omega⟩
  have ha8 : a8.vlrs = r.hdr.vlrs := by
    have k1 : a10.vlrs = a8.vlrs := by
      unfold addExtra at q10
      split at q10
      · obtain ⟨d, _, q10⟩ := bind_eq_ok q10
        have e3 := set_ok q10
        have e4 := congrArg (fun x => x.1.vlrs) e3
        dsimp only at e4
        rw [← e4, setSchema_frame]
      · injection q10 with q10; rw [← q10]
    rw [← k1]
    split at e
    · cases e
    · injection e with e; rw [← e]; rfl
  have hv8 : NoSchema env a8.vlrs := by rw [ha8]; exact hv
  obtain ⟨sch8, srs8, g1, g2, g3, g4, g5, g6, g7, g8⟩ := readVLRsIfAny_frame q8
    (by show StdSchema a7.schema; rw [← q7]; dsimp only; rw [p6]; exact hstd)
    (by show a7.schema.nextPos ≤ 19; rw [← q7]; dsimp only; rw [p6]; dsimp only; omega)
    (by show a7.vlrs = []; rw [← q7]; dsimp only; rw [p6]; exact hvl5) hv8
    (by show a7.srs = []; rw [← q7]; dsimp only; rw [p6]; exact hsr5)
  have hs8 : a8.schema = sch8 := by rw [g1]
  obtain ⟨sch9, x1, x2, x3, x4, -⟩ := addExtra_std (g := { a8 with padding := a8.dataOffset - (a8.headerSize.setWidth 32 + vb) })
    (by show StdSchema a8.schema; rw [hs8]; exact g2) (by show a8.schema.nextPos ≤ 90; rw [hs8]; omega)
    (got 16 (slice b 105 2)).toNat (by exact (got 16 (slice b 105 2)).isLt)
  rw [x1] at q10
  injection q10 with q10
  have hfmt9 : sch9.fmt = f := by
    rw [x2]; show a8.schema.fmt = f; rw [hs8, g4]; show a7.schema.fmt = f; rw [← q7]; dsimp only; rw [p6]; exact l2
  have hcomp : a10.compressed = c := by
    rw [← q10]; dsimp only; rw [g1]; dsimp only; rw [← q7]; dsimp only; rw [p6]
  rw [hcomp] at e
  split at e
  · cases e
  rename_i hc
  have hc' : c = false := by simpa using hc
  injection e with e
  have hhdr : r.hdr = a10 := by rw [← e]; rfl
  have hs9 : s9.buf = b := by
    rw [← es9]
    have k2 : s8.buf = b := g6
    unfold IStream.seek IStream.clear
    split <;> split <;> exact k2
  have hsch10 : a10.schema = sch9 := by rw [← q10]
  constructor
  · rw [← e]
    show s9.clear.seek 0 = _
    unfold IStream.clear IStream.seek
    rw [hs9]; rfl
  · rw [← e]; rfl
  · rw [← e]; rfl
  · rw [← e]; rfl
  · rw [← e]; show a10.pointCount.toNat = _
    rw [← q10]; dsimp only; rw [g1]; dsimp only; rw [← q7]
  · rw [hhdr, ← q10]; dsimp only; rw [g1]; dsimp only; rw [← q7]
  · rw [hhdr, ← q10]; dsimp only; rw [g1]; dsimp only; rw [← q7]; dsimp only; rw [p6]
  · rw [hhdr, ← q10]; dsimp only; rw [g1]; dsimp only; rw [← q7]; dsimp only; rw [p6]
  · rw [hhdr]; show a10.schema.dataRecordLength = _; rw [hsch10, x4]
  · rw [← e]; show a10.schema.byteSize = _; rw [hsch10, x3]
  · rw [← e]; show List.replicate a10.schema.dataRecordLength 0#8 = _; rw [hsch10, x4]
  · rw [hhdr, hsch10, hfmt9]; exact hf
  · rw [hhdr, hsch10, hfmt9]; exact qf
  · rw [← hc']; exact qc
  · exact hsig'
  · apply BitVec.eq_of_toNat_eq; show _ = 1; omega
  · omega
  · omega
  · rw [← ha8, g5]; show a7.recordsCount.toNat = _; rw [← q7]; dsimp only; rw [p6]
  · rw [hhdr, ← q10]; dsimp only; rw [g1]
  · rw [hhdr, ← q10]; dsimp only; rw [g1]
  · have hf : a10.signature = a5.signature ∧ a10.guid = a5.guid ∧ a10.systemId = a5.systemId ∧ a10.softwareId = a5.softwareId := by
      rw [← q10]; dsimp only; rw [g1]; dsimp only; rw [← q7]; dsimp only; rw [p6]; exact ⟨rfl, rfl, rfl, rfl⟩
    rw [hhdr, hf.1, hf.2.1, hf.2.2.1, hf.2.2.2]
    refine ⟨?_, ?_, ?_, ?_⟩
    · rw [← p5]; dsimp only; rw [← p4]; dsimp only; rw [← p3]; dsimp only; rw [← p2]; dsimp only; rw [← p1]; dsimp only
      rw [hsig']; decide
    · rw [← p5]; dsimp only; rw [← p4]; dsimp only; rw [← p3]; dsimp only; rw [← p2]
    · rw [← p5]; dsimp only; rw [← p4]; dsimp only; simp [padTo]
    · rw [← p5]; dsimp only; simp [padTo]
  · have hf : a10.verMajor = a5.verMajor ∧ a10.verMinor = a5.verMinor := by
      rw [← q10]; dsimp only; rw [g1]; dsimp only; rw [← q7]; dsimp only; rw [p6]; exact ⟨rfl, rfl⟩
    rw [hhdr, hf.1, hf.2]
    constructor
    · rw [← p5]; dsimp only; rw [← p4]; dsimp only; rw [← p3]; dsimp only; rw [← p2]
    · rw [← p5]; dsimp only; rw [← p4]; dsimp only; rw [← p3]
  · rw [hhdr, ← q10]; dsimp only; rw [g1]; dsimp only; rw [← q7]; dsimp only; simp
  · rw [hhdr, hcomp, hc']
  · rw [hhdr]
    have k1 : a10.srs = srs8 := by rw [← q10]; dsimp only; rw [g1]
    rw [k1, g7, ha8, hhdr]
  · rw [← ha8]; exact g8
  · refine ⟨vb, ?_, ?_⟩
    · rw [hhdr, ← q10]; exact hvb
    · rw [hhdr, ← q10]
  · rw [hhdr, ← q10]; dsimp only; rw [g1]; dsimp only; rw [← q7]; dsimp only; rw [p6]
  · intro hl
    rw [hhdr, hsch10]
    have h8 : StdSchema a8.schema ∧ a8.schema.nextPos ≤ 19 ∧ a8.schema.fmt = sch9.fmt := by
      rw [hs8]; exact ⟨g2, g3, by rw [x2]; show _ = a8.schema.fmt; rw [hs8]⟩
    have hl' : (got 16 (slice b 105 2)).toNat = formatSize sch9.fmt := by
      rw [← x4]
      have : r.hdr.dataRecordLength = a10.schema.dataRecordLength := by rw [hhdr]; rfl
      rw [hsch10] at this
      rw [← this, hl, hhdr, hsch10]
    have hd : ({ a8 with padding := a8.dataOffset - (a8.headerSize.setWidth 32 + vb) } : Header).dataRecordLength =
        (got 16 (slice b 105 2)).toNat := by
      show a8.schema.dataRecordLength = _
      rw [h8.1.byteSize.2, hl', h8.2.2]
    unfold addExtra at x1
    rw [if_neg (by rw [hd]; simp)] at x1
    simp only [Outcome.pure_eq, Outcome.ok.injEq] at x1
    have : sch9 = a8.schema := by
      have := congrArg Header.schema x1
      exact this.symm
    rw [this]
    exact ⟨h8.1, h8.2.1⟩

end LibLAS
