import Verif.Props.Ts2las
import Verif.Props.RoundTrip
/-
C79: files that ts2las refuses, files that end too early, and an example.
-/
namespace LibLAS
open Spec Spec.TerraScan Point

namespace Ts2las

/-- A file whose header is not that of a TerraScan file of a known version is refused. -/
theorem unknown_refused (env : Env) (today : BitVec 16 × BitVec 16) (b : Build) {input : List Byte} (hl : 56 ≤ input.length)
    (h : fileNat input 8 4 ≠ 970401 ∨ slice input 12 4 ≠ lit "CXYZ" ∨ ¬ known (BitVec.ofNat 32 (fileNat input 4 4))) :
    main env today b input = .throw .runtimeError := by
  obtain ⟨s, e, -⟩ := IStream.Ahead.readN (s := IStream.onFile input) (old := List.replicate 56 0#8)
    (bs := input.take 56) (rest := input.drop 56) ⟨rfl, rfl, by rw [List.take_append_drop]; rfl⟩ (by simp; omega)
  have hp : ∀ i n, i + n ≤ 56 → part (input.take 56) i n = slice input i n := by
    intro i n hi
    unfold part slice
    rw [List.drop_take, List.take_take, Nat.min_eq_left (by omega)]
  have hg : ∀ i, i + 4 ≤ 56 → got 32 (part (input.take 56) i 4) = BitVec.ofNat 32 (fileNat input i 4) := by
    intro i hi
    rw [hp i 4 hi]
    show memValue .little 32 _ = _
    rw [memValue_little]; rfl
  have hbad : ∃ hd, readHeader (IStream.onFile input) = .ok (false, hd, s) := by
    refine ⟨ScanHdr.ofBytes (input.take 56), ?_⟩
    unfold readHeader
    rw [e]
    simp only
    have e1 : (ScanHdr.ofBytes (input.take 56)).tunniste = BitVec.ofNat 32 (fileNat input 8 4) := hg 8 (by decide)
    have e2 : (ScanHdr.ofBytes (input.take 56)).magic = slice input 12 4 := hp 12 4 (by decide)
    have e3 : (ScanHdr.ofBytes (input.take 56)).version = BitVec.ofNat 32 (fileNat input 4 4) := hg 4 (by decide)
    rw [e1, e2, e3]
    by_cases c1 : BitVec.ofNat 32 (fileNat input 8 4) ≠ 970401
    · rw [if_pos c1]
    rw [if_neg c1]
    by_cases c2 : slice input 12 4 ≠ lit "CXYZ"
    · rw [if_pos c2]
    rw [if_neg c2]
    have lt : fileNat input 8 4 < 2 ^ 32 := by
      have := leNat_lt (slice input 8 4)
      have hl4 : (slice input 8 4).length = 4 := slice_length_of_le (by omega)
      rw [hl4] at this
      exact this
    have k : ¬ known (BitVec.ofNat 32 (fileNat input 4 4)) := by
      rcases h with h | h | h
      · exfalso; apply c1; intro hh; apply h
        have := congrArg BitVec.toNat hh
        rw [BitVec.toNat_ofNat, Nat.mod_eq_of_lt lt] at this
        exact this
      · exact absurd h c2
      · exact h
    unfold known at k
    push Not at k
    obtain ⟨k1, k2, k3, k4⟩ := k
    have k5 : BitVec.ofNat 32 (fileNat input 4 4) ≠ 20020715 := by
      intro hh
      rw [hh] at k4
      exact absurd (k4 (by decide)) (by decide)
    rw [if_neg k1, if_neg k2, if_neg k3, if_neg k5]
    generalize (BitVec.ofNat 32 (fileNat input 4 4)) = v at *
    congr 2
    rw [Bool.and_eq_false_iff]
    by_cases hv : v.toInt > 20020715
    · right; exact decide_eq_false (by have := k4 (by omega); omega)
    · left; exact decide_eq_false hv
  obtain ⟨hd, eb⟩ := hbad
  unfold main
  rw [eb, Outcome.bind_ok]
  rfl

theorem readN_short {s : IStream} {old bs : List Byte} (h : s.Ahead bs) (hl : bs.length < old.length) :
    ∃ s', s.readN old = .ok (bs ++ old.drop bs.length, s') ∧ s'.fail = true := by
  obtain ⟨h1, h2, h3⟩ := h
  have ht : (s.buf.drop s.pos).take old.length = bs := by rw [h3, List.take_of_length_le (by omega)]
  refine ⟨{ s with pos := s.pos + bs.length, eof := true, fail := true }, ?_, rfl⟩
  unfold IStream.readN IStream.read
  simp only [h1, h2, Bool.or_self, Bool.false_eq_true, if_false, ht]
  rw [if_neg (by omega)]

theorem readN_failed {s : IStream} (h : s.fail = true) (old : List Byte) : s.readN old = .throw .runtimeError := by
  unfold IStream.readN; rw [if_pos h]

theorem writePoints_hdr {ds : List (List Byte)} : ∀ {w w' : Writer}, w.writePoints ds = .ok w' → w'.hdr = w.hdr := by
  induction ds with
  | nil => intro w w' h; injection h with h; rw [h]
  | cons d ds ih =>
    intro w w' h
    obtain ⟨w1, f1, f2⟩ := bind_eq_ok h
    rw [ih f2, writePoint_hdr f1]

theorem tryWrite_ok {w : Writer} {p : Point} (h0 : 0 < p.data.length) (h : w.hdr.dataRecordLength ≤ p.data.length) :
    ∃ w', tryWrite w p = .ok w' := by
  unfold tryWrite Writer.writePoint
  rw [if_neg (by intro hh; rw [hh] at h0; simp at h0)]
  by_cases hf : w.ofs.fail
  · rw [if_pos hf]; exact ⟨_, rfl⟩
  · rw [if_neg hf, if_neg (by omega)]; exact ⟨_, rfl⟩

theorem same_records {b : Build} {ph : PHeader} {f : Survey} {shots : List Shot} {ds ds' : List (List Byte)}
    (h : List.Forall₂ (fun sh d => pointOf b ph f sh = .ok ⟨d, ph⟩) shots ds)
    (h' : List.Forall₂ (fun sh d => pointOf b ph f sh = .ok ⟨d, ph⟩) shots ds') : ds = ds' := by
  induction h generalizing ds' with
  | nil => cases h'; rfl
  | cons h1 _ ih =>
    cases h' with
    | cons k1 k2 =>
      rw [h1] at k1
      injection k1 with k1
      injection k1 with k1
      rw [k1, ih k2]

/-- The program up to the end of the shots that are there, for two files that differ only behind them. -/
theorem before_end_two (env : Env) (today : BitVec 16 × BitVec 16) (b : Build) {f : Survey} (hk : known f.version)
    {shots : List Shot} (hf : ∀ sh ∈ shots, TerraScan.Fits f sh) (rest rest' : List Byte) {m : Nat} (hn : shots.length + m < 2 ^ 31) :
    ∃ w s s', main env today b (surveyBytes f (shots.length + m) ++ ((shots.map (shotBytes f)).flatten ++ rest)) =
        (loop b (hdrOf f (shots.length + m)) m w s (((shots.getLast?).map (coreBytes f)).getD (List.replicate (coreSize f) 0#8))).bind (fun w => .ok w.close.buf) ∧
      main env today b (surveyBytes f (shots.length + m) ++ ((shots.map (shotBytes f)).flatten ++ rest')) =
        (loop b (hdrOf f (shots.length + m)) m w s' (((shots.getLast?).map (coreBytes f)).getD (List.replicate (coreSize f) 0#8))).bind (fun w => .ok w.close.buf) ∧
      s.Ahead rest ∧ s'.Ahead rest' ∧
      w.hdr.toP.fmt = format f ∧ w.hdr.toP.recLen = formatSize (format f) := by
  obtain ⟨w, hr⟩ := ready env today f (shots.length + m)
  generalize hH : createHeader today (hdrOf f (shots.length + m)) = h at hr
  have one := fun rest s hs => loop_ok (b := b) (f := f) (n := shots.length + m) (ph := h.toP)
    (by show h.schema.fmt.std = true; rw [hr.fmt, format_std])
    (by show h.dataRecordLength = formatSize h.schema.fmt; rw [hr.recLen, hr.fmt])
    hr.time hr.color
    rest shots hf s (List.replicate (pointSize (hdrOf f (shots.length + m))) 0#8) hs (List.length_replicate ..)
  obtain ⟨s, e1, hs⟩ := readHeader_ok hk (shots.length + m) ((shots.map (shotBytes f)).flatten ++ rest)
  obtain ⟨s', e1', hs'⟩ := readHeader_ok hk (shots.length + m) ((shots.map (shotBytes f)).flatten ++ rest')
  obtain ⟨ds, s3, old3, hds, ha, ho, hloop⟩ := one rest s hs
  obtain ⟨ds', s3', old3', hds', ha', ho', hloop'⟩ := one rest' s' hs'
  have hsame : ds' = ds := same_records (hds'.imp fun _ _ h => h.2.2) (hds.imp fun _ _ h => h.2.2)
  subst hsame
  have hdl : ∀ d ∈ ds', d.length = h.dataRecordLength := by
    intro d hd
    obtain ⟨sh, -, h1, -⟩ := Txt2las.forall₂_mem' hds hd
    exact h1
  have hlen : ds'.length = shots.length := hds.length_eq.symm
  obtain ⟨w', r, f1, -⟩ := written_is_read env today hr.storable hr.made hr.small hr.noSchema hr.pos ds' (fun d hd => (hdl d hd).ge) (by omega)
  have htp : w'.hdr.toP = h.toP := by rw [writePoints_hdr f1, hr.toP]
  refine ⟨w', s3, s3', ?_, ?_, ha, ha', ?_, ?_⟩
  · unfold main
    rw [e1, Outcome.bind_ok]
    simp only
    rw [if_neg (by decide), hH, hr.made, Outcome.bind_ok, rounds_eq f hn, hloop w w' hr.toP f1 m, ho]
    rfl
  · unfold main
    rw [e1', Outcome.bind_ok]
    simp only
    rw [if_neg (by decide), hH, hr.made, Outcome.bind_ok, rounds_eq f hn, hloop' w w' hr.toP f1 m, ho']
    rfl
  · rw [htp]; exact hr.fmt
  · rw [htp]; exact hr.recLen

theorem old_length {f : Survey} {n : Nat} (shots : List Shot) :
    (((shots.getLast?).map (coreBytes f)).getD (List.replicate (coreSize f) 0#8)).length = coreSize f := by
  have : coreSize f = pointSize (hdrOf f n) := rfl
  cases shots.getLast? with
  | none => simp
  | some x => simp [this, coreBytes_length f n]

/-- C79 where the file is too short: when two or more of the shots that the header counts are missing (or one, if shots have
time or colour), the program ends with an exception that nobody catches. -/
theorem missing_shots (env : Env) (today : BitVec 16 × BitVec 16) (b : Build) {f : Survey} (hk : known f.version)
    {shots : List Shot} (hf : ∀ sh ∈ shots, TerraScan.Fits f sh) {rest : List Byte} (hrest : rest.length < coreSize f) {n : Nat}
    (hn : n < 2 ^ 31) (hmiss : shots.length + 2 ≤ n ∨ (shots.length + 1 ≤ n ∧ (f.time ≠ 0 ∨ f.color ≠ 0))) :
    main env today b (surveyBytes f n ++ (shots.map (shotBytes f)).flatten ++ rest) = .throw .runtimeError := by
  obtain ⟨m, rfl⟩ : ∃ m, n = shots.length + m := ⟨n - shots.length, by omega⟩
  obtain ⟨w, s, -, e, -, ha, -, hw1, hw2⟩ := before_end_two env today b hk hf rest [] hn
  have hw3 : w.hdr.dataRecordLength = formatSize (format f) := hw2
  rw [List.append_assoc, e]
  obtain ⟨k, rfl⟩ : ∃ k, m = k + 1 := ⟨m - 1, by omega⟩
  have hol := old_length (f := f) (n := 0) shots
  generalize ((shots.getLast?).map (coreBytes f)).getD (List.replicate (coreSize f) 0#8) = old at *
  obtain ⟨s1, e1, h1⟩ := readN_short ha (by rw [hol]; exact hrest)
  have key : loop b (hdrOf f (shots.length + (k + 1))) (k + 1) w s old = .throw .runtimeError := by
    rw [loop]
    have en : ∃ q, nextPoint (hdrOf f (shots.length + (k + 1))) s old = .ok (q, rest ++ old.drop rest.length, s1) := by
      unfold nextPoint; rw [e1, Outcome.bind_ok]; exact ⟨_, rfl⟩
    obtain ⟨q, en⟩ := en
    rw [en, Outcome.bind_ok]
    simp only
    obtain ⟨p, ep, kp⟩ := startPoint_ok b (ph := w.hdr.toP) (by rw [hw1, format_std]) (by rw [hw2, hw1]) q
    rw [ep, Outcome.bind_ok]
    by_cases ht : f.time ≠ 0
    · have : readTime b (hdrOf f (shots.length + (k + 1))) s1 p = .throw .runtimeError := by
        unfold readTime
        have e1 : (hdrOf f (shots.length + (k + 1))).time = f.time := rfl
        rw [e1, if_pos ht, readN_failed h1]; rfl
      rw [this]; rfl
    have e2 : readTime b (hdrOf f (shots.length + (k + 1))) s1 p = .ok (p, s1) := by
      unfold readTime
      have e1 : (hdrOf f (shots.length + (k + 1))).time = f.time := rfl
      rw [e1, if_neg ht]
    rw [e2, Outcome.bind_ok]
    simp only
    by_cases hc : f.color ≠ 0
    · have : readColor b (hdrOf f (shots.length + (k + 1))) s1 p = .throw .runtimeError := by
        unfold readColor
        have e1 : (hdrOf f (shots.length + (k + 1))).color = f.color := rfl
        rw [e1, if_pos hc, readN_failed h1]; rfl
      rw [this]; rfl
    have e3 : readColor b (hdrOf f (shots.length + (k + 1))) s1 p = .ok (p, s1) := by
      unfold readColor
      have e1 : (hdrOf f (shots.length + (k + 1))).color = f.color := rfl
      rw [e1, if_neg hc]
    rw [e3, Outcome.bind_ok]
    simp only
    obtain ⟨p2, e4, k4⟩ := setEcho_ok kp rfl q.echo
    rw [e4, Outcome.bind_ok]
    have hpl : p2.data.length = formatSize (format f) := by rw [k4.len, hw2]
    have hfp : 0 < formatSize (format f) := by unfold format; split <;> decide
    obtain ⟨w2, e5⟩ := tryWrite_ok (w := w) (p := p2) (by omega) (by omega)
    rw [e5, Outcome.bind_ok]
    obtain ⟨j, rfl⟩ : ∃ j, k = j + 1 := ⟨k - 1, by
      rcases hmiss with h | ⟨-, h | h⟩
      · omega
      · exact absurd h ht
      · exact absurd h hc⟩
    rw [loop]
    have : nextPoint (hdrOf f (shots.length + (j + 1 + 1))) s1 (rest ++ old.drop rest.length) = .throw .runtimeError := by
      unfold nextPoint; rw [readN_failed h1]; rfl
    rw [this]; rfl
  rw [key]; rfl

/-- C79 does not hold where the file is too short by one shot (without time and colour): the program reports success, and the output
is the same as if the last shot had been there twice. -/
theorem last_shot_twice (env : Env) (today : BitVec 16 × BitVec 16) (b : Build) {f : Survey} (hk : known f.version)
    (ht : f.time = 0) (hc : f.color = 0) {shots : List Shot} {x : Shot} (hf : ∀ sh ∈ shots ++ [x], TerraScan.Fits f sh)
    (hn : shots.length + 2 < 2 ^ 31) :
    main env today b (surveyBytes f (shots.length + 2) ++ ((shots ++ [x]).map (shotBytes f)).flatten) =
      main env today b (fileBytes f (shots ++ [x, x]) []) := by
  have hl : shots.length + 2 = (shots ++ [x]).length + 1 := by simp
  have core : ∀ y, shotBytes f y = coreBytes f y := by
    intro y
    rw [shotBytes_eq]
    unfold timeBytes colorBytes
    rw [if_neg (by simp [ht]), if_neg (by simp [hc]), List.append_nil, List.append_nil]
  have e0 : fileBytes f (shots ++ [x, x]) [] =
      surveyBytes f ((shots ++ [x]).length + 1) ++ (((shots ++ [x]).map (shotBytes f)).flatten ++ (coreBytes f x ++ [])) := by
    unfold fileBytes
    have : (shots ++ [x, x]).length = (shots ++ [x]).length + 1 := by simp
    rw [this, ← core x]
    simp [List.append_assoc]
  rw [e0, hl]
  have h2 : (shots ++ [x]).length + 1 < 2 ^ 31 := by simp; omega
  generalize hsx : shots ++ [x] = xs at *
  have hlast : xs.getLast? = some x := by rw [← hsx]; simp
  obtain ⟨w, s, s', e, e', ha, ha', hw1, hw2⟩ := before_end_two env today b hk hf [] (coreBytes f x ++ []) h2
  rw [List.append_nil] at e
  rw [e, e']
  refine congrArg (fun o : Outcome Writer => o.bind fun w => .ok w.close.buf) ?_
  rw [hlast]
  simp only [Option.map_some, Option.getD_some]
  have hol : (coreBytes f x).length = pointSize (hdrOf f (xs.length + 1)) := coreBytes_length f _ x
  obtain ⟨s1, r1, h1⟩ := readN_short ha (old := coreBytes f x) (by rw [hol]; unfold pointSize; split <;> decide)
  obtain ⟨s1', r1', h1'⟩ := ha'.readN (old := coreBytes f x) rfl
  rw [loop, loop]
  have n1 : nextPoint (hdrOf f (xs.length + 1)) s (coreBytes f x) = .ok (if (hdrOf f (xs.length + 1)).version = 20020715 then
      ScanPnt.ofBytes (coreBytes f x) else ScanPnt.ofRow (coreBytes f x), coreBytes f x, s1) := by
    unfold nextPoint; rw [r1, Outcome.bind_ok]; rfl
  have n2 : nextPoint (hdrOf f (xs.length + 1)) s' (coreBytes f x) = .ok (if (hdrOf f (xs.length + 1)).version = 20020715 then
      ScanPnt.ofBytes (coreBytes f x) else ScanPnt.ofRow (coreBytes f x), coreBytes f x, s1') := by
    unfold nextPoint; rw [r1', Outcome.bind_ok]; rfl
  rw [n1, n2, Outcome.bind_ok, Outcome.bind_ok]
  clear n1 n2 r1 r1' e e'
  generalize (if (hdrOf f (xs.length + 1)).version = 20020715 then
      ScanPnt.ofBytes (coreBytes f x) else ScanPnt.ofRow (coreBytes f x)) = q
  simp only
  have t1 : ∀ s p, readTime b (hdrOf f (xs.length + 1)) s p = .ok (p, s) := by
    intro s p; unfold readTime
    have e1 : (hdrOf f (xs.length + 1)).time = f.time := rfl
    rw [e1, if_neg (by simp [ht])]
  have c1 : ∀ s p, readColor b (hdrOf f (xs.length + 1)) s p = .ok (p, s) := by
    intro s p; unfold readColor
    have e1 : (hdrOf f (xs.length + 1)).color = f.color := rfl
    rw [e1, if_neg (by simp [hc])]
  refine congrArg (fun k => (startPoint b w.hdr.toP q).bind k) ?_
  funext p
  rw [t1, t1, Outcome.bind_ok, Outcome.bind_ok]
  simp only
  rw [c1, c1, Outcome.bind_ok, Outcome.bind_ok]
  simp only
  rfl

/-- A survey in centimetres with time and colour. -/
def sampleSurvey : Survey := ⟨56, 20020715, 100, ⟨0, 0, 0⟩, 1, 1⟩
/-- A shot. -/
def sampleShot : Shot := ⟨12345, 0xFFFFFFFF, 300, 2, 3, 0, 0, 7, 90, 5000, (10, 20, 30, 0)⟩

example : known sampleSurvey.version ∧ ∀ sh ∈ [sampleShot, { sampleShot with echo := 0 }], TerraScan.Fits sampleSurvey sh := by
  decide +kernel

/-- The sample as a file, read back: number of points, format, and for each point return number, number of returns, intensity, colour, time. -/
example : ∃ r, (main plainEnv (1, 2000) ⟨.little, false⟩ (fileBytes sampleSurvey [sampleShot, { sampleShot with echo := 0 }] [1, 2])).bind
      (fun file => Reader.make plainEnv (1, 2000) (IStream.onFile file)) = .ok r ∧
    r.hdr.pointCount = 2 ∧ r.hdr.schema.fmt = .f3 ∧ r.hdr.max = ⟨0, 0, 0⟩ ∧
    observe ⟨.little, false⟩ ⟨r.readNext.1.point, r.hdr.toP⟩ =
      .ok ⟨12345, 0xFFFFFFFF, 300, 90, 2, 2, 0, 0, ⟨2⟩, 0, 0, 0, 0x3FF0000000000000, ⟨10, 30, 20⟩⟩ :=
  Outcome.exists_of_check (by decide +kernel)

/-- The short layout. -/
example : known 20010712 ∧ TerraScan.Fits { sampleSurvey with version := 20010712 } sampleShot := by decide +kernel

/-- A file that is too short. -/
example : [1#8, 2].length < coreSize sampleSurvey ∧ [sampleShot].length + 1 ≤ 2 ∧ sampleSurvey.time ≠ 0 := by decide +kernel

end Ts2las
end LibLAS
