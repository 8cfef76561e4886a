import Verif.Lemmas.Ts2las
import Verif.Props.Txt2las
/-
C79: ts2las turns every shot of a TerraScan file into a point.
-/
namespace LibLAS
open Spec Spec.TerraScan Point

namespace Ts2las

theorem tiny : (1 : ℚ) / 2 ^ 1075 ≤ 1 / 10 ^ 40 := by
  apply one_div_le_one_div_of_le (by positivity)
  calc (10 : ℚ) ^ 40 ≤ 2 ^ 140 := by norm_num
    _ ≤ 2 ^ 1075 := pow_le_pow_right₀ (by norm_num) (by norm_num)

theorem tiny_pos : (0 : ℚ) < 1 / 2 ^ 1075 := by positivity

theorem big (x : ℚ) (h : |x| ≤ 2 ^ 100) : |x| ≤ 2 ^ 1023 :=
  le_trans h (pow_le_pow_right₀ (by norm_num) (by norm_num))

theorem rnd_zero : Fl.rnd 0 = 0 := by decide +kernel

theorem seconds (t : BitVec 32) : Seconds t (timeOf t) := by
  have ht := t.isLt
  have hc0 := Fl.rnd_err (1 / 5000)
  have hcf : Fl.ofRat (1 / 5000) = .fin (Fl.rnd (1 / 5000)) := Fl.ofRat_fin (big _ (by rw [abs_of_pos (by norm_num)]; norm_num))
  unfold Seconds timeOf
  rw [hcf]
  generalize Fl.rnd (1 / 5000) = c at hc0
  have he := tiny
  have he0 := tiny_pos
  generalize (1 : ℚ) / 2 ^ 1075 = e at hc0 he he0
  rw [abs_of_pos (by norm_num : (0 : ℚ) < 1 / 5000)] at hc0
  have hc1 : |c - 1 / 5000| ≤ 3 / 10 ^ 20 := le_trans hc0 (by
    calc (1 : ℚ) / 5000 / 2 ^ 53 + e ≤ 1 / 5000 / 2 ^ 53 + 1 / 10 ^ 40 := by linarith
      _ ≤ 3 / 10 ^ 20 := by norm_num)
  rw [abs_le] at hc1
  have c0 : 0 ≤ c := by norm_num at hc1 ⊢; linarith
  have c1 : c ≤ 1 / 4000 := by norm_num at hc1 ⊢; linarith
  show ∃ q : ℚ, Fl.ofBits (Fl.ofRat ((t.toNat : ℚ) * c)).toBits = .fin q ∧ |q - t.toNat / 5000| ≤ (t.toNat / 5000 : ℚ) / 10 ^ 15
  have hT : (t.toNat : ℚ) ≤ 2 ^ 32 := by exact_mod_cast ht.le
  have hT0 : t.toNat = 0 ∨ (1 : ℚ) ≤ t.toNat := by
    rcases Nat.eq_zero_or_pos t.toNat with h | h
    · exact Or.inl h
    · right; exact_mod_cast h
  have hTn : (0 : ℚ) ≤ t.toNat := by positivity
  have hm0 : 0 ≤ (t.toNat : ℚ) * c := mul_nonneg hTn c0
  have hm : (t.toNat : ℚ) * c ≤ t.toNat * (1 / 4000) := mul_le_mul_of_nonneg_left c1 hTn
  have hf : Fl.ofRat ((t.toNat : ℚ) * c) = .fin (Fl.rnd ((t.toNat : ℚ) * c)) := by
    apply Fl.ofRat_fin
    apply big
    rw [abs_of_nonneg hm0]
    refine le_trans hm (le_trans (?_ : _ ≤ (2 : ℚ) ^ 32) (by norm_num))
    linarith
  have hr := Fl.rnd_err ((t.toNat : ℚ) * c)
  refine ⟨Fl.rnd ((t.toNat : ℚ) * c), by rw [hf, Fl.ofBits_toBits (Fl.ofRat_rep hf)], ?_⟩
  rcases hT0 with h0 | h1
  · rw [h0]; norm_num [rnd_zero]
  · rw [abs_of_nonneg hm0] at hr
    have he' := tiny
    have he0' := tiny_pos
    generalize (1 : ℚ) / 2 ^ 1075 = e' at hr he' he0'
    generalize Fl.rnd ((t.toNat : ℚ) * c) = q at hr
    generalize (t.toNat : ℚ) = T at *
    have b1 : T * c - T * (1 / 5000) ≤ T * (3 / 10 ^ 20) := by
      rw [← mul_sub]; exact mul_le_mul_of_nonneg_left hc1.2 hTn
    have b2 : T * (-(3 / 10 ^ 20)) ≤ T * c - T * (1 / 5000) := by
      rw [← mul_sub]; exact mul_le_mul_of_nonneg_left hc1.1 hTn
    have b3 : T * c / 2 ^ 53 ≤ T * (1 / 4000) / 2 ^ 53 := div_le_div_of_nonneg_right hm (by norm_num)
    rw [abs_le] at hr ⊢
    norm_num at hr b1 b2 b3 he' ⊢
    constructor <;> linarith [hr.1, hr.2]

theorem axis_placed (f : Survey) (n : Nat) (origin : BitVec 64) :
    AxisPlaced f.units origin (scaleOf (hdrOf f n)).toBits (offsetOf (hdrOf f n) origin).toBits := by
  intro g hg hg2 hu raw
  have hu0 : f.units.toInt ≠ 0 := by
    intro h; apply hu; apply BitVec.eq_of_toInt_eq; rw [h]; decide
  have hu1 : (1 : ℚ) ≤ |(f.units.toInt : ℚ)| := by
    have : 1 ≤ |f.units.toInt| := Int.one_le_abs hu0
    exact_mod_cast this
  have hu2 : |(f.units.toInt : ℚ)| ≤ 2 ^ 31 := by
    have h1 := BitVec.le_toInt f.units
    have h2 := BitVec.toInt_lt (x := f.units)
    rw [abs_le]
    constructor
    · have : (-2 ^ 31 : ℤ) ≤ f.units.toInt := by simpa using h1
      exact_mod_cast this
    · have : f.units.toInt ≤ (2 ^ 31 : ℤ) := by omega
      exact_mod_cast this
  have hv : |(raw.toInt : ℚ)| ≤ 2 ^ 31 := by
    have h1 := BitVec.le_toInt raw
    have h2 := BitVec.toInt_lt (x := raw)
    rw [abs_le]
    constructor
    · have : (-2 ^ 31 : ℤ) ≤ raw.toInt := by simpa using h1
      exact_mod_cast this
    · have : raw.toInt ≤ (2 ^ 31 : ℤ) := by omega
      exact_mod_cast this
  have hq0 : (f.units.toInt : ℚ) ≠ 0 := by exact_mod_cast hu0
  have es0 : scaleOf (hdrOf f n) = Fl.ofRat (1 / (f.units.toInt : ℚ)) := by
    show (if (f.units.toInt : ℚ) = 0 then Fl.nan else Fl.ofRat (1 / (f.units.toInt : ℚ))) = _
    rw [if_neg hq0]
  unfold TerraScan.Placed
  generalize hU : (f.units.toInt : ℚ) = u at *
  have hinv : |1 / u| ≤ 1 := by
    rw [abs_div, abs_one, div_le_one (by linarith)]; exact hu1
  have es : scaleOf (hdrOf f n) = .fin (Fl.rnd (1 / u)) := by
    rw [es0]; exact Fl.ofRat_fin (big _ (le_trans hinv (by norm_num)))
  have hs := Fl.rnd_err (1 / u)
  have repS : Fl.Rep (Fl.rnd (1 / u)) := Fl.ofRat_rep (by rw [← es0, es])
  generalize Fl.rnd (1 / u) = s at *
  have he := tiny
  have he0 := tiny_pos
  -- the scale
  have hd : |s * u - 1| ≤ 1 / 2 ^ 52 := by
    have : s * u - 1 = (s - 1 / u) * u := by field_simp
    rw [this, abs_mul]
    have h1 : |1 / u| * |u| = 1 := by rw [← abs_mul]; rw [one_div_mul_cancel hq0, abs_one]
    calc |s - 1 / u| * |u| ≤ (|1 / u| / 2 ^ 53 + 1 / 2 ^ 1075) * |u| := mul_le_mul_of_nonneg_right hs (abs_nonneg _)
      _ = (|1 / u| * |u|) / 2 ^ 53 + 1 / 2 ^ 1075 * |u| := by ring
      _ = 1 / 2 ^ 53 + 1 / 2 ^ 1075 * |u| := by rw [h1]
      _ ≤ 1 / 2 ^ 53 + 1 / 10 ^ 40 * 2 ^ 31 := by
        have := mul_le_mul he hu2 (abs_nonneg _) (by norm_num : (0 : ℚ) ≤ 1 / 10 ^ 40)
        linarith
      _ ≤ 1 / 2 ^ 52 := by norm_num
  have hsu : |s| * |u| ≤ 2 ∧ 1 / 2 ≤ |s| * |u| := by
    rw [← abs_mul]
    have h1 := abs_le.mp hd
    have h2 : 0 < s * u := by norm_num at h1 ⊢; linarith
    rw [abs_of_pos h2]
    norm_num at h1 ⊢
    constructor <;> linarith
  have s2 : |s| ≤ 2 := by
    have := mul_le_mul_of_nonneg_left hu1 (abs_nonneg s)
    linarith
  have s1 : 1 / 2 ^ 33 ≤ |s| := by
    have h1 := mul_le_mul_of_nonneg_left hu2 (abs_nonneg s)
    have h2 : (1 : ℚ) / 2 ≤ |s| * 2 ^ 31 := le_trans hsu.2 h1
    norm_num at h2 ⊢
    linarith
  -- the offset
  have eo0 : offsetOf (hdrOf f n) origin = Fl.ofRat (-g * s) := by
    unfold offsetOf; rw [es, hg]; rfl
  have hgs : |-g * s| ≤ 2 ^ 45 := by
    rw [abs_mul, abs_neg]
    calc |g| * |s| ≤ 2 ^ 44 * 2 := mul_le_mul hg2 s2 (abs_nonneg _) (by norm_num)
      _ = 2 ^ 45 := by norm_num
  have eo : offsetOf (hdrOf f n) origin = .fin (Fl.rnd (-g * s)) := by
    rw [eo0]; exact Fl.ofRat_fin (big _ (le_trans hgs (by norm_num)))
  have ho := Fl.rnd_err (-g * s)
  have repO : Fl.Rep (Fl.rnd (-g * s)) := Fl.ofRat_rep (by rw [← eo0, eo])
  generalize Fl.rnd (-g * s) = o at *
  have hos : |o + g * s| ≤ |g| * |s| / 2 ^ 53 + 1 / 10 ^ 40 := by
    have h1 : o + g * s = o - -g * s := by ring
    rw [h1]
    refine le_trans ho ?_
    rw [abs_mul, abs_neg]
    linarith
  have hob : |o| ≤ 2 ^ 45 * |s| := by
    have h1 : |o| ≤ |o + g * s| + |g| * |s| := by
      have := abs_sub (o + g * s) (g * s)
      rw [add_sub_cancel_right] at this
      rw [← abs_mul]; exact this
    have h2 : |g| * |s| ≤ 2 ^ 44 * |s| := mul_le_mul_of_nonneg_right hg2 (abs_nonneg _)
    have h3 : |g| * |s| / 2 ^ 53 ≤ |g| * |s| / 1 := div_le_div_of_nonneg_left (by positivity) (by norm_num) (by norm_num)
    have h4 : (1 : ℚ) / 10 ^ 40 ≤ |s| := le_trans (by norm_num) s1
    have h5 := div_le_div_of_nonneg_right h2 (by norm_num : (0 : ℚ) ≤ 2 ^ 53)
    generalize |g| * |s| = G at *
    generalize |s| = S at *
    norm_num at h1 h2 h4 h5 hos ⊢
    linarith
  have small1 : (1 : ℚ) / 2 ^ 1000 ≤ |s| := le_trans (one_div_le_one_div_of_le (by norm_num) (pow_le_pow_right₀ (by norm_num) (by norm_num))) s1
  have small2 : |s| ≤ (2 : ℚ) ^ 900 := le_trans s2 (le_self_pow₀ (by norm_num) (by norm_num))
  obtain ⟨c, ec, hc, -⟩ := scaled_close raw small1 small2 hob
  refine ⟨c, ?_, ?_⟩
  · show Fl.add (Fl.mul (Fl.ofInt32 raw) (Fl.ofBits (scaleOf (hdrOf f n)).toBits)) (Fl.ofBits (offsetOf (hdrOf f n) origin).toBits) = _
    rw [es, eo, Fl.ofBits_toBits repS, Fl.ofBits_toBits repO]
    exact ec
  · generalize (raw.toInt : ℚ) = v at *
    have s0 : s ≠ 0 := by intro h; rw [h] at s1; norm_num at s1
    generalize hE : (c - (v * s + o)) / s = E at hc
    have hcE : c = E * s + (v * s + o) := by rw [← hE]; field_simp; ring
    have key : c * u - (v - g) = E * (s * u - 1) + E + (v - g) * (s * u - 1) + (o + g * s) * u := by rw [hcE]; ring
    rw [key]
    have t1 : |E * (s * u - 1)| ≤ 1 / 64 * (1 / 2 ^ 52) := by
      rw [abs_mul]; exact mul_le_mul hc hd (abs_nonneg _) (by norm_num)
    have t2 : |(v - g) * (s * u - 1)| ≤ (2 ^ 31 + 2 ^ 44) * (1 / 2 ^ 52) := by
      rw [abs_mul]
      refine mul_le_mul (le_trans (abs_sub _ _) (by linarith)) hd (abs_nonneg _) (by norm_num)
    have t3 : |(o + g * s) * u| ≤ 2 ^ 44 * 2 / 2 ^ 53 + 1 / 10 ^ 40 * 2 ^ 31 := by
      rw [abs_mul]
      calc |o + g * s| * |u| ≤ (|g| * |s| / 2 ^ 53 + 1 / 10 ^ 40) * |u| := mul_le_mul_of_nonneg_right hos (abs_nonneg _)
        _ = |g| * (|s| * |u|) / 2 ^ 53 + 1 / 10 ^ 40 * |u| := by ring
        _ ≤ 2 ^ 44 * 2 / 2 ^ 53 + 1 / 10 ^ 40 * 2 ^ 31 := by
          have a1 : |g| * (|s| * |u|) ≤ 2 ^ 44 * 2 := mul_le_mul hg2 hsu.1 (by positivity) (by norm_num)
          have a2 : (1 : ℚ) / 10 ^ 40 * |u| ≤ 1 / 10 ^ 40 * 2 ^ 31 := mul_le_mul_of_nonneg_left hu2 (by norm_num)
          have a3 := div_le_div_of_nonneg_right a1 (by norm_num : (0 : ℚ) ≤ 2 ^ 53)
          linarith
    refine le_trans (abs_add_le _ _) ?_
    have a1 := abs_add_le (E * (s * u - 1) + E) ((v - g) * (s * u - 1))
    have a2 := abs_add_le (E * (s * u - 1)) E
    norm_num at t1 t2 t3 hc a1 a2 ⊢
    linarith

theorem format_mem (f : Survey) : format f ∈ [PointFormat.f0, .f1, .f2, .f3] := by
  unfold format; split <;> simp

theorem format_eq (f : Survey) (n : Nat) : formatFor (hdrOf f n) = format f := by
  unfold formatFor format
  have e1 : (hdrOf f n).time = f.time := rfl
  have e2 : (hdrOf f n).color = f.color := rfl
  rw [e1, e2]
  by_cases h : f.time ≠ 0 <;> by_cases h' : f.color ≠ 0
  · rw [if_pos h, if_pos h', decide_eq_true h, decide_eq_true h']
  · rw [if_pos h, if_neg h', decide_eq_true h, decide_eq_false h']
  · rw [if_neg h, if_pos h', decide_eq_false h, decide_eq_true h']
  · rw [if_neg h, if_neg h', decide_eq_false h, decide_eq_false h']

theorem shown_attrs (f : Survey) (sh : Shot) : Shown f sh (attrsOf f sh) := by
  refine ⟨rfl, rfl, rfl, rfl, rfl, rfl, ?_, ?_, rfl, rfl, rfl, rfl, rfl⟩
  · show if f.time ≠ 0 then Seconds sh.time (if f.time ≠ 0 then timeOf sh.time else 0) else (if f.time ≠ 0 then timeOf sh.time else 0) = 0
    by_cases h : f.time ≠ 0
    · simp only [if_pos h]; exact seconds _
    · simp only [if_neg h]
  · unfold attrsOf
    by_cases h : f.color ≠ 0
    · simp only [if_pos h]
      have : ∀ v : BitVec 8, (v.setWidth 16).toNat = v.toNat := by
        intro v; rw [BitVec.toNat_setWidth]; have := v.isLt; omega
      exact ⟨this _, this _, this _⟩
    · simp only [if_neg h]

/-- The header of the new file and the writer made from it. -/
structure Ready (env : Env) (f : Survey) (n : Nat) (h : Header) (w : Writer) : Prop where
  fmt : h.schema.fmt = format f
  recLen : h.dataRecordLength = formatSize (format f)
  version : h.verMajor = 1 ∧ h.verMinor = 2
  scale : h.scale = ⟨(scaleOf (hdrOf f n)).toBits, (scaleOf (hdrOf f n)).toBits, (scaleOf (hdrOf f n)).toBits⟩
  offset : h.offset = ⟨(offsetOf (hdrOf f n) f.origin.x).toBits, (offsetOf (hdrOf f n) f.origin.y).toBits, (offsetOf (hdrOf f n) f.origin.z).toBits⟩
  bounds : h.min = ⟨0, 0, 0⟩ ∧ h.max = ⟨0, 0, 0⟩
  returns : h.byReturn.take 5 = [0, 0, 0, 0, 0]
  storable : StorableHeader h
  made : Writer.make env (OStream.onFile []) h = .ok w
  small : h.headerSize.toNat + recordBytes w.hdr.vlrs + 4 < 2 ^ 31
  noSchema : NoSchema env w.hdr.vlrs
  pos : 0 < h.dataRecordLength
  toP : w.hdr.toP = h.toP

theorem ready (env : Env) (today : BitVec 16 × BitVec 16) (f : Survey) (n : Nat) :
    ∃ w, Ready env f n (createHeader today (hdrOf f n)) w := by
  have std := Txt2las.std_schema (format f) (format_mem f)
  have hh : ∃ sch, createHeader today (hdrOf f n) = { Header.new today.1 today.2 with
        verMinor := 2, schema := sch, pointCount := BitVec.ofNat 32 n,
        scale := ⟨(scaleOf (hdrOf f n)).toBits, (scaleOf (hdrOf f n)).toBits, (scaleOf (hdrOf f n)).toBits⟩,
        offset := ⟨(offsetOf (hdrOf f n) f.origin.x).toBits, (offsetOf (hdrOf f n) f.origin.y).toBits,
          (offsetOf (hdrOf f n) f.origin.z).toBits⟩ } ∧
      sch.fmt = format f ∧ sch.dataRecordLength = formatSize (format f) ∧ sch.isCustom = false := by
    refine ⟨((Header.new 0 0).schema.setDataFormatId (format f)).1, ?_, std⟩
    unfold createHeader
    simp only [Txt2las.version_2, Txt2las.format_1, format_eq]
    rfl
  obtain ⟨sch, eh, m1, m2, m3⟩ := hh
  generalize createHeader today (hdrOf f n) = h at eh
  have hfm : h.schema.fmt = format f := by rw [eh]; exact m1
  have hrl : h.dataRecordLength = formatSize (format f) := by rw [eh]; exact m2
  have hst : StorableHeader h := by
    have k1 : (padTo 32 (lit "libLAS")).length = 32 := by decide +kernel
    have k2 : (padTo 32 (lit "libLAS 1.8.2")).length = 32 := by decide +kernel
    rw [eh]
    exact ⟨rfl, rfl, k1, k2, rfl, by show (2 : BitVec 8).toNat ≤ 3; decide, by show 227 ≤ (227 : BitVec 16).toNat; decide, by show sch.fmt ∈ _; rw [m1]; exact format_mem f,
      by intro v hv; cases hv⟩
  have hrec : outputRecords env h = [] := by
    rw [eh]
    simp [outputRecords, callersRecords, referenceRecords, schemaRecords, m3, Header.new]
  have hsize : h.headerSize = 227 := by rw [eh]; rfl
  have hoff : h.dataOffset = 227 := by rw [eh]; rfl
  have hpad : h.padding = 0 := by rw [eh]; rfl
  have hw : Writable env h := ⟨hst, by rw [eh]; rfl, by rw [eh]; show 5 ≤ (List.replicate 7 (0 : BitVec 32)).length; decide, by rw [eh]; simp [m3]⟩
  obtain ⟨w, ew, ev⟩ := (new_writer_exactly env hw (by rw [hrec, hsize]; decide) (by rw [hoff]; decide)
    (by rw [hpad]; intro _; decide)).1 (by rw [hrec, fillerBytes, hsize, hoff, hpad]; decide)
  rw [hrec] at ev
  have hsmall : h.headerSize.toNat + recordBytes w.hdr.vlrs + 4 < 2 ^ 31 := by rw [ev, hsize]; decide
  have hns : NoSchema env w.hdr.vlrs := by rw [ev]; exact noSchema_none rfl
  have hlp : 0 < h.dataRecordLength := by rw [hrl]; unfold format; split <;> decide
  obtain ⟨pad, hnf⟩ := new_file (StorableHeader.good hst) hst.size ew hsmall
  have htp : w.hdr.toP = h.toP := by rw [hnf.hdr]; rfl
  exact ⟨w, hfm, hrl, by rw [eh]; exact ⟨rfl, rfl⟩, by rw [eh], by rw [eh], by rw [eh]; exact ⟨rfl, rfl⟩, by rw [eh]; rfl, hst, ew, hsmall, hns, hlp, htp⟩

theorem format_std (f : Survey) : (format f).std = true := by unfold format; split <;> rfl

theorem Ready.time {env : Env} {f : Survey} {n : Nat} {h : Header} {w : Writer} (k : Ready env f n h w) (ht : f.time ≠ 0) :
    hasTime h.toP.fmt = true := by
  show hasTime h.schema.fmt = true
  rw [k.fmt]; unfold format; rw [decide_eq_true ht]; split <;> simp_all [hasTime]

theorem Ready.color {env : Env} {f : Survey} {n : Nat} {h : Header} {w : Writer} (k : Ready env f n h w) (ht : f.color ≠ 0) :
    hasColor h.toP.fmt = true := by
  show hasColor h.schema.fmt = true
  rw [k.fmt]; unfold format; rw [decide_eq_true ht]; split <;> simp_all [hasColor]

theorem rounds_eq (f : Survey) {n : Nat} (hn : n < 2 ^ 31) : rounds (hdrOf f n) = n := by
  show ((BitVec.ofNat 32 n).signExtend 64).toNat = _
  rw [BitVec.signExtend_eq_setWidth_of_msb_false]
  · simp; omega
  · rw [BitVec.msb_eq_decide]; simp; omega

/-- C79: of a TerraScan file of a known version, ts2las makes a file with one point for each shot, in order, with coordinates,
class, intensity, time and colour of the shot. The header has the format that the flags of the survey ask for, the number
of the shots, and scale and offset that place the points. -/
theorem scan_to_points (env : Env) (today today' : BitVec 16 × BitVec 16) (b : Build) {f : Survey} (hk : known f.version)
    {shots : List Shot} (hf : ∀ sh ∈ shots, TerraScan.Fits f sh) (hn : shots.length < 2 ^ 31) (rest : List Byte) :
    ∃ file r ds as, main env today b (fileBytes f shots rest) = .ok file ∧ Reader.make env today' (IStream.onFile file) = .ok r ∧
      delivers r ds ∧ List.Forall₂ (fun d a => observe b ⟨d, r.hdr.toP⟩ = .ok a) ds as ∧ List.Forall₂ (Shown f) shots as ∧
      TerraScan.Tells f shots.length r.hdr := by
  obtain ⟨s, e1, hs⟩ := readHeader_ok hk shots.length ((shots.map (shotBytes f)).flatten ++ rest)
  obtain ⟨w, hr⟩ := ready env today f shots.length
  generalize hH : createHeader today (hdrOf f shots.length) = h at hr
  have hfm := hr.fmt
  have hrl := hr.recLen
  have hst := hr.storable
  have ew := hr.made
  have hsmall := hr.small
  have hns := hr.noSchema
  have hlp := hr.pos
  have htp := hr.toP
  obtain ⟨ds, s3, old3, hds, -, -, hloop⟩ := loop_ok (b := b) (f := f) (n := shots.length) (ph := h.toP) (by show h.schema.fmt.std = true; rw [hfm, format_std])
    (by show h.dataRecordLength = formatSize h.schema.fmt; rw [hrl, hfm])
    hr.time hr.color
    rest shots hf s (List.replicate (pointSize (hdrOf f shots.length)) 0#8) hs (List.length_replicate ..)
  have hlen : ds.length = shots.length := hds.length_eq.symm
  have hdl : ∀ d ∈ ds, d.length = h.dataRecordLength := by
    intro d hd
    obtain ⟨sh, -, h1, -⟩ := Txt2las.forall₂_mem' hds hd
    exact h1
  obtain ⟨w', r, f1, f2, f3, f4⟩ := written_is_read env today' hst ew hsmall hns hlp ds (fun d hd => (hdl d hd).ge) (by omega)
  have hrt := header_round_trip_partial env today' hst ew hsmall hns hlp ds (fun d hd => (hdl d hd).ge) (by omega) f1 f2
  obtain ⟨-, t0, t1, -, -, -, -, -, -, t5, -, t6, t7, t8, t9, t10, t11, t12, -⟩ := hrt
  have hcut : ds.map (fun p => p.take h.dataRecordLength) = ds := by
    conv_rhs => rw [← List.map_id ds]
    apply List.map_congr_left
    intro d hd
    rw [List.take_of_length_le (hdl d hd).le]; rfl
  rw [hcut] at f4
  refine ⟨w'.close.buf, r, ds, shots.map (attrsOf f), ?_, f2, f4, ?_, ?_, ?_⟩
  · unfold main fileBytes
    rw [List.append_assoc, e1, Outcome.bind_ok]
    simp only
    rw [if_neg (by decide), hH, ew, Outcome.bind_ok]
    have hl0 := hloop w w' htp f1 0
    rw [Nat.add_zero] at hl0
    rw [rounds_eq f hn, hl0]
    rfl
  · rw [List.forall₂_map_right_iff]
    refine (List.Forall₂.flip hds).imp ?_
    rintro d sh ⟨hl, ha, -⟩
    have std : h.schema.fmt.std = true := by rw [hfm, format_std]
    have hl' : formatSize h.schema.fmt ≤ d.length := by
      rw [hl]; show _ ≤ h.dataRecordLength; rw [hrl, hfm]
    have w1 : (⟨d, h.toP⟩ : Point).WF := ⟨std, hl'⟩
    have w2 : (⟨d, r.hdr.toP⟩ : Point).WF := ⟨by show r.hdr.schema.fmt.std = true; rw [t5]; exact std,
      by show formatSize r.hdr.schema.fmt ≤ _; rw [t5]; exact hl'⟩
    rw [observe_eq w1] at ha
    rw [observe_eq w2, ← ha]
    show Outcome.ok (view b r.hdr.schema.fmt d) = .ok (view b h.schema.fmt d)
    rw [t5]
  · rw [List.forall₂_map_right_iff]
    exact List.forall₂_same.mpr fun sh _ => shown_attrs f sh
  · refine ⟨⟨by rw [t0, hr.version.1], by rw [t1, hr.version.2]⟩, by rw [t5, hfm], by rw [t6, hrl], by rw [t7, hlen], ?_, ?_, ?_, ⟨?_, ?_⟩, ?_⟩
    · rw [t9, t10, hr.scale, hr.offset]; exact axis_placed f shots.length _
    · rw [t9, t10, hr.scale, hr.offset]; exact axis_placed f shots.length _
    · rw [t9, t10, hr.scale, hr.offset]; exact axis_placed f shots.length _
    · rw [t11, hr.bounds.1]
    · rw [t12, hr.bounds.2]
    · rw [t8, hr.returns]

end Ts2las
end LibLAS
