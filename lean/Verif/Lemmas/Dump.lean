import Verif.Spec.Dump
import Verif.Lemmas.ReadCount
import Verif.Lemmas.Open
import Verif.Lemmas.FloatBits
import Verif.Props.Las2txt
namespace LibLAS.Spec.Dump
open LibLAS Point Fl

/-- A double as arithmetic produces it. -/
def Proper : Fl → Prop
  | .fin q => Fl.Rep q
  | _ => True

theorem proper_ofRat (x : ℚ) : Proper (Fl.ofRat x) := by
  cases h : Fl.ofRat x with
  | fin q => exact Fl.ofRat_rep h
  | inf n => trivial
  | nan => trivial

theorem proper_add_l (a b : Fl) (h : Proper b) : Proper (Fl.add a b) := by
  cases a <;> cases b <;> simp only [Fl.add] <;> first | exact proper_ofRat _ | trivial | (split <;> trivial)

theorem bits_proper {x : Fl} (h : Proper x) : Fl.ofBits x.toBits = x := by
  cases x with
  | fin q => exact Fl.ofBits_toBits h
  | inf n => cases n <;> decide +kernel
  | nan => decide +kernel

theorem proper_ofBits (v : BitVec 64) : Proper (Fl.ofBits v) := by
  unfold Fl.ofBits
  dsimp only
  have hm : v.toNat % 2 ^ 52 < 2 ^ 52 := Nat.mod_lt _ (by norm_num)
  have he : v.toNat / 2 ^ 52 % 2 ^ 11 < 2 ^ 11 := Nat.mod_lt _ (by norm_num)
  generalize v.toNat % 2 ^ 52 = m at *
  generalize v.toNat / 2 ^ 52 % 2 ^ 11 = e at *
  generalize v.getLsbD 63 = n
  have hs : (if n = true then (-1 : ℚ) else 1) = ((if n then -1 else 1 : ℤ) : ℚ) := by cases n <;> simp
  have ha : |(if n then -1 else 1 : ℤ)| = 1 := by cases n <;> simp
  rw [hs]
  generalize (if n then -1 else 1 : ℤ) = s at *
  have hbig : ∀ (k : ℤ) (x : ℤ), |k| < 2 ^ 53 → x ≤ 971 → |(k : ℚ) * 2 ^ x| < 2 ^ (1024 : ℤ) := by
    intro k x hk hx
    have hk' : |(k : ℚ)| < 2 ^ (53 : ℤ) := by exact_mod_cast hk
    rw [abs_mul, abs_of_pos (two_zpow_pos x)]
    calc |(k : ℚ)| * 2 ^ x < 2 ^ (53 : ℤ) * 2 ^ x := by
          apply mul_lt_mul_of_pos_right hk' (two_zpow_pos x)
      _ = 2 ^ (53 + x) := by rw [← zpow_add₀ (by norm_num)]
      _ ≤ 2 ^ (1024 : ℤ) := zpow_le_zpow_right₀ (by norm_num) (by omega)
  split
  · split <;> trivial
  · split
    · refine ⟨s * m, -1074, by push_cast; ring, ?_, le_refl _, ?_⟩
      · rw [abs_mul, ha, one_mul]
        simp; omega
      · have := hbig (s * m) (-1074) (by rw [abs_mul, ha, one_mul]; simp; omega) (by norm_num)
        push_cast at this
        exact this
    · refine ⟨s * (2 ^ 52 + m), (e : ℤ) - 1075, by push_cast; ring, ?_, by omega, ?_⟩
      · rw [abs_mul, ha, one_mul, abs_of_nonneg (by positivity)]
        omega
      · have := hbig (s * (2 ^ 52 + m)) ((e : ℤ) - 1075) (by rw [abs_mul, ha, one_mul, abs_of_nonneg (by positivity)]; omega) (by omega)
        push_cast at this
        exact this

theorem proper_scaled (v : BitVec 32) (s o : Fl) (ho : Proper o) : Proper (scaled v s o) := proper_add_l _ _ ho

theorem gives_lengths {ps : List (List Byte)} : ∀ {r : Reader}, r.KeepsLength → gives r ps → ∀ p ∈ ps, p.length = r.point.length := by
  induction ps with
  | nil => intro r _ _ p hp; simp at hp
  | cons q ps ih =>
    intro r hk h p hp
    obtain ⟨-, h2, h3⟩ := h
    have hl := Reader.readNext_length hk
    rcases List.mem_cons.1 hp with rfl | hp
    · rw [← h2, hl]
    · rw [ih (hk.forward (Reader.readNext_forward r).1) h3 p hp, hl]

theorem gives_length {ps : List (List Byte)} : ∀ {r : Reader}, gives r ps → ps.length ≤ r.size - r.current := by
  induction ps with
  | nil => intro r _; simp
  | cons p ps ih =>
    intro r h
    obtain ⟨h1, -, h3⟩ := h
    have hf := Reader.readNext_forward r
    have := ih h3
    have := hf.2 h1
    have := hf.1.size
    simp only [List.length_cons]
    omega

section
variable {env : Env} {today : BitVec 16 × BitVec 16} {input : List Byte} {r₀ : Reader} {ps : List (List Byte)}

theorem Input.wf (hi : Input env today input r₀ ps) : ∀ p ∈ ps, (⟨p, r₀.hdr.toP⟩ : Point).WF := by
  have hopen := open_file hi.long hi.opens hi.schema
  have hk : r₀.KeepsLength := by
    intro f e
    rw [hopen.xform] at e
    cases e
  intro p hp
  have hl : p.length = r₀.hdr.dataRecordLength := by
    rw [gives_lengths hk hi.points p hp]
    show r₀.point.length = _
    rw [hopen.point, hopen.recordLength]; simp
  refine ⟨hopen.std, ?_⟩
  show formatSize r₀.hdr.schema.fmt ≤ p.length
  rw [hl]; exact hi.record

theorem Input.count (hi : Input env today input r₀ ps) : ps.length ≤ r₀.size ∧ r₀.size = r₀.hdr.pointCount.toNat := by
  have hopen := open_file hi.long hi.opens hi.schema
  have := gives_length hi.points
  exact ⟨by omega, by rw [hopen.size, hopen.pointCount]⟩

end

theorem view_angle (b : Build) (f : PointFormat) (d : List Byte) : (view b f d).scanAngle = d.getD 16 0 := rfl

theorem isValid_eq {b : Build} {p : Point} (h : p.WF) : p.isValid = .ok (decide (AngleOk p.data)) := by
  have ho := observe_eq (b := b) h
  obtain ⟨-, -, -, -, ⟨v5, e5, h5⟩, ⟨v6, e6, h6⟩, ⟨v7, e7, h7⟩, ⟨v8, e8, h8⟩, -, e10, -⟩ := Point.observe_inv ho
  unfold isValid
  rw [e10, Outcome.bind_ok, e8, Outcome.bind_ok, e7, Outcome.bind_ok, e6, Outcome.bind_ok, e5, Outcome.bind_ok, view_angle]
  have m : ∀ x : Byte, (x &&& 0x07#8).toNat ≤ 7 ∧ ((x >>> 3) &&& 0x07#8).toNat ≤ 7 ∧ ((x >>> 6) &&& 0x01#8).toNat ≤ 1 ∧
      ((x >>> 7) &&& 0x01#8).toNat ≤ 1 := by decide
  have w : ∀ x : Byte, (x.setWidth 16).toNat = x.toNat := by decide
  have m := m (rdByte p.data 14)
  have h5' : v5.toNat = (rdByte p.data 14 &&& 0x07#8).toNat := by
    rw [h5]; show (((rdByte p.data 14 &&& 0x07#8)).setWidth 16).toNat = _; exact w (rdByte p.data 14 &&& 0x07#8)
  have h6' : v6.toNat = ((rdByte p.data 14 >>> 3) &&& 0x07#8).toNat := by
    rw [h6]; show ((((rdByte p.data 14 >>> 3) &&& 0x07#8)).setWidth 16).toNat = _; exact w ((rdByte p.data 14 >>> 3) &&& 0x07#8)
  have h7' : v7.toNat = ((rdByte p.data 14 >>> 6) &&& 0x01#8).toNat := by
    rw [h7]; show ((((rdByte p.data 14 >>> 6) &&& 0x01#8)).setWidth 16).toNat = _; exact w ((rdByte p.data 14 >>> 6) &&& 0x01#8)
  have h8' : v8.toNat = ((rdByte p.data 14 >>> 7) &&& 0x01#8).toNat := by
    rw [h8]; show ((((rdByte p.data 14 >>> 7) &&& 0x01#8)).setWidth 16).toNat = _; exact w ((rdByte p.data 14 >>> 7) &&& 0x01#8)
  rw [if_neg (c := v8.toNat > 1) (by omega), if_neg (c := v7.toNat > 1) (by omega), if_neg (c := v6.toNat > 7) (by omega),
    if_neg (c := v5.toNat > 7) (by omega)]
  by_cases hA : AngleOk p.data
  · rw [decide_eq_true hA, if_neg]
    · rfl
    · have := hA.1
      have := hA.2
      rw [Bool.not_eq_true, Bool.or_eq_false_iff]
      exact ⟨by rw [decide_eq_false_iff_not]; omega, by rw [decide_eq_false_iff_not]; omega⟩
  · rw [decide_eq_false hA, if_pos]
    · rfl
    · unfold AngleOk at hA
      rw [Bool.or_eq_true, decide_eq_true_eq, decide_eq_true_eq]
      omega

end LibLAS.Spec.Dump
