import Verif.Model.Classification
import Verif.Spec.Point
/-
C09 (classification byte packing) and C10 (colour construction).
-/
namespace LibLAS

/-- What a user sees of a classification: four attributes. -/
structure ClassView where
  cls : Nat
  synthetic : Bool
  keyPoint : Bool
  withheld : Bool
  deriving DecidableEq, Repr

/-- The four attributes read through the public getters. -/
def Classification.view (c : Classification) : ClassView :=
  ⟨c.getClass.toNat, c.isSynthetic, c.isKeyPoint, c.isWithheld⟩

/-- The mutating calls of the public interface. -/
inductive ClassOp where
  | setClass (i : BitVec 32)
  | setSynthetic (f : Bool)
  | setKeyPoint (f : Bool)
  | setWithheld (f : Bool)

/-- Run one call on the model. -/
def Classification.run (c : Classification) : ClassOp → Classification × Outcome Unit
  | .setClass i => c.setClass i
  | .setSynthetic f => (c.setSynthetic f, .ok ())
  | .setKeyPoint f => (c.setKeyPoint f, .ok ())
  | .setWithheld f => (c.setWithheld f, .ok ())

/-- The English property as a record update: each call changes its own attribute only; a class above 31 throws. -/
def ClassView.spec (v : ClassView) : ClassOp → ClassView × Outcome Unit
  | .setClass i => if i.toNat ≤ 31 then ({ v with cls := i.toNat }, .ok ()) else (v, .throw .outOfRange)
  | .setSynthetic f => ({ v with synthetic := f }, .ok ())
  | .setKeyPoint f => ({ v with keyPoint := f }, .ok ())
  | .setWithheld f => ({ v with withheld := f }, .ok ())

private theorem setClass_tab : ∀ (b i : BitVec 8), i.toNat ≤ 31 →
    (⟨(b &&& ~~~0x1F#8) ||| (0x1F#8 &&& i <<< 0)⟩ : Classification).view =
      { (⟨b⟩ : Classification).view with cls := i.toNat } := by
  have h : ∀ b : Fin 256, ∀ i : Fin 32,
      (⟨(BitVec.ofFin b &&& ~~~0x1F#8) ||| (0x1F#8 &&& (BitVec.ofNat 8 i.val) <<< 0)⟩ : Classification).view =
      { (⟨BitVec.ofFin b⟩ : Classification).view with cls := i.val } := by decide +kernel
  intro b i hi
  have := h b.toFin ⟨i.toNat, by omega⟩
  simpa using this

private theorem setBit_tab (f : Bool) : ∀ (b : BitVec 8),
    ((⟨b⟩ : Classification).setSynthetic f).view = { (⟨b⟩ : Classification).view with synthetic := f } ∧
    ((⟨b⟩ : Classification).setKeyPoint f).view = { (⟨b⟩ : Classification).view with keyPoint := f } ∧
    ((⟨b⟩ : Classification).setWithheld f).view = { (⟨b⟩ : Classification).view with withheld := f } := by
  have h : ∀ b : Fin 256, ∀ f : Bool,
    ((⟨BitVec.ofFin b⟩ : Classification).setSynthetic f).view =
      { (⟨BitVec.ofFin b⟩ : Classification).view with synthetic := f } ∧
    ((⟨BitVec.ofFin b⟩ : Classification).setKeyPoint f).view =
      { (⟨BitVec.ofFin b⟩ : Classification).view with keyPoint := f } ∧
    ((⟨BitVec.ofFin b⟩ : Classification).setWithheld f).view =
      { (⟨BitVec.ofFin b⟩ : Classification).view with withheld := f } := by decide +kernel
  intro b
  simpa using h b.toFin f

/-- C09: every call behaves as the record update (value read back, others unchanged, error above 31). -/
theorem classification_run_spec (c : Classification) (op : ClassOp) :
    ((c.run op).1.view, (c.run op).2) = c.view.spec op := by
  cases op with
  | setClass i =>
    simp only [Classification.run, ClassView.spec, Classification.setClass, Classification.badIndex,
      Classification.classTableSize]
    by_cases h : i.toNat ≤ 31
    · have h1 : ¬ (i.toNat > 32 - 1) := by omega
      have h2 : i.toNat ≤ 255 := by omega
      have h3 : (i.setWidth 8).toNat = i.toNat := by
        simp only [BitVec.toNat_setWidth]; omega
      simp only [h1, h2, h, decide_false, decide_true, Bool.not_true, Bool.or_self, Bool.false_eq_true, if_false,
        if_true]
      rw [setClass_tab _ _ (by omega), h3]
    · have h1 : i.toNat > 32 - 1 := by omega
      simp [h1, h]
  | setSynthetic f => simp [Classification.run, ClassView.spec, (setBit_tab f c.flags).1]
  | setKeyPoint f => simp [Classification.run, ClassView.spec, (setBit_tab f c.flags).2.1]
  | setWithheld f => simp [Classification.run, ClassView.spec, (setBit_tab f c.flags).2.2]

example : (((⟨0xE3#8⟩ : Classification).run (.setClass 9)).1.view) = ⟨9, true, true, true⟩ := by decide

/-- C09 over any history of calls: the attributes follow the record semantics from any starting byte. -/
theorem classification_history (c : Classification) (ops : List ClassOp) :
    (ops.foldl (fun c op => (c.run op).1) c).view = ops.foldl (fun v op => (v.spec op).1) c.view := by
  induction ops generalizing c with
  | nil => rfl
  | cons op ops ih =>
    simp only [List.foldl_cons, ih]
    have := classification_run_spec c op
    rw [← this]

example : (([ClassOp.setClass 40, .setWithheld true, .setClass 2].foldl (fun (c : Classification) op => (c.run op).1) ⟨0⟩).view)
    = ⟨2, false, false, true⟩ := by decide

/-- C09: the four attributes determine the byte, so the byte written to a file and read back gives the same
attributes and equal bytes are exactly equal views. -/
theorem classification_view_injective (a b : Classification) : a.view = b.view ↔ a = b := by
  have h : ∀ x y : BitVec 8, (⟨x⟩ : Classification).view = (⟨y⟩ : Classification).view → x = y := by
    intro x y hv
    simp only [Classification.view, Classification.getClass, Classification.isSynthetic,
      Classification.isKeyPoint, Classification.isWithheld, ClassView.mk.injEq] at hv
    obtain ⟨h1, h2, h3, h4⟩ := hv
    have h1' := BitVec.eq_of_toNat_eq h1
    apply BitVec.eq_of_getLsbD_eq
    intro i hi
    by_cases h5 : i < 5
    · have := congrArg (fun v => v.getLsbD i) h1'
      have hm : (BitVec.ofNat 8 (Classification.classTableSize - 1)).getLsbD i = true := by
        have : ∀ i : Fin 5, (BitVec.ofNat 8 (Classification.classTableSize - 1)).getLsbD i = true := by decide
        exact this ⟨i, h5⟩
      simpa [hm] using this
    · have : i = 5 ∨ i = 6 ∨ i = 7 := by omega
      rcases this with rfl | rfl | rfl <;> assumption
  constructor
  · intro hv
    have := h a.flags b.flags hv
    cases a; cases b; simp_all
  · rintro rfl; rfl

example : (⟨0x22#8⟩ : Classification).view ≠ (⟨0x02#8⟩ : Classification).view := by decide

/-- C09: the class name lookup is total: no classification byte throws or indexes outside the table, and the name is that of
the class. -/
theorem class_name_total (c : Classification) : c.getClassName = .ok (Spec.className (c.flags.toNat % 32)) := by
  have h : ∀ b : Fin 256, (⟨BitVec.ofFin b⟩ : Classification).getClassName = .ok (Spec.className (b.1 % 32)) := by decide +kernel
  exact h c.flags.toFin

/-- C10: building a colour from three 32-bit numbers stores exactly those three numbers in those channels when all
fit in 16 bits, and throws otherwise. -/
theorem color_make_exact (r g b : BitVec 32) :
    (r.toNat < 65536 ∧ g.toNat < 65536 ∧ b.toNat < 65536 ∧
      ∃ c, Color.make r g b = .ok c ∧ c.getRed.toNat = r.toNat ∧ c.getGreen.toNat = g.toNat ∧
        c.getBlue.toNat = b.toNat) ∨
    ((65536 ≤ r.toNat ∨ 65536 ≤ g.toNat ∨ 65536 ≤ b.toNat) ∧ Color.make r g b = .throw .invalidArgument) := by
  unfold Color.make
  by_cases h : r.toNat > 65535 || g.toNat > 65535 || b.toNat > 65535
  · right
    refine ⟨?_, by rw [if_pos h]⟩
    simp only [Bool.or_eq_true, decide_eq_true_eq] at h
    omega
  · left
    rw [if_neg h]
    simp only [Bool.or_eq_true, decide_eq_true_eq, not_or] at h
    refine ⟨by omega, by omega, by omega, _, rfl, ?_, ?_, ?_⟩ <;>
      simp [Color.getRed, Color.getGreen, Color.getBlue] <;> omega

example : Color.make 1 2 65535 = .ok ⟨1, 2, 65535⟩ ∧ Color.make 1 65536 3 = .throw .invalidArgument := by decide

/-- C10: the channel setters are independent. -/
theorem color_channels_independent (c : Color) (v : BitVec 16) :
    ((c.setRed v).getRed = v ∧ (c.setRed v).getGreen = c.getGreen ∧ (c.setRed v).getBlue = c.getBlue) ∧
    ((c.setGreen v).getGreen = v ∧ (c.setGreen v).getRed = c.getRed ∧ (c.setGreen v).getBlue = c.getBlue) ∧
    ((c.setBlue v).getBlue = v ∧ (c.setBlue v).getRed = c.getRed ∧ (c.setBlue v).getGreen = c.getGreen) := by
  simp [Color.setRed, Color.setGreen, Color.setBlue, Color.getRed, Color.getGreen, Color.getBlue]

end LibLAS
