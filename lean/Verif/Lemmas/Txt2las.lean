import Verif.Spec.Txt2las
import Verif.Lemmas.Float
import Verif.Props.Point
import Verif.Props.Las2txt
import Mathlib.Tactic.IntervalCases
/-
Lemmas for C77: how txt2las reads a line.
-/
namespace LibLAS
open Spec Spec.Text Point

namespace Txt2las

theorem sep_between (c : Char) : isSep c = between c := rfl

theorem sep_stop {c : Char} (h : stop c = false) : isSep c = false := by
  simp only [stop, isSep] at *
  simp at h ⊢
  tauto

theorem dropWhile_skip {p : Char → Bool} {a : List Char} (h : ∀ c ∈ a, p c = true) (b : List Char) :
    (a ++ b).dropWhile p = b.dropWhile p := by
  induction a with
  | nil => rfl
  | cons c a ih =>
    rw [List.cons_append, List.dropWhile_cons_of_pos (h c (by simp))]
    exact ih fun d hd => h d (List.mem_cons_of_mem _ hd)

/-- One column: skip the gap, the field is at the front; behind it the other columns. -/
theorem columns_step {f : List Char} {fs : List (List Char)} {l : List Char} (h : Columns (f :: fs) l) :
    ∃ rest, l.dropWhile isSep = f ++ rest ∧ f ++ rest ≠ [] ∧ Ends rest ∧
      Columns fs ((f ++ rest).dropWhile fun c => !isSep c) := by
  cases h with
  | @cons gap field rest fields hg hne hf he hs hc =>
    refine ⟨rest, ?_, by simp [hne], he, ?_⟩
    · rw [List.append_assoc, dropWhile_skip (p := isSep) hg]
      cases f with
      | nil => exact absurd rfl hne
      | cons c f => exact List.dropWhile_cons_of_neg (by rw [sep_stop (hf c (by simp))]; simp)
    · rw [dropWhile_skip (a := f) (fun c hc => by rw [sep_stop (hf c hc)]; rfl)]
      by_cases hfs : fs = []
      · subst hfs; exact .nil _
      · obtain ⟨c, u, rfl, hcb⟩ := hs hfs
        rw [List.dropWhile_cons_of_neg (by rw [sep_between, hcb]; simp)]
        exact hc

theorem columns_take {fs : List (List Char)} {l : List Char} (h : Columns fs l) : ∀ n, Columns (fs.take n) l := by
  induction h with
  | nil rest => intro n; simp; exact .nil _
  | cons hg hne hf he hs hc ih =>
    intro n
    cases n with
    | zero => exact .nil _
    | succ n =>
      refine .cons hg hne hf he ?_ (ih n)
      intro h
      exact hs (by rintro rfl; simp at h)

/-- What a line has set so far. -/
structure Cells where
  x : Fl
  y : Fl
  z : Fl
  t : Fl
  a : Attrs
  color : Color

def cells (b : Build) (v : Vars) : Cells := ⟨v.x, v.y, v.z, v.t, view b v.point.hdr.fmt v.point.data, v.color⟩

/-- The place of a letter. -/
def slot (c : Char) (k : Cells) : Fl ⊕ ℤ :=
  match c with
  | 'x' => .inl k.x
  | 'y' => .inl k.y
  | 'z' => .inl k.z
  | 't' => .inl k.t
  | 'i' => .inr k.a.intensity.toNat
  | 'a' => .inr k.a.scanAngle.toInt
  | 'n' => .inr k.a.numberOfReturns
  | 'r' => .inr k.a.returnNumber
  | 'c' => .inr k.a.classification.flags.toNat
  | 'u' => .inr k.a.userData.toNat
  | 'p' => .inr k.a.sourceId.toNat
  | 'e' => .inr k.a.edge
  | 'd' => .inr k.a.scanDirection
  | 'R' => .inr k.color.c0.toNat
  | 'G' => .inr k.color.c1.toNat
  | 'B' => .inr k.color.c2.toNat
  | _ => .inr 0

/-- The value at the place is the number in the text. -/
def Shown (t : List Char) : Fl ⊕ ℤ → Prop
  | .inl f => ∀ p w, Decimal p w t → f = Fl.ofRat w
  | .inr i => ShowsInt i t

/-- A letter's place holds what the text says; a skipped column says nothing. -/
def Holds (c : Char) (t : List Char) (k : Cells) : Prop := c = 's' ∨ Shown t (slot c k)

/-- The state after a letter. -/
structure After (b : Build) (c : Char) (t : List Char) (v v' : Vars) : Prop where
  wf : v'.point.WF
  hdr : v'.point.hdr = v.point.hdr
  len : v'.point.data.length = v.point.data.length
  holds : Holds c t (cells b v')
  frame : ∀ c', c' ≠ c → slot c' (cells b v') = slot c' (cells b v)

theorem put_ok {b : Build} {v : Vars} (hw : v.point.WF) (s : CApi.PointSet) (op : SetOp) (hs : s.run b v.point = exec b v.point op)
    (hop : supported v.point.hdr.fmt op = true) :
    ∃ p, put b v s = .ok (some { v with point := p }) ∧ p.WF ∧ p.hdr = v.point.hdr ∧ p.data.length = v.point.data.length ∧
      view b p.hdr.fmt p.data = apply (view b v.point.hdr.fmt v.point.data) op := by
  obtain ⟨p, a, h1, h2, h3, h4, h5, h6, -⟩ := set_then_get b v.point op hw hop
  refine ⟨p, ?_, h4, h5, h6, ?_⟩
  · unfold put call
    rw [hs, h1]; rfl
  · rw [observe_eq hw] at h2; cases h2
    rw [observe_eq h4] at h3; injection h3

theorem nat_mod {n m w : Nat} (h : n < m) (hw : m ≤ 2 ^ w) : (BitVec.ofInt w (n : ℤ)).toNat = n := by
  rw [BitVec.toNat_ofInt]; norm_cast
  rw [Nat.mod_eq_of_lt (by omega)]; simp

theorem ofInt_toNat {w : Nat} (v : BitVec w) : BitVec.ofInt w (v.toNat : ℤ) = v := by
  apply BitVec.eq_of_toNat_eq
  rw [nat_mod v.isLt le_rfl]

theorem flag_nat {n : Nat} (h : n < 2) : (if (n : ℤ) ≠ 0 then (1 : BitVec 16) else 0).toNat % 2 = n := by
  interval_cases n <;> rfl

/-- A column whose text fits is read, and sets its own place only. -/
theorem store_ok {sc : Scan} (hsc : Scans sc) {b : Build} {scale offset : Vec3 Fl} {c : Char} {t rest : List Char}
    (hf : Fits scale offset c t) (hr : Ends rest) {v : Vars} (hw : v.point.WF) :
    known c = true ∧ ∃ v', store sc b c (t ++ rest) v = .ok (some v') ∧ After b c t v v' := by
  obtain ⟨a, ⟨hp1, hp2, hp3, hp4⟩, hs⟩ := hf
  have i8 : ∀ v : BitVec 8, -2 ^ 31 ≤ (v.toNat : ℤ) ∧ (v.toNat : ℤ) < 2 ^ 31 := fun v => by have := v.isLt; omega
  have i16 : ∀ v : BitVec 16, -2 ^ 31 ≤ (v.toNat : ℤ) ∧ (v.toNat : ℤ) < 2 ^ 31 := fun v => by have := v.isLt; omega
  have hint : ∀ {n : ℤ} {g : ℤ → Outcome (Option Vars)}, ShowsInt n t → -2 ^ 31 ≤ n ∧ n < 2 ^ 31 →
      withInt sc (t ++ rest) g = g n := by
    intro n g h1 h2
    unfold withInt
    rw [hsc.d h1 h2.1 h2.2 hr]; rfl
  have hflt : ∀ {n : ℤ} {g : ℤ → Outcome (Option Vars)}, ShowsInt n t → |n| ≤ 2 ^ 24 →
      withFloat sc (t ++ rest) g = g n := by
    intro n g h1 h2
    rw [abs_le] at h2
    unfold withFloat
    rw [hsc.f h1 (by rw [abs_le]; exact h2) hr]
    dsimp only
    rw [Fl.toInt32_int (by omega) (by omega)]
    show g _ = g n
    rw [BitVec.toInt_ofInt, Int.bmod_eq_of_le (by omega) (by omega)]
  have hop : ∀ op : SetOp, (∀ v, op ≠ .time v) → (∀ v, op ≠ .color v) → supported v.point.hdr.fmt op = true := by
    intro op h1 h2; cases op <;> simp_all [supported]
  unfold Says at hs
  split at hs
  -- x y z
  · obtain ⟨p, w, hd, -⟩ := hs
    refine ⟨rfl, { v with x := Fl.ofRat w }, by simp only [store, hsc.lf hd hr]; rfl, hw, rfl, rfl, .inr ?_, ?_⟩
    · intro p' w' hd'
      have h1 := hsc.lf hd hr; rw [hsc.lf hd' hr] at h1; injection h1 with h1; exact h1.symm
    · intro c' hc; unfold slot; split <;> first | rfl | exact absurd rfl hc
  · obtain ⟨p, w, hd, -⟩ := hs
    refine ⟨rfl, { v with y := Fl.ofRat w }, by simp only [store, hsc.lf hd hr]; rfl, hw, rfl, rfl, .inr ?_, ?_⟩
    · intro p' w' hd'
      have h1 := hsc.lf hd hr; rw [hsc.lf hd' hr] at h1; injection h1 with h1; exact h1.symm
    · intro c' hc; unfold slot; split <;> first | rfl | exact absurd rfl hc
  · obtain ⟨p, w, hd, -⟩ := hs
    refine ⟨rfl, { v with z := Fl.ofRat w }, by simp only [store, hsc.lf hd hr]; rfl, hw, rfl, rfl, .inr ?_, ?_⟩
    · intro p' w' hd'
      have h1 := hsc.lf hd hr; rw [hsc.lf hd' hr] at h1; injection h1 with h1; exact h1.symm
    · intro c' hc; unfold slot; split <;> first | rfl | exact absurd rfl hc
  -- s
  · exact ⟨rfl, v, rfl, hw, rfl, rfl, .inl rfl, fun _ _ => rfl⟩
  -- t
  · obtain ⟨p, w, hd, -⟩ := hs
    refine ⟨rfl, { v with t := Fl.ofRat w }, by simp only [store, hsc.lf hd hr]; rfl, hw, rfl, rfl, .inr ?_, ?_⟩
    · intro p' w' hd'
      have h1 := hsc.lf hd hr; rw [hsc.lf hd' hr] at h1; injection h1 with h1; exact h1.symm
    · intro c' hc; unfold slot; split <;> first | rfl | exact absurd rfl hc
  -- i
  · have hv := a.intensity.isLt
    obtain ⟨q, h1, h2, h3, h4, h5⟩ := put_ok (b := b) hw (.intensity (BitVec.ofInt 16 a.intensity.toNat)) (.intensity (BitVec.ofInt 16 a.intensity.toNat)) rfl (hop _ (by simp) (by simp))
    refine ⟨rfl, _, by simp only [store]; rw [hflt hs (by rw [abs_le]; omega)]; exact h1, h2, h3, h4, .inr ?_, ?_⟩
    · show ShowsInt ((view b q.hdr.fmt q.data).intensity.toNat) t
      rw [h5, ofInt_toNat]; exact hs
    · intro c' hc; unfold slot cells; dsimp only; rw [h5]; unfold apply; split <;> first | rfl | exact absurd rfl hc
  -- a
  · have hv := BitVec.toInt_lt (x := a.scanAngle)
    have hv2 := BitVec.le_toInt a.scanAngle
    obtain ⟨q, h1, h2, h3, h4, h5⟩ := put_ok (b := b) hw (.scanAngleRank (BitVec.ofInt 8 a.scanAngle.toInt)) (.scanAngle (BitVec.ofInt 8 a.scanAngle.toInt)) rfl (hop _ (by simp) (by simp))
    refine ⟨rfl, _, by simp only [store]; rw [hflt hs (by rw [abs_le]; omega)]; exact h1, h2, h3, h4, .inr ?_, ?_⟩
    · show ShowsInt ((view b q.hdr.fmt q.data).scanAngle.toInt) t
      rw [h5, BitVec.ofInt_toInt]; exact hs
    · intro c' hc; unfold slot cells; dsimp only; rw [h5]; unfold apply; split <;> first | rfl | exact absurd rfl hc
  -- n
  · obtain ⟨q, h1, h2, h3, h4, h5⟩ := put_ok (b := b) hw (.numberOfReturns (BitVec.ofInt 16 a.numberOfReturns)) (.numberOfReturns (BitVec.ofInt 16 a.numberOfReturns)) rfl (hop _ (by simp) (by simp))
    refine ⟨rfl, _, by simp only [store]; rw [hint hs (by omega)]; exact h1, h2, h3, h4, .inr ?_, ?_⟩
    · show ShowsInt ((view b q.hdr.fmt q.data).numberOfReturns) t
      rw [h5]; show ShowsInt (((BitVec.ofInt 16 (a.numberOfReturns : ℤ)).toNat % 8 : Nat) : ℤ) t
      rw [nat_mod hp2 (by norm_num), Nat.mod_eq_of_lt hp2]; exact hs
    · intro c' hc; unfold slot cells; dsimp only; rw [h5]; unfold apply; split <;> first | rfl | exact absurd rfl hc
  -- r
  · obtain ⟨q, h1, h2, h3, h4, h5⟩ := put_ok (b := b) hw (.returnNumber (BitVec.ofInt 16 a.returnNumber)) (.returnNumber (BitVec.ofInt 16 a.returnNumber)) rfl (hop _ (by simp) (by simp))
    refine ⟨rfl, _, by simp only [store]; rw [hint hs (by omega)]; exact h1, h2, h3, h4, .inr ?_, ?_⟩
    · show ShowsInt ((view b q.hdr.fmt q.data).returnNumber) t
      rw [h5]; show ShowsInt (((BitVec.ofInt 16 (a.returnNumber : ℤ)).toNat % 8 : Nat) : ℤ) t
      rw [nat_mod hp1 (by norm_num), Nat.mod_eq_of_lt hp1]; exact hs
    · intro c' hc; unfold slot cells; dsimp only; rw [h5]; unfold apply; split <;> first | rfl | exact absurd rfl hc
  -- c
  · obtain ⟨q, h1, h2, h3, h4, h5⟩ := put_ok (b := b) hw (.classification (BitVec.ofInt 8 a.classification.flags.toNat)) (.classification ⟨BitVec.ofInt 8 a.classification.flags.toNat⟩) rfl (hop _ (by simp) (by simp))
    refine ⟨rfl, _, by simp only [store]; rw [hint hs (i8 _)]; exact h1, h2, h3, h4, .inr ?_, ?_⟩
    · show ShowsInt ((view b q.hdr.fmt q.data).classification.flags.toNat) t
      rw [h5, ofInt_toNat]; exact hs
    · intro c' hc; unfold slot cells; dsimp only; rw [h5]; unfold apply; split <;> first | rfl | exact absurd rfl hc
  -- u
  · obtain ⟨q, h1, h2, h3, h4, h5⟩ := put_ok (b := b) hw (.userData (BitVec.ofInt 8 a.userData.toNat)) (.userData (BitVec.ofInt 8 a.userData.toNat)) rfl (hop _ (by simp) (by simp))
    refine ⟨rfl, _, by simp only [store]; rw [hint hs (i8 _)]; exact h1, h2, h3, h4, .inr ?_, ?_⟩
    · show ShowsInt ((view b q.hdr.fmt q.data).userData.toNat) t
      rw [h5, ofInt_toNat]; exact hs
    · intro c' hc; unfold slot cells; dsimp only; rw [h5]; unfold apply; split <;> first | rfl | exact absurd rfl hc
  -- p
  · obtain ⟨q, h1, h2, h3, h4, h5⟩ := put_ok (b := b) hw (.pointSourceId (BitVec.ofInt 16 a.sourceId.toNat)) (.sourceId (BitVec.ofInt 16 a.sourceId.toNat)) rfl (hop _ (by simp) (by simp))
    refine ⟨rfl, _, by simp only [store]; rw [hint hs (i16 _)]; exact h1, h2, h3, h4, .inr ?_, ?_⟩
    · show ShowsInt ((view b q.hdr.fmt q.data).sourceId.toNat) t
      rw [h5, ofInt_toNat]; exact hs
    · intro c' hc; unfold slot cells; dsimp only; rw [h5]; unfold apply; split <;> first | rfl | exact absurd rfl hc
  -- e
  · obtain ⟨q, h1, h2, h3, h4, h5⟩ := put_ok (b := b) hw (.flightLineEdge (if (a.edge : ℤ) ≠ 0 then 1 else 0)) (.edge (if (a.edge : ℤ) ≠ 0 then 1 else 0)) rfl (hop _ (by simp) (by simp))
    refine ⟨rfl, _, by simp only [store]; rw [hint hs (by omega)]; exact h1, h2, h3, h4, .inr ?_, ?_⟩
    · show ShowsInt ((view b q.hdr.fmt q.data).edge) t
      rw [h5]; show ShowsInt (((if (a.edge : ℤ) ≠ 0 then (1 : BitVec 16) else 0).toNat % 2 : Nat) : ℤ) t
      rw [flag_nat hp4]; exact hs
    · intro c' hc; unfold slot cells; dsimp only; rw [h5]; unfold apply; split <;> first | rfl | exact absurd rfl hc
  -- d
  · obtain ⟨q, h1, h2, h3, h4, h5⟩ := put_ok (b := b) hw (.scanDirection (if (a.scanDirection : ℤ) ≠ 0 then 1 else 0)) (.scanDirection (if (a.scanDirection : ℤ) ≠ 0 then 1 else 0)) rfl (hop _ (by simp) (by simp))
    refine ⟨rfl, _, by simp only [store]; rw [hint hs (by omega)]; exact h1, h2, h3, h4, .inr ?_, ?_⟩
    · show ShowsInt ((view b q.hdr.fmt q.data).scanDirection) t
      rw [h5]; show ShowsInt (((if (a.scanDirection : ℤ) ≠ 0 then (1 : BitVec 16) else 0).toNat % 2 : Nat) : ℤ) t
      rw [flag_nat hp3]; exact hs
    · intro c' hc; unfold slot cells; dsimp only; rw [h5]; unfold apply; split <;> first | rfl | exact absurd rfl hc
  -- R G B
  · refine ⟨rfl, { v with color := v.color.setRed (BitVec.ofInt 16 a.color.c0.toNat) }, by simp only [store]; rw [hint hs (i16 _)], hw, rfl, rfl,
      .inr ?_, ?_⟩
    · show ShowsInt ((BitVec.ofInt 16 (a.color.c0.toNat : ℤ)).toNat) t
      rw [ofInt_toNat]; exact hs
    · intro c' hc; unfold slot; split <;> first | rfl | exact absurd rfl hc
  · refine ⟨rfl, { v with color := v.color.setGreen (BitVec.ofInt 16 a.color.c1.toNat) }, by simp only [store]; rw [hint hs (i16 _)], hw, rfl, rfl,
      .inr ?_, ?_⟩
    · show ShowsInt ((BitVec.ofInt 16 (a.color.c1.toNat : ℤ)).toNat) t
      rw [ofInt_toNat]; exact hs
    · intro c' hc; unfold slot; split <;> first | rfl | exact absurd rfl hc
  · refine ⟨rfl, { v with color := v.color.setBlue (BitVec.ofInt 16 a.color.c2.toNat) }, by simp only [store]; rw [hint hs (i16 _)], hw, rfl, rfl,
      .inr ?_, ?_⟩
    · show ShowsInt ((BitVec.ofInt 16 (a.color.c2.toNat : ℤ)).toNat) t
      rw [ofInt_toNat]; exact hs
    · intro c' hc; unfold slot; split <;> first | rfl | exact absurd rfl hc
  · exact absurd hs id

theorem slot_other {c : Char} (h : known c = false) (k k' : Cells) : slot c k = slot c k' := by
  unfold slot; split <;> first | rfl | (exfalso; revert h; decide)

theorem letters_loop {sc : Scan} (hsc : Scans sc) {b : Build} {scale offset : Vec3 Fl} :
    ∀ (cs : List Char) (fields : List (List Char)) (l : List Char) (v : Vars), List.Forall₂ (Fits scale offset) cs fields →
      Columns fields l → (cs.filter (· ≠ 's')).Nodup → v.point.WF →
      ∃ v', letters sc b cs l v = letters sc b [] [] v' ∧ v'.point.WF ∧ v'.point.hdr = v.point.hdr ∧
        v'.point.data.length = v.point.data.length ∧ List.Forall₂ (fun c t => Holds c t (cells b v')) cs fields ∧
        ∀ c, c ∉ cs → slot c (cells b v') = slot c (cells b v)
  | [], _, l, v, hf, _, _, hw => by
    cases hf
    exact ⟨v, rfl, hw, rfl, rfl, .nil, fun _ _ => rfl⟩
  | c :: cs, _, l, v, .cons (l₂ := fields) (b := t) hf hfs, hc, hn, hw => by
    obtain ⟨rest, e1, e2, he, hc'⟩ := columns_step hc
    obtain ⟨hk, v1, e3, ha⟩ := store_ok hsc (b := b) hf he hw
    have hn' : (cs.filter (· ≠ 's')).Nodup := by
      by_cases h : c = 's'
      · subst h; simpa using hn
      · rw [List.filter_cons_of_pos (by simpa using h)] at hn; exact (List.nodup_cons.mp hn).2
    obtain ⟨v', e4, h1, h2, h3, h4, h5⟩ := letters_loop hsc cs fields _ v1 hfs hc' hn' ha.wf
    refine ⟨v', ?_, h1, h2.trans ha.hdr, h3.trans ha.len, .cons ?_ h4, ?_⟩
    · conv_lhs => rw [letters, if_pos hk]
      dsimp only
      rw [e1, if_neg e2, e3]
      exact e4
    · by_cases h : c = 's'
      · exact .inl h
      · rcases ha.holds with h' | h'
        · exact absurd h' h
        · rw [← h5 c (by
            rw [List.filter_cons_of_pos (by simpa using h)] at hn
            have := (List.nodup_cons.mp hn).1
            intro hm; exact this (by simp [hm, h]))] at h'
          exact .inr h'
    · intro c' hc'
      rw [List.mem_cons, not_or] at hc'
      rw [h5 c' hc'.2, ha.frame c' hc'.1]

/-- The colour of a point: what the format can store of it. -/
def keepColor (f : PointFormat) (c : Color) : Color := if hasColor f then c else ⟨0, 0, 0⟩

theorem letters_end {sc : Scan} {b : Build} {v : Vars} (hw : v.point.WF) :
    ∃ v', letters sc b [] [] v = .ok (true, v') ∧ v'.point.WF ∧ v'.point.hdr = v.point.hdr ∧
      v'.point.data.length = v.point.data.length ∧ (∀ c, slot c (cells b v') = slot c (cells b v)) ∧
      (cells b v').a.color = keepColor v.point.hdr.fmt v.color ∧ v'.color = v.color := by
  by_cases h : hasColor v.point.hdr.fmt = true
  · obtain ⟨p, h1, h2, h3, h4, h5⟩ := put_ok (b := b) hw (.color v.color) (.color v.color) rfl h
    unfold put at h1
    obtain ⟨q, e1, e2⟩ := bind_eq_ok h1
    injection e2 with e2; injection e2 with e2
    have e3 : q = p := by injection e2
    subst e3
    refine ⟨{ v with point := q }, by unfold letters; rw [e1]; rfl, h2, h3, h4, ?_, ?_, rfl⟩
    · intro c; unfold slot cells; dsimp only; rw [h5]; unfold apply; rfl
    · show (view b q.hdr.fmt q.data).color = _
      rw [h5, keepColor, if_pos h]; rfl
  · rw [Bool.not_eq_true] at h
    obtain ⟨k1, k2⟩ := (unsupported_attribute b v.point hw).2 h
    have e1 : call b v.point (.color v.color) = .ok v.point := by
      unfold call
      rw [show CApi.PointSet.run b v.point (.color v.color) = exec b v.point (.color v.color) from rfl, k1]
    refine ⟨v, by unfold letters; rw [e1]; rfl, hw, rfl, rfl, fun _ => rfl, ?_, rfl⟩
    rw [keepColor, if_neg (by simp [h])]
    exact k2 _ (observe_eq hw)

/-- A line with fitting columns parses. -/
theorem row_parses {sc : Scan} (hsc : Scans sc) {b : Build} {scale offset : Vec3 Fl} {cs line : List Char} {fields : List (List Char)}
    (hc : Columns fields line) (hf : List.Forall₂ (Fits scale offset) cs fields) (hn : (cs.filter (· ≠ 's')).Nodup) {p : Point} (hw : p.WF)
    (v : Vars) :
    ∃ v', parse sc b cs line p v = .ok (true, v') ∧ v'.point.WF ∧ v'.point.hdr = p.hdr ∧
      v'.point.data.length = p.data.length ∧ List.Forall₂ (fun c t => Holds c t (cells b v')) cs fields ∧
      (∀ c, c ∉ cs → slot c (cells b v') = slot c (cells b { v with point := p, color := ⟨0, 0, 0⟩ })) ∧
      (cells b v').a.color = keepColor p.hdr.fmt v'.color := by
  obtain ⟨v1, e1, h1, h2, h3, h4, h5⟩ := letters_loop hsc (b := b) cs fields line { v with point := p, color := ⟨0, 0, 0⟩ } hf hc hn hw
  obtain ⟨v', e2, k1, k2, k3, k4, k5, k6⟩ := letters_end (sc := sc) (b := b) h1
  refine ⟨v', by unfold parse; rw [e1, e2], k1, k2.trans h2, k3.trans h3, ?_, ?_, ?_⟩
  · refine h4.imp fun c t h => ?_
    rcases h with h | h
    · exact .inl h
    · exact .inr (by rw [k4]; exact h)
  · intro c hc'; rw [k4, h5 c hc']
  · rw [k5, h2, k6]

/-- A comment does not parse when its first column is looked at. -/
theorem comment_fails {sc : Scan} (hsc : Scans sc) {b : Build} {cs line : List Char} (hc : Comment line)
    (hx : ∃ c rest, cs = c :: rest ∧ c ∈ ['x', 'y', 'z', 'r']) (p : Point) (v : Vars) :
    parse sc b cs line p v = .ok (false, { v with point := p, color := ⟨0, 0, 0⟩ }) := by
  obtain ⟨c, cs, rfl, hx⟩ := hx
  obtain ⟨gap, rest, rfl, hg, hr⟩ := hc
  have hl : ∃ d u, (gap ++ rest ++ ['\n']).dropWhile isSep = d :: u ∧ (d = '#' ∨ d = '"' ∨ (d = '\n' ∧ u = [])) := by
    rw [List.append_assoc, dropWhile_skip (p := isSep) hg]
    cases rest with
    | nil => exact ⟨'\n', [], by decide, .inr (.inr ⟨rfl, rfl⟩)⟩
    | cons d u =>
      rcases hr d u rfl with rfl | rfl
      · exact ⟨'#', u ++ ['\n'], List.dropWhile_cons_of_neg (by decide), .inl rfl⟩
      · exact ⟨'"', u ++ ['\n'], List.dropWhile_cons_of_neg (by decide), .inr (.inl rfl)⟩
  obtain ⟨d, u, e, hd⟩ := hl
  have h1 := hsc.none_d hd
  have h2 := hsc.none_lf hd
  unfold parse letters
  simp only [List.mem_cons, List.not_mem_nil, or_false] at hx
  rcases hx with rfl | rfl | rfl | rfl <;> rw [if_pos (by decide)] <;> dsimp only <;> rw [e, if_neg (by simp)] <;>
    simp [store, withInt, h1, h2]

end Txt2las
end LibLAS
