import Verif.Lemmas.Las2txt
import Verif.Props.Las2las
import Verif.Props.Classification
import Verif.Props.Las2lasCases
/-
C73: las2txt writes one line of text for every point.
-/
namespace LibLAS
open Spec Spec.Text Point

theorem Point.observe_inv {b : Build} {p : Point} {a : Attrs} (h : observe b p = .ok a) :
    getRawX b p = .ok a.rawX ∧ getRawY b p = .ok a.rawY ∧ getRawZ b p = .ok a.rawZ ∧ getIntensity b p = .ok a.intensity ∧
    (∃ v, getReturnNumber p = .ok v ∧ v.toNat = a.returnNumber) ∧ (∃ v, getNumberOfReturns p = .ok v ∧ v.toNat = a.numberOfReturns) ∧
    (∃ v, getScanDirection p = .ok v ∧ v.toNat = a.scanDirection) ∧ (∃ v, getFlightLineEdge p = .ok v ∧ v.toNat = a.edge) ∧
    getClassification p = .ok a.classification ∧ getScanAngleRank p = .ok a.scanAngle ∧ getUserData p = .ok a.userData ∧
    getPointSourceID b p = .ok a.sourceId ∧ getTime b p = .ok a.time ∧ getColor b p = .ok a.color := by
  unfold observe at h
  obtain ⟨x1, e1, h⟩ := bind_eq_ok h
  obtain ⟨x2, e2, h⟩ := bind_eq_ok h
  obtain ⟨x3, e3, h⟩ := bind_eq_ok h
  obtain ⟨x4, e4, h⟩ := bind_eq_ok h
  obtain ⟨x5, e5, h⟩ := bind_eq_ok h
  obtain ⟨x6, e6, h⟩ := bind_eq_ok h
  obtain ⟨x7, e7, h⟩ := bind_eq_ok h
  obtain ⟨x8, e8, h⟩ := bind_eq_ok h
  obtain ⟨x9, e9, h⟩ := bind_eq_ok h
  obtain ⟨x10, e10, h⟩ := bind_eq_ok h
  obtain ⟨x11, e11, h⟩ := bind_eq_ok h
  obtain ⟨x12, e12, h⟩ := bind_eq_ok h
  obtain ⟨x13, e13, h⟩ := bind_eq_ok h
  obtain ⟨x14, e14, h⟩ := bind_eq_ok h
  cases h
  exact ⟨e1, e2, e3, e4, ⟨_, e5, rfl⟩, ⟨_, e6, rfl⟩, ⟨_, e7, rfl⟩, ⟨_, e8, rfl⟩, e9, e10, e11, e12, e13, e14⟩

namespace Las2txt

/-- What the text of a letter must be, for a point `p` with header `h` and number `index`. The coordinates are the doubles
that the getters return. -/
def Field (b : Build) (h : PHeader) (px py pz pt : Nat) (p : List Byte) (index : Nat) (c : Char) (t : List Char) : Prop :=
  ∃ a x y z, observe b ⟨p, h⟩ = .ok a ∧ getX b ⟨p, h⟩ = .ok x ∧ getY b ⟨p, h⟩ = .ok y ∧ getZ b ⟨p, h⟩ = .ok z ∧
    Shows a x y z (Fl.ofBits a.time) px py pz pt index c t

theorem class_mod : ∀ v : BitVec 8, (v &&& 31#8).toNat = v.toNat % 32 := by decide

theorem field_shows (b : Build) (pr : Precisions) (index : Nat) {h : PHeader} {p : List Byte} (hw : (⟨p, h⟩ : Point).WF)
    {col : Color} (hcol : getColor b ⟨p, h⟩ = .ok col) (c : Char) :
    ∃ t, field b pr (BitVec.ofNat 32 index) ⟨p, h⟩ col c = .ok t ∧
      Field b h pr.x.toNat pr.y.toNat pr.z.toNat pr.t.toNat p index c t := by
  have ho := observe_eq (b := b) hw
  generalize view b (Point.hdr ⟨p, h⟩).fmt (Point.data ⟨p, h⟩) = a at ho
  obtain ⟨e1, e2, e3, e4, ⟨v5, e5, h5⟩, ⟨v6, e6, h6⟩, ⟨v7, e7, h7⟩, ⟨v8, e8, h8⟩, e9, e10, e11, e12, e13, e14⟩ :=
    Point.observe_inv ho
  rw [hcol] at e14
  cases e14
  have ex : getX b ⟨p, h⟩ = .ok (scaled a.rawX h.scale.x h.offset.x) := by unfold getX; rw [e1]; rfl
  have ey : getY b ⟨p, h⟩ = .ok (scaled a.rawY h.scale.y h.offset.y) := by unfold getY; rw [e2]; rfl
  have ez : getZ b ⟨p, h⟩ = .ok (scaled a.rawZ h.scale.z h.offset.z) := by unfold getZ; rw [e3]; rfl
  suffices H : ∃ t, field b pr (BitVec.ofNat 32 index) ⟨p, h⟩ a.color c = .ok t ∧
      Shows a (scaled a.rawX h.scale.x h.offset.x) (scaled a.rawY h.scale.y h.offset.y) (scaled a.rawZ h.scale.z h.offset.z)
        (Fl.ofBits a.time) pr.x.toNat pr.y.toNat pr.z.toNat pr.t.toNat index c t by
    obtain ⟨t, h1, h2⟩ := H
    exact ⟨t, h1, a, _, _, _, ho, ex, ey, ez, h2⟩
  have hclass : a.classification.getClass.toNat = a.classification.flags.toNat % 32 := class_mod _
  have hname := class_name_total a.classification
  unfold field
  split
  case h_12 =>
    refine ⟨_, by rw [e9, Outcome.bind_ok, hname]; rfl, ?_⟩
    simp only [Shows, String.ofList_toList]
  all_goals first
    | (rw [ex]; exact ⟨_, rfl, fixedText_spec _ _⟩)
    | (rw [ey]; exact ⟨_, rfl, fixedText_spec _ _⟩)
    | (rw [ez]; exact ⟨_, rfl, fixedText_spec _ _⟩)
    | (rw [e1]; exact ⟨_, rfl, showsInt _⟩)
    | (rw [e2]; exact ⟨_, rfl, showsInt _⟩)
    | (rw [e3]; exact ⟨_, rfl, showsInt _⟩)
    | (rw [e13]; exact ⟨_, rfl, fixedText_spec _ _⟩)
    | (rw [e4]; exact ⟨_, rfl, showsNat _⟩)
    | (rw [e10]; exact ⟨_, rfl, showsInt _⟩)
    | (rw [e5, Outcome.bind_ok, h5]; exact ⟨_, rfl, showsNat _⟩)
    | (rw [e6, Outcome.bind_ok, h6]; exact ⟨_, rfl, showsNat _⟩)
    | (rw [e7, Outcome.bind_ok, h7]; exact ⟨_, rfl, showsNat _⟩)
    | (rw [e8, Outcome.bind_ok, h8]; exact ⟨_, rfl, showsNat _⟩)
    | (rw [e9, Outcome.bind_ok, hclass]; exact ⟨_, rfl, showsNat _⟩)
    | (rw [e11]; exact ⟨_, rfl, showsNat _⟩)
    | (rw [e12]; exact ⟨_, rfl, showsNat _⟩)
    | exact ⟨_, rfl, showsNat _⟩
    | (refine ⟨_, rfl, ?_⟩; rw [BitVec.toNat_ofNat]; exact showsNat _)
    | (refine ⟨_, rfl, ?_⟩; unfold Shows; split <;> simp_all)

theorem letters_line {f : Char → Outcome (List Char)} {show1 : Char → List Char → Prop}
    (hf : ∀ c, ∃ t, f c = .ok t ∧ show1 c t) (delimiter : List Char) :
    ∀ parse : List Char, parse ≠ [] → ∃ line, letters f delimiter parse = .ok line ∧ Line show1 parse delimiter line
  | [], h => absurd rfl h
  | [c], _ => by
    obtain ⟨t, e, ht⟩ := hf c
    exact ⟨t ++ ['\n'], by rw [letters, e]; rfl, [t], .cons ht .nil, by simp⟩
  | c :: d :: rest, _ => by
    obtain ⟨t, e, ht⟩ := hf c
    obtain ⟨line, e2, fields, h1, h2⟩ := letters_line hf delimiter (d :: rest) (by simp)
    refine ⟨t ++ delimiter ++ line, by rw [letters, e, Outcome.bind_ok, e2] <;> simp, t :: fields, .cons ht h1, ?_⟩
    cases fields with
    | nil => cases h1
    | cons u us => rw [h2]; simp [List.intercalate]

theorem label_heading (c : Char) : Heading c (label c) := by
  unfold Heading label
  split
  case h_22 =>
    have : headings.lookup c = none := by
      rw [List.lookup_eq_none_iff]
      intro q hq
      simp [headings] at hq
      rcases hq with rfl | rfl | rfl | rfl | rfl | rfl | rfl | rfl | rfl | rfl | rfl | rfl | rfl | rfl | rfl | rfl | rfl | rfl | rfl | rfl | rfl <;>
        simp_all
    rw [this]
  all_goals rfl

/-- A file whose points can be printed: it opens, is long enough for a header, has a record long enough for its format and
no readable schema record. `ps` are the points a reader with the given filters delivers. -/
structure Input (env : Env) (today : BitVec 16 × BitVec 16) (filters : List (List Byte → Bool)) (input : List Byte)
    (r₀ : Reader) (ps : List (List Byte)) : Prop where
  opens : Reader.make env today (IStream.onFile input) = .ok r₀
  points : delivers ((r₀.setFilters filters).setTransforms []) ps
  long : 227 ≤ input.length
  schema : NoSchema env r₀.hdr.vlrs
  record : formatSize r₀.hdr.schema.fmt ≤ r₀.hdr.dataRecordLength

section
variable {env : Env} {today : BitVec 16 × BitVec 16} {filters : List (List Byte → Bool)} {input : List Byte} {r₀ : Reader}
  {ps : List (List Byte)}

theorem Input.wf (hi : Input env today filters input r₀ ps) : ∀ p ∈ ps, (⟨p, r₀.hdr.toP⟩ : Point).WF := by
  have hopen := open_file hi.long hi.opens hi.schema
  have hk : ((r₀.setFilters filters).setTransforms []).KeepsLength := by
    intro f e
    unfold Reader.setTransforms at e
    simp at e
  intro p hp
  have hl : p.length = r₀.hdr.dataRecordLength := by
    rw [delivers_lengths hk hi.points p hp]
    show r₀.point.length = _
    rw [hopen.point, hopen.recordLength]; simp
  refine ⟨hopen.std, ?_⟩
  show formatSize r₀.hdr.schema.fmt ≤ p.length
  rw [hl]; exact hi.record

theorem pointLoop_ok (b : Build) {parse delimiter : List Char} (hne : parse ≠ []) (pr : Precisions) {h : PHeader} :
    ∀ (ps : List (List Byte)) (r : Reader) (fuel i : Nat), delivers r ps → (∀ p ∈ ps, (⟨p, h⟩ : Point).WF) → r.hdr.toP = h →
      ps.length < fuel →
      ∃ lines : List (List Char), pointLoop b parse delimiter pr fuel r (BitVec.ofNat 32 i) = .ok lines.flatten ∧ lines.length = ps.length ∧
        ∀ (j : Nat) (p : List Byte) (line : List Char), ps[j]? = some p → lines[j]? = some line →
          Line (Field b h pr.x.toNat pr.y.toNat pr.z.toNat pr.t.toNat p (i + j)) parse delimiter line := by
  intro ps
  induction ps with
  | nil =>
    intro r fuel i hd _ _ hf
    obtain ⟨k, rfl⟩ : ∃ k, fuel = k + 1 := ⟨fuel - 1, by simp at hf; omega⟩
    refine ⟨[], ?_, rfl, by simp⟩
    unfold pointLoop
    rcases hx : r.readNext with ⟨r', o⟩
    have h2 : r.readNext.2 = .ok false := hd
    rw [hx] at h2
    dsimp only at h2
    subst h2
    rfl
  | cons p ps ih =>
    intro r fuel i hd hw hh hf
    obtain ⟨k, rfl⟩ : ∃ k, fuel = k + 1 := ⟨fuel - 1, by simp at hf; omega⟩
    obtain ⟨h1, h2, h3⟩ := hd
    have hfw := (Reader.readNext_forward r).1
    obtain ⟨lines, e, hl, hls⟩ := ih r.readNext.1 k (i + 1) h3 (fun q hq => hw q (List.mem_cons_of_mem _ hq))
      (by rw [hfw.hdr]; exact hh) (by simp at hf; omega)
    have hp := hw p List.mem_cons_self
    have hcol := (Point.observe_inv (observe_eq (b := b) hp)).2.2.2.2.2.2.2.2.2.2.2.2.2
    obtain ⟨line, e2, hline⟩ := letters_line (fun c => field_shows b pr i hp hcol c) delimiter parse hne
    refine ⟨line :: lines, ?_, by simp [hl], ?_⟩
    · unfold pointLoop
      rcases hx : r.readNext with ⟨r', o⟩
      rw [hx] at h1 h2 hfw e
      dsimp only at h1 h2 hfw e
      subst h1
      dsimp only
      have hi1 : BitVec.ofNat 32 i + 1 = BitVec.ofNat 32 (i + 1) := by
        apply BitVec.eq_of_toNat_eq; simp
      unfold getPointString
      rw [h2, hfw.hdr, hh, hcol, Outcome.bind_ok, e2, Outcome.bind_ok, hi1, e]
      rfl
    · intro j q l hq hlq
      cases j with
      | zero =>
        simp at hq hlq
        subst hq; subst hlq
        exact hline
      | succ j =>
        have := hls j q l (by simpa using hq) (by simpa using hlq)
        rwa [show i + 1 + j = i + (j + 1) by omega] at this

theorem frac_power {k : Nat} (h1 : 1 ≤ k) (h2 : k ≤ 300) : frac (Fl.ofRat (1 / 10 ^ k)) = Fl.ofRat (1 / 10 ^ k) := by
  have : ∀ k : Fin 301, 1 ≤ k.1 → frac (Fl.ofRat (1 / 10 ^ k.1)) = Fl.ofRat (1 / 10 ^ k.1) := by decide +kernel
  exact this ⟨k, by omega⟩ h1

theorem precision_power {log10 : Fl → Fl} (hlog : ExactLog10 log10) {k : Nat} (h1 : 1 ≤ k) (h2 : k ≤ 300) :
    streamPrecision log10 (Fl.ofRat (1 / 10 ^ k)) = .ok (BitVec.ofNat 32 k) := by
  unfold streamPrecision
  rw [frac_power h1 h2, hlog k h1 h2]
  have hf : Fl.floor (.fin (-(k : ℚ))) = .fin (-(k : ℚ)) := by
    simp only [Fl.floor]
    rw [show (-(k : ℚ)) = ((-(k : ℤ) : ℤ) : ℚ) by push_cast; rfl, Int.floor_intCast]
  rw [hf]
  have ha : fabs (.fin (-(k : ℚ))) = .fin (k : ℚ) := by simp [fabs]
  rw [ha, toUInt32]
  have hk : ((k : ℚ)) < 2 ^ 32 := by
    have : k < 2 ^ 32 := by omega
    exact_mod_cast this
  rw [if_pos ⟨by positivity, hk⟩]
  simp

theorem precisions_ok {log10 : Fl → Fl} (hlog : ExactLog10 log10) {h : PHeader} {o : Option (List (BitVec 32))} {px py pz pt : Nat}
    (hd : Decimals h.scale.x h.scale.y h.scale.z px py pz pt o) :
    ∃ pr, choosePrecisions log10 h o = .ok pr ∧ pr.x.toNat = px ∧ pr.y.toNat = py ∧ pr.z.toNat = pz ∧ pr.t.toNat = pt := by
  cases o with
  | some l =>
    rcases hd with hd | ⟨hd, rfl⟩
    · match l, hd with
      | [x, y, z, t], hd =>
        simp at hd
        exact ⟨⟨x, y, z, t⟩, rfl, hd.1, hd.2.1, hd.2.2.1, hd.2.2.2⟩
    · match l, hd with
      | [x, y, z], hd =>
        simp at hd
        exact ⟨⟨x, y, z, 8⟩, rfl, hd.1, hd.2.1, hd.2.2, rfl⟩
  | none =>
    obtain ⟨rfl, hd⟩ := hd
    obtain ⟨a1, a2, a3⟩ := hd h.scale.x px (by simp)
    obtain ⟨b1, b2, b3⟩ := hd h.scale.y py (by simp)
    obtain ⟨c1, c2, c3⟩ := hd h.scale.z pz (by simp)
    refine ⟨⟨BitVec.ofNat 32 px, BitVec.ofNat 32 py, BitVec.ofNat 32 pz, 8⟩, ?_, ?_, ?_, ?_, rfl⟩
    · unfold choosePrecisions
      rw [a3, b3, c3, precision_power hlog a1 a2, precision_power hlog b1 b2, precision_power hlog c1 c2]
      rfl
    · simp; omega
    · simp; omega
    · simp; omega

/-- **C73.** The text las2txt writes: an optional line of headings, then for every point that the reader delivers one line,
in order, with the text of every letter of `--parse`. The default decimals need a `log10` that is exact at powers of
ten. `--header` is not modelled. -/
theorem text_partial {b : Build} {log10 : Fl → Fl} (hlog : ExactLog10 log10) {o : Opts} (hi : Input env today o.filters input r₀ ps)
    (hparse : o.parse ≠ []) {px py pz pt : Nat}
    (hd : Decimals r₀.hdr.toP.scale.x r₀.hdr.toP.scale.y r₀.hdr.toP.scale.z px py pz pt o.precision) {delimiter : List Char}
    (hdel : Delimiter o.delimiter delimiter) :
    ∃ (head : List Char) (lines : List (List Char)), main env today b log10 o input = .ok (head ++ lines.flatten) ∧
      (if o.labels then Line Heading o.parse delimiter head else head = []) ∧ lines.length = ps.length ∧
      ∀ (j : Nat) (p : List Byte) (line : List Char), ps[j]? = some p → lines[j]? = some line →
        Line (Field b r₀.hdr.toP px py pz pt p j) o.parse delimiter line := by
  have hde : delimiterOf o.delimiter = delimiter := by
    rcases hdel with ⟨e, rfl⟩ | ⟨e, rfl⟩ | ⟨e, rfl⟩ | ⟨e, h1, h2⟩ <;> rw [e] <;> simp [delimiterOf, *]
  obtain ⟨pr, ep, rfl, rfl, rfl, rfl⟩ := precisions_ok hlog hd
  have hsz : ps.length < ((r₀.setFilters o.filters).setTransforms []).size + 1 := by
    have := delivers_length hi.points
    omega
  obtain ⟨lines, e, hl, hls⟩ := pointLoop_ok b (delimiter := delimiter) hparse pr ps ((r₀.setFilters o.filters).setTransforms []) _ 0 hi.points hi.wf rfl hsz
  obtain ⟨head, eh, hh⟩ : ∃ head, (if o.labels then getLabels o.parse delimiter else .ok []) = .ok head ∧
      (if o.labels then Line Heading o.parse delimiter head else head = []) := by
    by_cases hb : o.labels = true
    · rw [if_pos hb]
      obtain ⟨line, e, hline⟩ := letters_line (fun c => ⟨label c, rfl, label_heading c⟩) delimiter o.parse hparse
      exact ⟨line, e, by rw [if_pos hb]; exact hline⟩
    · rw [if_neg hb]
      exact ⟨[], rfl, by rw [if_neg hb]⟩
  refine ⟨head, lines, ?_, hh, hl, by simpa using hls⟩
  unfold main
  rw [hi.opens, Outcome.bind_ok, ep, Outcome.bind_ok]
  dsimp only
  have e' : pointLoop b o.parse delimiter pr (((r₀.setFilters o.filters).setTransforms []).size + 1)
      ((r₀.setFilters o.filters).setTransforms []) 0 = .ok lines.flatten := e
  rw [hde, Outcome.bind_ok, e']
  by_cases hb : o.labels = true
  · rw [if_pos hb] at eh ⊢
    rw [eh]; rfl
  · rw [if_neg hb] at eh ⊢
    rw [eh]; rfl

end

end Las2txt
end LibLAS
