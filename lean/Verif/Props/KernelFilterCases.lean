import Verif.Props.KernelFilters
import Verif.Props.Las2lasCases
/-
C65: what las2las writes under filtering options, and the options that do not do what they say.
-/
set_option linter.unusedSimpArgs false
namespace LibLAS
open Spec Point

namespace Kernel

/-- What is known of the record `d` of a file with header `src`: attributes, position, time. -/
structure Shown (b : Build) (src : PHeader) (d : List Byte) (a : Attrs) (x y z t : ℚ) : Prop where
  attributes : observe b ⟨d, src⟩ = .ok a
  x : (⟨d, src⟩ : Point).getX b = .ok (.fin x)
  y : (⟨d, src⟩ : Point).getY b = .ok (.fin y)
  z : (⟨d, src⟩ : Point).getZ b = .ok (.fin z)
  time : Fl.ofBits a.time = .fin t
  unflagged : a.classification.isSynthetic = false ∧ a.classification.isKeyPoint = false ∧ a.classification.isWithheld = false

open Las2las in
/-- C65 at the level of the program: las2las with filtering options (at least one) writes exactly the records of the input
whose points meet all of them, in order. `kept` says which. The input must end with its last record, and not both records
before the last may be rejected when the last is kept (C25). -/
theorem filtered_copy_partial {env : Env} {today : BitVec 16 × BitVec 16} {b : Build} {lx : Lexical} {c : Choice}
    {byExtent : Bool} {fs : List PFilter} {input : List Byte} {r₀ : Reader} {h : Header} {w : Writer} {edit : Header → Outcome Header}
    {h' : Header} (hc : c.Handled lx) (hfs : getFilters b lx (c.options byExtent) = .ok fs) (hne : fs ≠ [])
    (hr : Reader.make env today (IStream.onFile input) = .ok r₀) (hlong : 227 ≤ input.length) (hs : NoSchema env r₀.hdr.vlrs)
    (hord : OrdinaryScaling r₀.hdr.toP) (hrec : formatSize r₀.hdr.schema.fmt ≤ r₀.hdr.dataRecordLength)
    (htight : input.length = r₀.hdr.dataOffset.toNat + r₀.hdr.pointCount.toNat * r₀.hdr.dataRecordLength)
    (kept : List Byte → Bool)
    (hkept : ∀ d ∈ recordsFrom input r₀.hdr.dataOffset.toNat r₀.hdr.dataRecordLength 0 r₀.hdr.pointCount.toNat,
      ∃ a x y z t, Shown b r₀.hdr.toP d a x y z t ∧ (kept d = true ↔ c.Allows a x y z t))
    (hlast : ∀ pre x y z, recordsFrom input r₀.hdr.dataOffset.toNat r₀.hdr.dataRecordLength 0 r₀.hdr.pointCount.toNat =
      pre ++ [x, y, z] → kept z = true → kept x = true ∨ kept y = true)
    (he : edit r₀.hdr = .ok h') (hh : h = { h' with compressed := false }) (ho : Output env r₀ h w) :
    ∃ f r, main env today b ⟨fs.map (asReaderFilter r₀.hdr.toP), [], 0, 0, false⟩ edit input = .ok [f] ∧
      FileWith env today h (outputRecords env h) f
        ((recordsFrom input r₀.hdr.dataOffset.toNat r₀.hdr.dataRecordLength 0 r₀.hdr.pointCount.toNat).filter kept) r := by
  have hopen := open_file hlong hr hs
  have hsane : SaneLength r₀ := by
    have h2 := hopen.recordLength
    have hm := make_made hr
    have hpos : 0 < r₀.hdr.dataRecordLength := by
      have : 0 < formatSize r₀.hdr.schema.fmt := by cases r₀.hdr.schema.fmt <;> simp [formatSize]
      omega
    have e : r₀.hdr.schema.byteSize = (got 16 (slice input 105 2)).toNat := by rw [← hm.recordSize, hopen.recordSize]
    have hlt : r₀.hdr.schema.byteSize < 2 ^ 16 := by rw [e]; exact BitVec.isLt _
    refine ⟨?_, hlt⟩
    unfold Header.dataRecordLength Schema.dataRecordLength at hpos
    rcases Nat.eq_zero_or_pos r₀.hdr.schema.byteSize with h0 | h0
    · rw [h0] at hpos; simp at hpos
    · exact h0
  have hacc : ∀ d ∈ recordsFrom input r₀.hdr.dataOffset.toNat r₀.hdr.dataRecordLength 0 r₀.hdr.pointCount.toNat,
      acceptedBy (fs.map (asReaderFilter r₀.hdr.toP)) d = kept d := by
    intro d hd
    obtain ⟨a, x, y, z, t, hsh, hk⟩ := hkept d hd
    have hwf : (⟨d, r₀.hdr.toP⟩ : Point).WF := by
      refine ⟨hopen.std, ?_⟩
      show formatSize r₀.hdr.schema.fmt ≤ d.length
      obtain ⟨j, hj, rfl⟩ := List.mem_map.1 hd
      have hj := List.mem_range.1 hj
      have : (record input r₀.hdr.dataOffset.toNat r₀.hdr.dataRecordLength (0 + j)).length = r₀.hdr.dataRecordLength := by
        unfold record slice
        rw [List.length_take, List.length_drop]
        have : (j + 1) * r₀.hdr.dataRecordLength ≤ r₀.hdr.pointCount.toNat * r₀.hdr.dataRecordLength :=
          Nat.mul_le_mul_right _ hj
        rw [Nat.succ_mul] at this
        rw [Nat.zero_add]
        omega
      omega
    obtain ⟨fs', e', hp⟩ := filter_options_partial b lx c hc byExtent
    rw [hfs] at e'
    obtain rfl := Outcome.ok.inj e'
    obtain ⟨-, hp⟩ := hp _ a x y z t hwf hsh.attributes hsh.x hsh.y hsh.z (fun _ => hsh.time) (fun _ => hsh.unflagged)
    rw [Bool.eq_iff_iff, hk, ← hp]
    unfold acceptedBy
    rw [List.all_map, List.all_eq_true]
    simp [asReaderFilter]
  have hd : delivers ((r₀.setFilters (fs.map (asReaderFilter r₀.hdr.toP))).setTransforms [])
      ((recordsFrom input r₀.hdr.dataOffset.toNat r₀.hdr.dataRecordLength 0 r₀.hdr.pointCount.toNat).filter kept) := by
    have e : (recordsFrom input r₀.hdr.dataOffset.toNat r₀.hdr.dataRecordLength 0 r₀.hdr.pointCount.toNat).filter kept =
        (recordsFrom input r₀.hdr.dataOffset.toNat r₀.hdr.dataRecordLength 0 r₀.hdr.pointCount.toNat).filter
          (acceptedBy (fs.map (asReaderFilter r₀.hdr.toP))) :=
      (List.filter_congr fun d hd => (hacc d hd)).symm
    have hx : (r₀.setFilters (fs.map (asReaderFilter r₀.hdr.toP))).setTransforms [] =
        r₀.setFilters (fs.map (asReaderFilter r₀.hdr.toP)) := by
      have := (make_made hr).xform
      unfold Reader.setTransforms Reader.setFilters
      simp [this]
    rw [hx, e]
    refine filtered_reading_fresh_partial hr hsane htight _ (by simpa using hne) ?_
    intro pre x y z hrec
    rw [hacc x (by rw [hrec]; simp), hacc y (by rw [hrec]; simp), hacc z (by rw [hrec]; simp)]
    exact hlast pre x y z hrec
  have hi : Input env today ⟨fs.map (asReaderFilter r₀.hdr.toP), [], 0, 0, false⟩ input r₀
      ((recordsFrom input r₀.hdr.dataOffset.toNat r₀.hdr.dataRecordLength 0 r₀.hdr.pointCount.toNat).filter kept) :=
    ⟨hr, hd, hlong, hs, hord, hrec, by simp⟩
  obtain ⟨f, r, e, hf, -⟩ := copy_partial hi he hh ho rfl rfl rfl (b := b)
  exact ⟨f, r, e, hf⟩

/-- Decimal conversions, to exhibit the hypotheses: digits only. -/
def decimal (s : List Char) : Option Nat :=
  if s ≠ [] ∧ s.all Char.isDigit then some (s.foldl (fun n c => 10 * n + (c.toNat - 48)) 0) else none
/-- The three conversions. -/
def decimals : Lexical :=
  ⟨fun s => (decimal s).map (BitVec.ofNat 16), fun s => (decimal s).map (BitVec.ofNat 32), fun s => (decimal s).map fun n => .fin n⟩

/-- The options `--keep-classes 0 2 --keep-returns 1 2 --extent 0,-50,99,60 --keep-intensity 0-100 --drop-intensity >=50
--keep-scan-angle <=90 --keep-time <1000 --keep-color 0,0,0-9,9,9 --valid_only`. -/
def sampleChoice : Choice :=
  { keepClasses := some [0, 2]
    keepReturns := some [1, 2]
    window := some (.plane 0 (-50) 99 60)
    keepIntensity := some (.between ⟨['0'], 0⟩ ⟨['1', '0', '0'], 100⟩)
    dropIntensity := some (.compare .ge ⟨['5', '0'], 50⟩)
    keepScanAngle := some (.compare .le ⟨['9', '0'], 90⟩)
    keepTime := some (.compare .lt ⟨['1', '0', '0', '0'], 1000⟩)
    keepColor := some ⟨⟨0, 0, 0⟩, ⟨9, 9, 9⟩⟩
    validOnly := true }

/-- It is a choice the code handles. -/
theorem sampleChoice_handled : sampleChoice.Handled decimals where
  keepClasses := by intro l e; cases e; decide
  dropClasses := rfl
  keepReturns := by intro l e; cases e; decide
  dropReturns := rfl
  window := by intro w e; cases e; trivial
  keepIntensity := by
    intro k e; cases e
    exact ⟨⟨⟨0, by decide, rfl⟩, by decide⟩, ⟨⟨100, by decide, rfl⟩, by decide⟩⟩
  dropIntensity := by intro k e; cases e; exact ⟨⟨by decide, ⟨50, by decide, rfl⟩, by decide⟩, trivial⟩
  keepScanAngle := by intro k e; cases e; exact ⟨by decide, ⟨90, by decide, rfl⟩, by decide⟩
  dropScanAngle := by intro k e; cases e
  keepTime := by intro k e; cases e; exact ⟨by decide, ⟨.fin 1000, by decide +kernel, rfl⟩, by decide⟩
  dropTime := by intro k e; cases e
  returns := by rintro ⟨h, -⟩; cases h

open Las2las in
/-- The five points `casePoints` under these options: the first (35, -20) and the second (1, 2) are kept; the third is
outside the window, the others have other return numbers. -/
example : ∃ n, (do
      let fs ← getFilters ⟨.little, false⟩ decimals (sampleChoice.options true)
      let r ← Reader.make plainEnv (1, 2000) (IStream.onFile (sampleFile casePoints))
      pure (casePoints.filter fun d => fs.all fun f => asReaderFilter r.hdr.toP f d)) = Outcome.ok n ∧
    n = casePoints.take 2 :=
  Outcome.exists_of_check (by decide +kernel)

open Las2las in
/-- The hypotheses about the records are met: every record of that file has attributes, a position and a time. -/
example : ∃ r, Reader.make plainEnv (1, 2000) (IStream.onFile (sampleFile casePoints)) = .ok r ∧
    (sampleFile casePoints).length = r.hdr.dataOffset.toNat + r.hdr.pointCount.toNat * r.hdr.dataRecordLength ∧
    recordsFrom (sampleFile casePoints) r.hdr.dataOffset.toNat r.hdr.dataRecordLength 0 r.hdr.pointCount.toNat = casePoints ∧
    ∀ d ∈ casePoints, ((observe ⟨.little, false⟩ ⟨d, r.hdr.toP⟩).check fun a =>
      decide (Fl.ofBits a.time = .fin 0 ∧ a.classification = ⟨0⟩)) = true ∧
      ((Point.getX ⟨.little, false⟩ ⟨d, r.hdr.toP⟩).check fun x => match x with | .fin _ => true | _ => false) = true :=
  Outcome.exists_of_check (by decide +kernel)

/-! The options that do not do what they say. -/

private theorem bind_inv {α β : Type} {x : Outcome α} {f : α → Outcome β} {v : β} (h : (x >>= f) = .ok v) :
    ∃ a, x = .ok a ∧ f a = .ok v := by
  cases x with
  | ok a => exact ⟨a, rfl, h⟩
  | throw e => exact absurd h (by simp)
  | ub => exact absurd h (by simp)

/-- The parts of the list of filters. -/
private theorem parts {b : Build} {lx : Lexical} {o : FilterOpts} {fs : List PFilter} (h : getFilters b lx o = .ok fs) :
    (∃ g, classFilters .exclusion o.dropClasses = .ok g ∧ ∀ f ∈ g, f ∈ fs) ∧
    (∃ g, dropReturnFilters o.dropReturns o.keepReturns = .ok g ∧ ∀ f ∈ g, f ∈ fs) ∧
    (∃ g, keepValue lx.i32 i32Order scanAngle o.keepScanAngle = .ok g ∧ ∀ f ∈ g, f ∈ fs) ∧
    (limitGiven o = true → o.extent = none → Filters.bounds b .inclusion (limits o) ∈ fs) := by
  unfold getFilters at h
  obtain ⟨f1, e1, h⟩ := bind_inv h
  obtain ⟨f2, e2, h⟩ := bind_inv h
  obtain ⟨f3, e3, h⟩ := bind_inv h
  obtain ⟨f4, e4, h⟩ := bind_inv h
  obtain ⟨f5, e5, h⟩ := bind_inv h
  obtain ⟨f6, e6, h⟩ := bind_inv h
  obtain ⟨f7, e7, h⟩ := bind_inv h
  obtain ⟨f8, e8, h⟩ := bind_inv h
  obtain ⟨f9, e9, h⟩ := bind_inv h
  obtain ⟨f10, e10, h⟩ := bind_inv h
  obtain ⟨f11, e11, h⟩ := bind_inv h
  obtain ⟨f12, e12, h⟩ := bind_inv h
  obtain ⟨f13, e13, h⟩ := bind_inv h
  obtain ⟨f14, e14, h⟩ := bind_inv h
  simp only [Outcome.pure_eq, Outcome.ok.injEq] at h
  subst h
  refine ⟨⟨f2, e2, ?_⟩, ⟨f4, e4, ?_⟩, ⟨f8, e8, ?_⟩, ?_⟩
  · intro f hf; simp [hf]
  · intro f hf; simp [hf]
  · intro f hf; simp [hf]
  · intro h1 h2
    rw [h1, h2]
    simp

/-- C65 refuted for `--drop-classes`: whatever classes are listed and whatever else is asked for, no point at all is kept. -/
theorem drop_classes_drops_all {b : Build} {lx : Lexical} {o : FilterOpts} {fs : List PFilter} {l : List (BitVec 32)}
    (h : getFilters b lx o = .ok fs) (ho : o.dropClasses = some l) (hl : l ≠ []) {p : Point} {a : Attrs}
    (hp : observe b p = .ok a) : ∃ f ∈ fs, f p = .ok false := by
  obtain ⟨⟨g, e, hg⟩, -⟩ := parts h
  rw [ho] at e
  obtain ⟨ks, ek, e⟩ := bind_inv e
  simp only [Outcome.pure_eq, Outcome.ok.injEq] at e
  subst e
  have hks : ks ≠ [] := by
    cases l with
    | nil => exact absurd rfl hl
    | cons x l =>
      obtain ⟨k, -, ek⟩ := bind_inv ek
      obtain ⟨ks', -, ek⟩ := bind_inv ek
      simp only [Outcome.pure_eq, Outcome.ok.injEq] at ek
      rw [← ek]; simp
  exact ⟨_, hg _ (by simp), (exclusion_rejects_all hp).1 ks hks⟩

/-- **C65, not valid:** a value with a minus sign (a range, or a negative scan angle) cannot be dropped: the program stops with an
exception. -/
theorem drop_minus_refused {b : Build} {lx : Lexical} {s : List Char} (hs : '-' ∈ s) :
    getFilters b lx { dropIntensity := some s } = .throw .runtimeError ∧
    getFilters b lx { dropScanAngle := some s } = .throw .runtimeError ∧
    getFilters b lx { dropTime := some s } = .throw .runtimeError := by
  have h : isDualRange s = true := by simp [isDualRange, hs]
  have e : ∀ {T : Type} (cast : List Char → Option T) (o : Filters.Order T) (get : Point → Outcome T),
      dropValue cast o get (some s) = .throw .runtimeError := by
    intro T cast o get
    rw [dropValue, if_pos h]
  refine ⟨?_, ?_, ?_⟩ <;> (unfold getFilters; simp only [e]; rfl)

example : '-' ∈ "<-5".toList := by decide

/-- C65 refuted for `--drop-returns`: without `--keep-returns` the program fails; with it no point at all is kept. -/
theorem drop_returns_unusable {b : Build} {lx : Lexical} {o : FilterOpts} {l : List (BitVec 16)} (ho : o.dropReturns = some l) :
    (o.keepReturns = none → ∀ fs, getFilters b lx o ≠ .ok fs) ∧
    (∀ k fs, o.keepReturns = some k → k ≠ [] → getFilters b lx o = .ok fs →
      ∀ p a, observe b p = .ok a → ∃ f ∈ fs, f p = .ok false) := by
  refine ⟨fun hk fs h => ?_, fun k fs hk hne h p a hp => ?_⟩
  · obtain ⟨-, ⟨g, e, hg⟩, -⟩ := parts h
    rw [ho, hk] at e
    cases e
  · obtain ⟨-, ⟨g, e, hg⟩, -⟩ := parts h
    rw [ho, hk] at e
    obtain rfl := Outcome.ok.inj e
    exact ⟨_, hg _ (by simp), (exclusion_rejects_all hp).2.1 k hne⟩

/-- C65 refuted for a limit in x alone: `--minx v` (or `--maxx v`, or both) keeps no point. -/
theorem x_limits_keep_nothing {b : Build} {lx : Lexical} {o : FilterOpts} {fs : List PFilter} (h : getFilters b lx o = .ok fs)
    (hx : o.minX ≠ none ∨ o.maxX ≠ none) (hrest : o.minY = none ∧ o.maxY = none ∧ o.minZ = none ∧ o.maxZ = none ∧ o.extent = none)
    {p : Point} {x y z : Fl} (px : p.getX b = .ok x) (py : p.getY b = .ok y) (pz : p.getZ b = .ok z) :
    ∃ f ∈ fs, f p = .ok false := by
  obtain ⟨-, -, -, hl⟩ := parts h
  obtain ⟨r1, r2, r3, r4, r5⟩ := hrest
  have hg : limitGiven o = true := by
    unfold limitGiven
    rcases hx with hx | hx
    · rw [Option.ne_none_iff_isSome] at hx; simp [hx]
    · rw [Option.ne_none_iff_isSome] at hx; simp [hx]
  refine ⟨_, hl hg r5, bounds_filter_low_dimension b .inclusion _ p _ _ _ px py pz ?_⟩
  unfold limits
  rw [r1, r2, r3, r4]
  cases o.minX <;> cases o.maxX <;> simp [limit, Bounds.setMin, Bounds.setMax, Bounds.dimension, Bounds.resize]

/-- C65 refuted for limits in y or z without any in x: `--miny`, `--maxy`, `--minz`, `--maxz`, alone or together, keep no
point. -/
theorem yz_limits_keep_nothing {b : Build} {lx : Lexical} {o : FilterOpts} {fs : List PFilter} (h : getFilters b lx o = .ok fs)
    (hyz : o.minY ≠ none ∨ o.maxY ≠ none ∨ o.minZ ≠ none ∨ o.maxZ ≠ none)
    (hrest : o.minX = none ∧ o.maxX = none ∧ o.extent = none)
    {p : Point} {x y z : Fl} (px : p.getX b = .ok x) (py : p.getY b = .ok y) (pz : p.getZ b = .ok z) :
    ∃ f ∈ fs, f p = .ok false := by
  obtain ⟨-, -, -, hl⟩ := parts h
  obtain ⟨r1, r2, r5⟩ := hrest
  have hg : limitGiven o = true := by
    unfold limitGiven
    rcases hyz with hx | hx | hx | hx <;> (rw [Option.ne_none_iff_isSome] at hx; simp [hx])
  have hd : Range.default.containsValue x = false := by
    cases hc : Range.default.containsValue x with
    | false => rfl
    | true =>
      simp only [Range.containsValue, Bool.and_eq_true] at hc
      exact absurd (Fl.le_trans' hc.1 hc.2) (by decide +kernel)
  refine ⟨_, hl hg r5, ?_⟩
  obtain ⟨rs, hrs⟩ : ∃ rs, (limits o).ranges = Range.default :: rs := by
    unfold limits
    rw [r1, r2]
    cases h1 : o.minY <;> cases h2 : o.maxY <;> cases h3 : o.minZ <;> cases h4 : o.maxZ <;>
      simp [limit, Bounds.setMin, Bounds.setMax, Bounds.resize, List.replicate_succ]
    rw [h1, h2, h3, h4] at hyz; simp at hyz
  simp only [Filters.bounds, Bounds.containsPoint, px, py, pz, Outcome.bind_ok, Outcome.pure_eq, Bounds.containsXYZ, hrs]
  cases rs with
  | nil => rfl
  | cons r rs => simp [hd]

/-- `--extent` with neither four nor six numbers ends the program. -/
theorem extent_miscounted (b : Build) (lx : Lexical) {l : List Fl} (h4 : l.length ≠ 4) (h6 : l.length ≠ 6) :
    getFilters b lx { extent := some l } = .throw .runtimeError := by
  have : extentBox l = .throw .runtimeError := by
    unfold extentBox
    split
    · simp at h4
    · simp at h6
    · rfl
  unfold getFilters extentFilters
  simp only [classFilters, keepReturnFilters, dropReturnFilters, Outcome.bind_ok, this]
  rfl

/-- C65 refuted for lower limits alone: `--minx 0 --miny 0` keeps a point at the origin but not one at (1, 1); the missing
upper limits are the smallest positive double. -/
theorem lower_limits_keep_origin (b : Build) (lx : Lexical) :
    ∃ fs, getFilters b lx { minX := some (.fin 0), minY := some (.fin 0) } = .ok fs ∧
      ∀ (p : Point) (x y z : Fl), p.getX b = .ok x → p.getY b = .ok y → p.getZ b = .ok z →
        ((∀ f ∈ fs, f p = .ok true) ↔ inside (.fin 0) Range.dblMin x = true ∧ inside (.fin 0) Range.dblMin y = true) := by
  refine ⟨_, rfl, ?_⟩
  intro p x y z hx hy hz
  have e := bounds_filter_2d b .inclusion (.fin 0) (.fin 0) Range.dblMin Range.dblMin p x y z hx hy hz
  constructor
  · intro h
    have := h _ (List.mem_singleton.2 rfl)
    have e2 := e.symm.trans this
    simpa using Outcome.ok.inj e2
  · intro h f hf
    obtain rfl := List.mem_singleton.1 hf
    refine e.trans ?_
    rw [h.1, h.2]
    rfl

/-- C65 refuted for negative scan angles: `--keep-scan-angle` with a text that begins with `-`, such as `-10-10`, ends the
program; the part before the dash is not a number. -/
theorem negative_angle_fails (b : Build) {lx : Lexical} (hl : lx.i32 [] = none) {o : FilterOpts} {s : List Char}
    (ho : o.keepScanAngle = some ('-' :: s)) : ∀ fs, getFilters b lx o ≠ .ok fs := by
  intro fs h
  obtain ⟨-, -, ⟨g, e, -⟩, -⟩ := parts h
  rw [ho] at e
  have hd : isDualRange ('-' :: s) = true := by simp [isDualRange]
  simp only [keepValue, hd, if_true, List.takeWhile_cons, ne_eq, not_true, decide_false, Bool.false_eq_true, if_false] at e
  obtain ⟨f, ef, -⟩ := bind_inv e
  unfold valueFilter at ef
  obtain ⟨q, eq, -⟩ := bind_inv ef
  have hp : Filters.parseExpr (['>', '='] ++ []) = (some .ge, []) := by decide
  unfold Filters.Continuous.ofText at eq
  rw [hp] at eq
  simp only [hl] at eq
  cases eq

/-- C65 refuted for flagged points: a ground point marked synthetic has class 2 but is dropped by `--keep-classes 2`. -/
theorem flagged_point_dropped (lx : Lexical) :
    let p : Point := { groundPoint with data := groundPoint.data.set 15 0x22#8 }
    let b : Build := ⟨.little, false⟩
    ∃ a fs, observe b p = .ok a ∧ a.classification.getClass = 2 ∧ a.classification.isSynthetic = true ∧
      getFilters b lx { keepClasses := some [2] } = .ok fs ∧ ∃ f ∈ fs, f p = .ok false := by
  refine ⟨_, _, observe_eq ⟨rfl, by decide⟩, by decide +kernel, by decide +kernel, rfl, ?_⟩
  exact ⟨_, List.mem_singleton.2 rfl, by decide +kernel⟩

open Las2las in
/-- What it means for las2las: when every point is rejected the output has no points. The run shown is
`las2las --drop-classes 7` on five points, none of class 7. -/
theorem drop_classes_run : ∃ n, (do
      let fs ← getFilters ⟨.little, false⟩ ⟨fun _ => none, fun _ => none, fun _ => none⟩ { dropClasses := some [7] }
      let r ← Reader.make plainEnv (1, 2000) (IStream.onFile (sampleFile casePoints))
      let hs ← runHeaders ⟨fs.map (asReaderFilter r.hdr.toP), [], 0, 0, false⟩ .ok (sampleFile casePoints)
      pure (hs.map fun g => g.pointCount)) = Outcome.ok n ∧ n = [0] :=
  Outcome.exists_of_check (by decide +kernel)

end Kernel
end LibLAS
