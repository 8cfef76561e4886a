import Verif.Props.Txt2las
/-
C77: a scanner that meets the contract, sample runs, and what goes wrong.
-/
namespace LibLAS
open Spec Spec.Text Point

namespace Txt2las

/-! ## A scanner -/

/-- A decimal digit. -/
def digit (c : Char) : Bool := decide ('0' ≤ c) && decide (c ≤ '9')

/-- Leading minus sign. -/
def sign : List Char → Bool × List Char
  | '-' :: u => (true, u)
  | t => (false, t)

/-- The integer at the front of a text. -/
def intAt (t : List Char) : Option Int :=
  let ds := (sign t).2.takeWhile digit
  if ds = [] then none else some (if (sign t).1 then -(numeral ds : Int) else numeral ds)

/-- The digits behind a point. -/
def fraction : List Char → List Char
  | '.' :: w => w.takeWhile digit
  | _ => []

/-- The decimal at the front of a text. -/
def decAt (t : List Char) : Option Fl :=
  let i := (sign t).2.takeWhile digit
  let f := fraction ((sign t).2.dropWhile digit)
  if i = [] then none else some (Fl.ofRat ((if (sign t).1 then -1 else 1) * (numeral (i ++ f) / 10 ^ f.length : ℚ)))

/-- A simple scanner of plain numbers. -/
def plainScan : Scan where
  d := fun t => match intAt t with
    | none => .ok none
    | some v => if -2 ^ 31 ≤ v ∧ v < 2 ^ 31 then .ok (some v) else .ub
  f := fun t => (intAt t).map fun v => Fl.fin (v : ℚ)
  lf := decAt

theorem digits_all {ds : List Char} (h : ∀ c ∈ ds, '0' ≤ c ∧ c ≤ '9') : ∀ c ∈ ds, digit c = true := by
  intro c hc
  obtain ⟨h1, h2⟩ := h c hc
  simp [digit, h1, h2]

theorem take_ends {p : Char → Bool} {ds rest : List Char} (h : ∀ c ∈ ds, p c = true) (hr : ∀ c u, rest = c :: u → p c = false) :
    (ds ++ rest).takeWhile p = ds ∧ (ds ++ rest).dropWhile p = rest := by
  induction ds with
  | nil =>
    cases rest with
    | nil => exact ⟨rfl, rfl⟩
    | cons c u => have := hr c u rfl; simp [this]
  | cons a ds ih =>
    have ha := h a (by simp)
    obtain ⟨e1, e2⟩ := ih fun c hc => h c (by simp [hc])
    exact ⟨by simp [ha, e1], by simp [ha, e2]⟩

theorem stop_digit {c : Char} (h : stop c = true) : digit c = false ∧ c ≠ '.' := by
  simp [stop] at h
  rcases h with (((rfl | rfl) | rfl) | rfl) | rfl <;> decide

theorem digit_minus {c : Char} (h : digit c = true) : c ≠ '-' := by rintro rfl; exact absurd h (by decide)

theorem sign_plain {ds rest : List Char} (h : Plain ds) : sign (ds ++ rest) = (false, ds ++ rest) ∧ sign ('-' :: (ds ++ rest)) = (true, ds ++ rest) := by
  refine ⟨?_, rfl⟩
  cases ds with
  | nil => exact absurd rfl h.1.1
  | cons c u =>
    have := digit_minus (digits_all h.1.2 c (by simp))
    unfold sign
    simp only [List.cons_append]
    split
    · rename_i heq; injection heq with h1 _; exact absurd h1 this
    · rfl

theorem intAt_ok {v : ℤ} {t rest : List Char} (h : ShowsInt v t) (hr : Ends rest) : intAt (t ++ rest) = some v := by
  obtain ⟨ds, rfl, hp, hn⟩ := h
  obtain ⟨s1, s2⟩ := sign_plain (rest := rest) hp
  have ht := (take_ends (digits_all hp.1.2) fun c u e => (stop_digit (hr c u e)).1).1
  unfold intAt
  by_cases hv : v < 0
  · simp only [hv, if_true, List.singleton_append, List.cons_append, List.nil_append, s2, ht]
    rw [if_neg hp.1.1, hn]
    congr 1; omega
  · simp only [hv, if_false, List.nil_append, s1, ht, Bool.false_eq_true]
    rw [if_neg hp.1.1, hn]
    congr 1; omega

theorem decAt_ok {p : Nat} {w : ℚ} {t rest : List Char} (h : Decimal p w t) (hr : Ends rest) : decAt (t ++ rest) = some (Fl.ofRat w) := by
  obtain ⟨neg, i, f, rfl, hp, hl, hf, rfl⟩ := h
  have hfd := digits_all hf
  set tail : List Char := (if p = 0 then [] else '.' :: f) ++ rest with htail
  have e0 : (if neg = true then ['-'] else []) ++ i ++ (if p = 0 then [] else '.' :: f) ++ rest =
      (if neg = true then ['-'] else []) ++ (i ++ tail) := by rw [htail]; simp
  rw [e0]
  obtain ⟨s1, s2⟩ := sign_plain (rest := tail) hp
  have htd : ∀ c u, tail = c :: u → digit c = false := by
    intro c u e
    rw [htail] at e
    by_cases h0 : p = 0
    · rw [if_pos h0] at e; exact (stop_digit (hr c u e)).1
    · rw [if_neg h0] at e; injection e with e _; rw [← e]; decide
  obtain ⟨t1, t2⟩ := take_ends (digits_all hp.1.2) htd
  have hs : sign ((if neg = true then ['-'] else []) ++ (i ++ tail)) = (neg, i ++ tail) := by cases neg <;> simp [s1, s2]
  have hfr : fraction tail = f := by
    rw [htail]
    by_cases h0 : p = 0
    · rw [if_pos h0, List.nil_append]
      have : f = [] := List.eq_nil_of_length_eq_zero (by omega)
      subst this
      unfold fraction
      split
      · rename_i w
        exact absurd rfl (stop_digit (hr '.' w rfl)).2
      · rfl
    · rw [if_neg h0]
      exact (take_ends hfd fun c u e => (stop_digit (hr c u e)).1).1
  unfold decAt
  simp only [hs, t1, t2]
  rw [hfr, if_neg hp.1.1, hl]

/-- The scanner meets the contract of C77. -/
theorem plainScan_scans : Scans plainScan where
  d := by
    intro v t rest h h1 h2 hr
    show (match intAt (t ++ rest) with | none => _ | some v => _) = _
    rw [intAt_ok h hr]
    exact if_pos ⟨h1, h2⟩
  f := by
    intro v t rest h _ hr
    show (intAt (t ++ rest)).map (fun v => Fl.fin (v : ℚ)) = _
    rw [intAt_ok h hr]; rfl
  lf := fun h hr => decAt_ok h hr
  none_d := by
    intro c t h
    have : intAt (c :: t) = none := by
      rcases h with rfl | rfl | ⟨rfl, rfl⟩ <;> simp [intAt, sign, digit]
    show (match intAt (c :: t) with | none => _ | some v => _) = _
    rw [this]
  none_lf := by
    intro c t h
    rcases h with rfl | rfl | ⟨rfl, rfl⟩ <;> simp [plainScan, decAt, sign, digit]

/-! ## A sample -/

/-- Scale 1/4, offset 0, letters `xyzsr`. -/
def sampleOpts : Opts :=
  ⟨"xyzsr".toList, ⟨0x3FD0000000000000#64, 0x3FD0000000000000#64, 0x3FD0000000000000#64⟩, ⟨0, 0, 0⟩, 2, some (lit "me"), none, 5, 2020⟩

def sampleVars : Vars := ⟨.fin 0, .fin 0, .fin 0, .fin 0, blank, ⟨0, 0, 0⟩⟩

/-- The options are ones that can be asked for. -/
example : Asked sampleOpts :=
  ⟨by decide, by decide, by decide, by decide, by intro t h; injection h with h; subst h; decide, by intro t h; cases h⟩

theorem dec (neg : Bool) (i f : String) (h1 : (i.toList ≠ [] ∧ (∀ c ∈ i.toList, '0' ≤ c ∧ c ≤ '9')) ∧ (i.toList.head? = some '0' → i.toList = ['0']))
    (h2 : ∀ c ∈ f.toList, '0' ≤ c ∧ c ≤ '9') : Decimal f.toList.length ((if neg then -1 else 1) * (numeral (i.toList ++ f.toList) / 10 ^ f.toList.length : ℚ))
      ((if neg then ['-'] else []) ++ i.toList ++ (if f.toList.length = 0 then [] else '.' :: f.toList)) :=
  ⟨neg, i.toList, f.toList, rfl, ⟨h1.1, h1.2⟩, rfl, h2, rfl⟩

theorem fits_x {t : List Char} {p : Nat} {w : ℚ} (hd : Decimal p w t) {scale offset : Vec3 Fl} {r : BitVec 32}
    (h : descaled (Fl.ofRat w) scale.x offset.x = .ok r) : Fits scale offset 'x' t :=
  ⟨{ zeroAttrs with rawX := r }, (by unfold Possible; decide : Possible zeroAttrs), p, w, hd, h⟩

theorem fits_y {t : List Char} {p : Nat} {w : ℚ} (hd : Decimal p w t) {scale offset : Vec3 Fl} {r : BitVec 32}
    (h : descaled (Fl.ofRat w) scale.y offset.y = .ok r) : Fits scale offset 'y' t :=
  ⟨{ zeroAttrs with rawY := r }, (by unfold Possible; decide : Possible zeroAttrs), p, w, hd, h⟩

theorem fits_z {t : List Char} {p : Nat} {w : ℚ} (hd : Decimal p w t) {scale offset : Vec3 Fl} {r : BitVec 32}
    (h : descaled (Fl.ofRat w) scale.z offset.z = .ok r) : Fits scale offset 'z' t :=
  ⟨{ zeroAttrs with rawZ := r }, (by unfold Possible; decide : Possible zeroAttrs), p, w, hd, h⟩

/-- A line of columns for the sample. -/
theorem sample_columns : Columns ["1.50".toList, "-2.25".toList, "3".toList, "foo".toList, "2".toList] " 1.50,-2.25, 3\tfoo 2 rest\n".toList := by
  refine .cons (gap := " ".toList) (field := "1.50".toList) (rest := ",-2.25, 3\tfoo 2 rest\n".toList) (by decide) (by decide) (by decide) ?_ (fun _ => ⟨',', _, rfl, by decide⟩) ?_
  · intro c u h; injection h with h _; subst h; decide
  refine .cons (gap := ",".toList) (field := "-2.25".toList) (rest := ", 3\tfoo 2 rest\n".toList) (by decide) (by decide) (by decide) ?_ (fun _ => ⟨',', _, rfl, by decide⟩) ?_
  · intro c u h; injection h with h _; subst h; decide
  refine .cons (gap := ", ".toList) (field := "3".toList) (rest := "\tfoo 2 rest\n".toList) (by decide) (by decide) (by decide) ?_ (fun _ => ⟨'\t', _, rfl, by decide⟩) ?_
  · intro c u h; injection h with h _; subst h; decide
  refine .cons (gap := "\t".toList) (field := "foo".toList) (rest := " 2 rest\n".toList) (by decide) (by decide) (by decide) ?_ (fun _ => ⟨' ', _, rfl, by decide⟩) ?_
  · intro c u h; injection h with h _; subst h; decide
  refine .cons (gap := " ".toList) (field := "2".toList) (rest := " rest\n".toList) (by decide) (by decide) (by decide) ?_ (by simp) (.nil _)
  · intro c u h; injection h with h _; subst h; decide

/-- The hypotheses of `text_to_points` are met by a comment and a row. -/
example : Content (numbers sampleOpts.scale) (numbers sampleOpts.offset) sampleOpts.parse
    ["# x y z\n".toList, " 1.50,-2.25, 3\tfoo 2 rest\n".toList] [["1.50".toList, "-2.25".toList, "3".toList, "foo".toList, "2".toList]] := by
  refine .comment ⟨"# x y z".toList, rfl, by decide, by decide, by decide⟩ ⟨[], "# x y z".toList, rfl, by simp, ?_⟩ ⟨'x', _, rfl, by decide⟩
    (.row ⟨" 1.50,-2.25, 3\tfoo 2 rest".toList, rfl, by decide, by decide, by decide⟩ ⟨sample_columns, ?_⟩ .nil)
  · intro c u h; injection h with h _; subst h; exact .inl rfl
  · refine .cons (fits_x (r := 6) (dec false "1" "50" (by decide) (by decide)) (by decide +kernel)) <|
      .cons (fits_y (r := -9) (dec true "2" "25" (by decide) (by decide)) (by decide +kernel)) <|
      .cons (fits_z (r := 12) (dec false "3" "" (by decide) (by decide)) (by decide +kernel)) <|
      .cons ⟨zeroAttrs, by unfold Possible; decide, trivial⟩ <|
      .cons ⟨{ zeroAttrs with returnNumber := 2 }, by unfold Possible; decide, ⟨['2'], rfl, ⟨⟨by simp, by decide⟩, by simp⟩, rfl⟩⟩ .nil

/-! ## The bounds -/

theorem isLowest_of {s o : Fl} (hax : OrdinaryAxis s o) {raws : List (BitVec 32)} {m : BitVec 32} (hm : m ∈ raws) (h : ∀ r ∈ raws, m.toInt ≤ r.toInt) :
    isLowest (raws.map (coordinate s o)) (coordinate s o m) := by
  obtain ⟨p, q, rfl, rfl, h0, h1, h2⟩ := hax
  refine ⟨List.mem_map_of_mem hm, ?_⟩
  intro x hx
  obtain ⟨r, hr, rfl⟩ := List.mem_map.mp hx
  exact scaled_le h0 (by rw [abs_of_pos h0]; exact h1) h2 (h r hr)

theorem isHighest_of {s o : Fl} (hax : OrdinaryAxis s o) {raws : List (BitVec 32)} {m : BitVec 32} (hm : m ∈ raws) (h : ∀ r ∈ raws, r.toInt ≤ m.toInt) :
    isHighest (raws.map (coordinate s o)) (coordinate s o m) := by
  obtain ⟨p, q, rfl, rfl, h0, h1, h2⟩ := hax
  refine ⟨List.mem_map_of_mem hm, ?_⟩
  intro x hx
  obtain ⟨r, hr, rfl⟩ := List.mem_map.mp hx
  exact scaled_le h0 (by rw [abs_of_pos h0]; exact h1) h2 (h r hr)

/-- **C77.** When no stored coordinate of the axis is negative, the header's bounds are the lowest and the highest coordinate; for the
highest it is enough that one is not negative. -/
theorem bounds_exact {s o : Fl} (hax : OrdinaryAxis s o) {raws : List (BitVec 32)} {lo hi : BitVec 64} (h : BoundsAt s o raws lo hi) :
    ((∀ r ∈ raws, 0 ≤ r.toInt) → isLowest (raws.map (coordinate s o)) (Fl.ofBits lo)) ∧
    ((∃ r ∈ raws, 0 ≤ r.toInt) → isHighest (raws.map (coordinate s o)) (Fl.ofBits hi)) := by
  obtain ⟨⟨m, hm, hl, e1⟩, ⟨n, hn, hh, e2⟩⟩ := h
  constructor
  · intro h0
    rw [e1, bound, if_neg (by have := h0 m hm; omega)]
    exact isLowest_of hax hm hl
  · rintro ⟨r, hr, h0⟩
    rw [e2, bound, if_neg (by have := hh r hr; omega)]
    exact isHighest_of hax hn hh

/-- Otherwise the lower bound in the header belongs to the integer above the lowest: the point lies outside the header's bounds. -/
theorem bounds_wrong {s o : Fl} {raws : List (BitVec 32)} {lo hi : BitVec 64} (h : BoundsAt s o raws lo hi) (hneg : ∃ r ∈ raws, r.toInt < 0) :
    ∃ m ∈ raws, (∀ r ∈ raws, m.toInt ≤ r.toInt) ∧ Fl.ofBits lo = coordinate s o (m + 1) := by
  obtain ⟨⟨m, hm, hl, e1⟩, -⟩ := h
  obtain ⟨r, hr, h0⟩ := hneg
  refine ⟨m, hm, hl, ?_⟩
  rw [e1, bound, if_pos (by have := hl r hr; omega)]

/-- What a run on a text gives. -/
def run (o : Opts) (t : String) : Outcome (List Byte) := main plainEnv (1, 2000) plainScan ⟨.little, false⟩ sampleVars o t.toList

/-- In a whole run: the only point has y = -2.25 (the integer -9), and the header says that y begins, and ends, at -2. -/
theorem negative_bound_lost : ((run sampleOpts "1.5 -2.25 3 foo 2\n").check fun f =>
    (Reader.make plainEnv (1, 2000) (IStream.onFile f)).check fun r =>
      Fl.ofBits r.hdr.min.y == .fin (-2) && Fl.ofBits r.hdr.max.y == .fin (-2) && Fl.ofBits r.hdr.min.x == .fin (3 / 2) &&
      r.readNext.2 == .ok true && (getY ⟨.little, false⟩ ⟨r.readNext.1.point, r.hdr.toP⟩ == .ok (.fin (-9 / 4)))) = true := by
  decide +kernel

/-! ## What goes wrong -/

/-- A text without a line that can be parsed makes no file: the program ends with an error. -/
theorem only_comments (env : Env) (today : BitVec 16 × BitVec 16) {sc : Scan} (hsc : Scans sc) (b : Build) (junk : Vars) {o : Opts}
    (ho : Asked o) {ls : List (List Char)} (hc : Content (numbers o.scale) (numbers o.offset) o.parse ls []) :
    main env today sc b junk o ls.flatten = .throw .runtimeError := by
  obtain ⟨n, hless, htail⟩ := parseLess_ok ho.x
  obtain ⟨s, infos, e1, hk, hinf⟩ := firstPass_ok hsc (b := b) ho.x ho.y ho.z ho.once htail hc []
    ⟨false, junk, 0, ⟨.fin 0, .fin 0, .fin 0⟩, ⟨.fin 0, .fin 0, .fin 0⟩, List.replicate 8 0⟩
    ⟨by simp, by simp, by simp, by simp, by simp, by intro k hk; interval_cases k <;> rfl, rfl⟩
  cases hinf
  have hs : s.started = false := by
    rw [← Bool.not_eq_true, hk.started]; simp
  unfold main
  rw [hless]
  simp only [Outcome.bind_ok, lines_content hc, e1]
  rw [if_pos hs]

/-- Letters without any of `x`, `y`, `z`, `r`: the program reads before its string, whatever the text. -/
theorem no_coordinates (env : Env) (today : BitVec 16 × BitVec 16) (sc : Scan) (b : Build) (junk : Vars) {o : Opts}
    (h : ∀ c ∈ ['x', 'y', 'z', 'r'], c ∉ o.parse) (text : List Char) : main env today sc b junk o text = .ub := by
  have : parseLess o.parse = .ub := by
    unfold parseLess
    have e : (o.parse.map fun c => if c = 'x' ∨ c = 'y' ∨ c = 'z' ∨ c = 'r' then c else 's') = List.replicate o.parse.length 's' := by
      rw [List.eq_replicate_iff]
      refine ⟨by simp, ?_⟩
      intro c hc
      obtain ⟨a, ha, rfl⟩ := List.mem_map.mp hc
      rw [if_neg]
      rintro (rfl | rfl | rfl | rfl) <;> exact h _ (by decide) ha
    simp only [e]
    simp
  unfold main
  rw [this]
  rfl

example : ∀ c ∈ ['x', 'y', 'z', 'r'], c ∉ "itc".toList := by decide

/-- An identifier of more than 30 characters overflows its buffer. -/
theorem long_identifier : run { sampleOpts with systemId := some (List.replicate 31 65#8) } "1.5 2.25 3 foo 2\n" = .ub := by
  decide +kernel

/-- Letters txt2las does not know, such as `M` and `C` of las2txt, take no column: what follows is read from the wrong one. Here
`xMyz` reads y and z from the columns of `M` and y. -/
theorem unknown_letter_shifts : ((run { sampleOpts with parse := "xMyz".toList } "1 2 3 4\n").check fun f =>
    (Reader.make plainEnv (1, 2000) (IStream.onFile f)).check fun r =>
      (getY ⟨.little, false⟩ ⟨r.readNext.1.point, r.hdr.toP⟩ == .ok (.fin 2)) && (getZ ⟨.little, false⟩ ⟨r.readNext.1.point, r.hdr.toP⟩ == .ok (.fin 3))) = true := by
  decide +kernel

/-- A line that is too short for the letters behind the coordinates counts in the bounds and by return although it makes no point. -/
theorem short_line_counted : ((run { sampleOpts with parse := "xyzri".toList } "1 1 1 1 7\n9 9 9 1\n").check fun f =>
    (Reader.make plainEnv (1, 2000) (IStream.onFile f)).check fun r =>
      r.hdr.pointCount == 1 && Fl.ofBits r.hdr.max.x == .fin 9 && r.hdr.byReturn.getD 0 0 == 2) = true := by
  decide +kernel

end Txt2las
end LibLAS
