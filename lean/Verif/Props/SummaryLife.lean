import Verif.Lemmas.SummaryLife
/-
C96: summaries that are copied, assigned, destroyed, or outlive the reader of their points.
-/
namespace LibLAS.SummaryLife

/-- Where the extremes of a summary refer to once there are points. -/
private def homeOf (i k : Nat) : Option PHeader → Home
  | some _ => .summary i
  | none => .source k

/-- What is known of a summary that nothing has remade. -/
private def Content (b : Build) (w : World) (i : Nat) (given : Option PHeader) (o : Obj) : List (Nat × Point) → Prop
  | [] => o.val = Summary.start given ∧ o.home = given.map (fun _ => .summary i)
  | (k, p) :: r => ∃ s e, Summary.addAll b (((k, p) :: r).map Prod.snd) (Summary.start given) = .ok s ∧
      o.val = { s with header := given.map (adopt p) } ∧ s.ext = some e ∧ On ((given.map (adopt p)).getD p.hdr) e ∧
      o.home = some (homeOf i k given) ∧ (w.sources[k]? = some (some p.hdr) ∨ w.sources[k]? = some none)

private def Kept (b : Build) (w : World) (i : Nat) (given : Option PHeader) (l : List (Nat × Point)) : Prop :=
  ∃ o, w.objs[i]? = some (some o) ∧ Content b w i given o l

private theorem start_facts (g : Option PHeader) : (Summary.start g).ext = none ∧ (Summary.start g).header = g := by
  cases g <;> exact ⟨rfl, rfl⟩

private theorem source_step {b : Build} {w w' : World} {op : Op} {k : Nat} {g : PHeader}
    (h : w.sources[k]? = some (some g) ∨ w.sources[k]? = some none) (hs : step b w op = .ok w') :
    w'.sources[k]? = some (some g) ∨ w'.sources[k]? = some none := by
  rcases h with h | h
  · by_cases hc : op = .close k
    · subst hc
      right
      cases hs
      have hlt : k < w.sources.length := by
        by_contra hn
        rw [List.getElem?_eq_none (by omega)] at h
        cases h
      show (w.sources.set k none)[k]? = _
      simp [hlt]
    · exact .inl (step_source h hc hs)
  · exact .inr (step_closed h hs)

private theorem content_step {b : Build} {w w' : World} {op : Op} {i : Nat} {g : Option PHeader} {o : Obj}
    {l : List (Nat × Point)} (h : Content b w i g o l) (hs : step b w op = .ok w') : Content b w' i g o l := by
  cases l with
  | nil => exact h
  | cons x r =>
    obtain ⟨s, e, h1, h2, h3, h4, h5, h6⟩ := h
    exact ⟨s, e, h1, h2, h3, h4, h5, source_step h6 hs⟩

private theorem kept_step {b : Build} {w w' : World} {op : Op} {i : Nat} {g : Option PHeader} {l : List (Nat × Point)}
    (h : Kept b w i g l) (hr : op.remakes i = false) (hs : step b w op = .ok w') : Kept b w' i g (l ++ addedTo i [op]) := by
  obtain ⟨o, ho, hc⟩ := h
  by_cases ha : ∃ k p, op = .add i k p
  · obtain ⟨k, p, rfl⟩ := ha
    have hadd : addedTo i [Op.add i k p] = [(k, p)] := by simp [addedTo]
    rw [hadd]
    have hs0 := hs
    obtain ⟨hsrc, o', s, s', h1, h2, h3, rfl⟩ := step_add hs
    rw [ho] at h1
    cases h1
    refine ⟨_, put_same (lt_of_get ho), ?_⟩
    cases l with
    | nil =>
      obtain ⟨hv, hh⟩ := hc
      have hn : o.val.ext = none := by rw [hv]; exact (start_facts g).1
      have hg : o.val.header = g := by rw [hv]; exact (start_facts g).2
      have hso : s = o.val := by
        unfold World.load at h2
        rw [hn] at h2
        cases h2; rfl
      subst hso
      obtain ⟨hh', e, he, hon⟩ := add_first hn h3
      rw [hg] at hon hh'
      refine ⟨s', e, ?_, ?_, he, hon, ?_, .inl hsrc⟩
      · simp only [List.map_cons, List.map_nil, Summary.addAll]
        rw [← hv, h3]; rfl
      · unfold Obj.added
        rw [hn, hg]
        cases g with
        | none => show s' = { s' with header := _ }; rw [Option.map_none, ← hh']
        | some g => rfl
      · unfold Obj.added
        rw [hn, hg]
        cases g <;> rfl
    | cons x r =>
      obtain ⟨k0, p0⟩ := x
      have hc' := content_step hc hs0
      obtain ⟨t, e, h4, hv, he, hon, hh, hsr⟩ := hc
      have hn : o.val.ext = some e := by rw [hv]; exact he
      have hload : s = o.val := by
        unfold World.load at h2
        rw [hn] at h2
        obtain ⟨h0, hx, h2⟩ := bind_eq_ok h2
        cases h2
        have : h0 = (g.map (adopt p0)).getD p0.hdr := by
          unfold World.extHeader at hx
          rw [hh] at hx
          cases g with
          | some g' =>
            simp only [homeOf, World.headerAt, ho] at hx
            rw [hv] at hx
            cases hx; rfl
          | none =>
            simp only [homeOf, World.headerAt] at hx
            rcases hsr with hsr | hsr
            · rw [hsr] at hx; cases hx; rfl
            · rw [hsr] at hx; cases hx
        rw [this, hon.rehome]
        have : o.val.ext = some e := hn
        rw [← this]
      subst hload
      rw [hv] at h3
      obtain ⟨t', h5, rfl⟩ := add_header he h3
      obtain ⟨hh', e', he', hon'⟩ := add_later he hon h5
      obtain ⟨_, _, _, _, _, _, _, hsr'⟩ := hc'
      refine ⟨t', e', ?_, ?_, he', hon', ?_, hsr'⟩
      · show Summary.addAll b (((k0, p0) :: r ++ [(k, p)]).map Prod.snd) _ = _
        rw [List.map_append, addAll_append, h4]
        simp only [List.map_cons, List.map_nil, Outcome.bind_ok, Summary.addAll, h5]
      · unfold Obj.added; rw [hn]
      · unfold Obj.added; rw [hn]; exact hh
  · have hadd : addedTo i [op] = [] := by
      unfold addedTo
      cases op with
      | add j k p =>
        by_cases hj : j = i
        · exact absurd ⟨k, p, by rw [hj]⟩ ha
        · simp [hj]
      | _ => rfl
    rw [hadd, List.append_nil]
    exact ⟨o, step_other ho hr (fun k p e => ha ⟨k, p, e⟩) hs, content_step hc hs⟩

private theorem addedTo_cons (i : Nat) (op : Op) (ops : List Op) : addedTo i (op :: ops) = addedTo i [op] ++ addedTo i ops := by
  rw [← List.singleton_append]
  exact List.filterMap_append

private theorem kept_run {b : Build} {i : Nat} {g : Option PHeader} : ∀ (ops : List Op) {w w' : World} {l : List (Nat × Point)},
    Kept b w i g l → (∀ op ∈ ops, op.remakes i = false) → run b ops w = .ok w' → Kept b w' i g (l ++ addedTo i ops)
  | [], w, w', l, hk, _, h => by cases h; simpa [addedTo] using hk
  | op :: ops, w, w', l, hk, hr, h => by
    obtain ⟨w1, h1, h2⟩ := bind_eq_ok h
    have := kept_run ops (kept_step hk (hr op (by simp)) h1) (fun x hx => hr x (by simp [hx])) h2
    rwa [List.append_assoc, ← addedTo_cons] at this

private theorem kept_made {b : Build} {w w' : World} {g : Option PHeader} (h : run b (making w.objs.length g) w = .ok w') :
    Kept b w' w.objs.length g [] := by
  cases g with
  | none =>
    cases h
    exact ⟨⟨Summary.new, none⟩, by simp, rfl, rfl⟩
  | some g =>
    have he : ({ w with objs := w.objs ++ [some ⟨Summary.new, none⟩] } : World).get w.objs.length = .ok ⟨Summary.new, none⟩ :=
      get_of (by simp)
    simp only [making, run, step, Outcome.bind_ok, he, Outcome.pure_eq] at h
    cases h
    exact ⟨_, put_same (by simp), rfl, rfl⟩

private theorem kept_whole {b : Build} {w w' : World} {g : Option PHeader} {ops : List Op}
    (hr : ∀ op ∈ ops, op.remakes w.objs.length = false) (h : run b (making w.objs.length g ++ ops) w = .ok w') :
    Kept b w' w.objs.length g (addedTo w.objs.length ops) := by
  rw [run_append] at h
  obtain ⟨w1, h1, h2⟩ := bind_eq_ok h
  simpa using kept_run ops (kept_made h1) hr h2

private theorem report_of {w : World} {i : Nat} {o : Obj} {h : PHeader} (ho : w.objs[i]? = some (some o))
    (hh : w.extHeader o = .ok h) : report w i = .ok { o.val with ext := some (rehome h (o.val.ext.getD (blanks h))) } := by
  unfold report
  rw [get_of ho, Outcome.bind_ok, hh]; rfl

private theorem report_ub {w : World} {i : Nat} {o : Obj} (ho : w.objs[i]? = some (some o))
    (hh : w.extHeader o = .ub) : report w i = .ub := by
  unfold report
  rw [get_of ho, Outcome.bind_ok, hh]; rfl

private theorem source_run {b : Build} {k : Nat} {g : PHeader} : ∀ (ops : List Op) {w w' : World}, .close k ∉ ops →
    w.sources[k]? = some (some g) → run b ops w = .ok w' → w'.sources[k]? = some (some g)
  | [], w, w', _, hx, h => by cases h; exact hx
  | op :: ops, w, w', hc, hx, h => by
    obtain ⟨w1, h1, h2⟩ := bind_eq_ok h
    exact source_run ops (fun hm => hc (by simp [hm])) (step_source hx (fun e => hc (by simp [e])) h1) h2

/-- Readers whose points were added and that are not closed are open. -/
private theorem added_open {b : Build} {i k : Nat} {p : Point} : ∀ (ops : List Op) {w w' : World}, .close k ∉ ops →
    (k, p) ∈ addedTo i ops → run b ops w = .ok w' → w'.sources[k]? = some (some p.hdr)
  | [], w, w', _, hm, h => by simp [addedTo] at hm
  | op :: ops, w, w', hc, hm, h => by
    obtain ⟨w1, h1, h2⟩ := bind_eq_ok h
    rw [addedTo_cons, List.mem_append] at hm
    rcases hm with hm | hm
    · have : op = .add i k p := by
        unfold addedTo at hm
        cases op with
        | add j k' p' =>
          by_cases hj : j = i
          · simp only [hj, List.filterMap_cons, if_pos, List.filterMap_nil, List.mem_singleton, Prod.mk.injEq] at hm
            obtain ⟨rfl, rfl⟩ := hm
            rw [hj]
          · simp [hj] at hm
        | _ => simp at hm
      subst this
      refine source_run ops (fun hm => hc (by simp [hm])) ?_ h2
      exact step_source (step_add h1).1 (by simp) h1
    · exact added_open ops (fun hm => hc (by simp [hm])) hm h2

/-- C96: a summary that is not remade reports what its points say (`Summary.addAll`, exact by `summary_exact_partial`),
whatever happens to other summaries, its own copies included. With a header given, the readers of the points may even be
closed before the report; without, there must be a point, and the readers must stay open. -/
theorem summary_reports {b : Build} {w w' : World} (given : Option PHeader) (ops : List Op)
    (hr : ∀ op ∈ ops, op.remakes w.objs.length = false)
    (hs : given = none → addedTo w.objs.length ops ≠ [] ∧ ∀ e ∈ addedTo w.objs.length ops, .close e.1 ∉ ops)
    (h : run b (making w.objs.length given ++ ops) w = .ok w') :
    ∃ s r, Summary.addAll b ((addedTo w.objs.length ops).map Prod.snd) (Summary.start given) = .ok s ∧
      report w' w.objs.length = .ok r ∧ SameCounts r s ∧
      (addedTo w.objs.length ops ≠ [] → r.ext = s.ext) ∧
      (addedTo w.objs.length ops = [] → r.ext = given.map blanks) := by
  obtain ⟨o, ho, hc⟩ := kept_whole hr h
  rw [run_append] at h
  obtain ⟨w1, _, h2⟩ := bind_eq_ok h
  cases hl : addedTo w.objs.length ops with
  | nil =>
    rw [hl] at hc
    obtain ⟨hv, hh⟩ := hc
    cases given with
    | none => exact absurd hl (hs rfl).1
    | some g =>
      have hx : w'.extHeader o = .ok g := by
        unfold World.extHeader
        rw [hh]
        simp only [Option.map_some, World.headerAt, ho, hv]
        rfl
      refine ⟨_, _, rfl, report_of ho hx, ?_, fun h => absurd rfl h, fun _ => ?_⟩
      · rw [hv]; exact ⟨rfl, rfl, rfl, rfl, rfl, rfl, rfl⟩
      · rw [hv]; rfl
  | cons x r =>
    obtain ⟨k, p⟩ := x
    rw [hl] at hc
    obtain ⟨s, e, h1, hv, he, hon, hh, hsr⟩ := hc
    have hx : w'.extHeader o = .ok ((given.map (adopt p)).getD p.hdr) := by
      unfold World.extHeader
      rw [hh]
      cases given with
      | some g => simp only [homeOf, World.headerAt, ho, hv]; rfl
      | none =>
        have := added_open (i := w.objs.length) (p := p) ops ((hs rfl).2 (k, p) (by rw [hl]; simp)) (by rw [hl]; simp) h2
        simp only [homeOf, World.headerAt, this]
        rfl
    refine ⟨s, _, h1, report_of ho hx, ?_, fun _ => ?_, fun h => by cases h⟩
    · rw [hv]; exact ⟨rfl, rfl, rfl, rfl, rfl, rfl, rfl⟩
    · rw [hv]
      show some (rehome _ (s.ext.getD _)) = s.ext
      rw [he, Option.getD_some, hon.rehome]

/-- C96: a summary without a header of its own that has points reports nothing any more once the reader of its first
point is closed. -/
theorem closed_reader_undefined {b : Build} {w w' : World} (ops : List Op) {k : Nat} {p : Point} {r : List (Nat × Point)}
    (hr : ∀ op ∈ ops, op.remakes w.objs.length = false) (hl : addedTo w.objs.length ops = (k, p) :: r)
    (h : run b (.new :: (ops ++ [.close k])) w = .ok w') : report w' w.objs.length = .ub := by
  have hr' : ∀ op ∈ ops ++ [.close k], op.remakes w.objs.length = false := by
    intro op hop
    rcases List.mem_append.1 hop with hop | hop
    · exact hr op hop
    · simp only [List.mem_singleton] at hop; subst hop; rfl
  have hl' : addedTo w.objs.length (ops ++ [.close k]) = (k, p) :: r := by
    unfold addedTo at hl ⊢
    rw [List.filterMap_append, hl]; simp
  obtain ⟨o, ho, hc⟩ := kept_whole (g := none) hr' h
  rw [hl'] at hc
  obtain ⟨s, e, _, _, _, _, hh, hsr⟩ := hc
  refine report_ub ho ?_
  unfold World.extHeader
  rw [hh]
  have hcl : w'.sources[k]? = some none := by
    rw [← List.cons_append, run_append] at h
    obtain ⟨w1, h1, h2⟩ := bind_eq_ok h
    obtain ⟨w2, h3, h4⟩ := bind_eq_ok h2
    cases h4
    cases h3
    have : k < w1.sources.length := by
      rcases hsr with hsr | hsr
      all_goals
        by_contra hn
        rw [show (({ w1 with sources := w1.sources.set k none } : World).sources) = w1.sources.set k none from rfl,
          List.getElem?_eq_none (by simp; omega)] at hsr
        cases hsr
    show (w1.sources.set k none)[k]? = _
    simp [this]
  simp only [homeOf, World.headerAt, hcl]

private theorem add_ext {b : Build} {s s' : Summary} {p : Point} (h : s.addPoint b p = .ok s') : s'.ext.isSome = true := by
  obtain ⟨⟨e, ht, hc⟩, hp, h⟩ := bind_eq_ok h
  obtain ⟨e1, h1, h⟩ := bind_eq_ok h
  obtain ⟨_, _, h⟩ := bind_eq_ok h
  obtain ⟨_, _, h⟩ := bind_eq_ok h
  obtain ⟨_, _, h⟩ := bind_eq_ok h
  obtain ⟨_, _, h⟩ := bind_eq_ok h
  obtain ⟨_, _, h⟩ := bind_eq_ok h
  obtain ⟨_, _, h⟩ := bind_eq_ok h
  cases h
  rfl

/-- With points, or without further points, the extremes keep referring to where they did. -/
private theorem home_run {b : Build} {j : Nat} {hm : Home} : ∀ (ops : List Op) {w w' : World} {o : Obj},
    w.objs[j]? = some (some o) → o.home = some hm → (o.val.ext.isSome = true ∨ addedTo j ops = []) →
    (∀ op ∈ ops, op.remakes j = false) → run b ops w = .ok w' →
    ∃ o', w'.objs[j]? = some (some o') ∧ o'.home = some hm ∧ (o.val.ext.isSome = true → o'.val.ext.isSome = true)
  | [], w, w', o, ho, hh, _, _, h => by cases h; exact ⟨o, ho, hh, id⟩
  | op :: ops, w, w', o, ho, hh, hp, hr, h => by
    obtain ⟨w1, h1, h2⟩ := bind_eq_ok h
    rw [addedTo_cons] at hp
    by_cases ha : ∃ k p, op = .add j k p
    · obtain ⟨k, p, rfl⟩ := ha
      have hsome : o.val.ext.isSome = true := hp.resolve_right (by simp [addedTo])
      obtain ⟨_, o', s, s', h3, h4, h5, rfl⟩ := step_add h1
      rw [ho] at h3
      cases h3
      obtain ⟨e, he⟩ := Option.isSome_iff_exists.1 hsome
      have hadd : o.added j k p s' = { o with val := s' } := by unfold Obj.added; rw [he]
      rw [hadd] at h2
      obtain ⟨o', q1, q2, q3⟩ := home_run ops (o := { o with val := s' }) (put_same (lt_of_get ho)) hh (.inl (add_ext h5))
        (fun x hx => hr x (by simp [hx])) h2
      exact ⟨o', q1, q2, fun _ => q3 (add_ext h5)⟩
    · have hadd : addedTo j [op] = [] := by
        unfold addedTo
        cases op with
        | add j' k p =>
          by_cases hj : j' = j
          · exact absurd ⟨k, p, by rw [hj]⟩ ha
          · simp [hj]
        | _ => rfl
      rw [hadd, List.nil_append] at hp
      exact home_run ops (step_other ho (hr op (by simp)) (fun k p e => ha ⟨k, p, e⟩) h1) hh hp
        (fun x hx => hr x (by simp [hx])) h2

/-- With a header given, the extremes refer to the summary itself. -/
private theorem kept_home {b : Build} {w : World} {i : Nat} {g : PHeader} {l : List (Nat × Point)} (h : Kept b w i (some g) l) :
    ∃ o, w.objs[i]? = some (some o) ∧ o.home = some (.summary i) ∧ (l ≠ [] → o.val.ext.isSome = true) := by
  obtain ⟨o, ho, hc⟩ := h
  cases l with
  | nil => exact ⟨o, ho, hc.2, fun h => absurd rfl h⟩
  | cons x r =>
    obtain ⟨s, e, _, hv, he, _, hh, _⟩ := hc
    exact ⟨o, ho, hh, fun _ => by rw [hv]; show s.ext.isSome = true; rw [he]; rfl⟩

private theorem copy_run {b : Build} {w w' : World} {i : Nat} {o : Obj} {hm : Home} (ho : w.objs[i]? = some (some o))
    (hh : o.home = some hm) (h : step b w (.copy i) = .ok w') :
    w' = { w with objs := w.objs ++ [some o] } ∧ w'.objs[w.objs.length]? = some (some o) := by
  obtain ⟨o', h1, h⟩ := bind_eq_ok h
  have h1 := get_ok h1
  rw [ho] at h1
  cases h1
  obtain ⟨c, h2, h⟩ := bind_eq_ok h
  unfold Obj.copied at h2
  rw [hh] at h2
  cases h2
  cases h
  exact ⟨rfl, by simp⟩

/-- C96: a copy of a summary that had been given a header does not survive it: after the original has gone, the copy
cannot be reported, whatever was done in between with both and with others, unless the copy was remade (or was taken
before the first point and then given points of its own). -/
theorem copy_needs_original {b : Build} {w w1 w' : World} (g : PHeader) (ops1 ops2 ops3 : List Op)
    (hr1 : ∀ op ∈ ops1, op.remakes w.objs.length = false)
    (h1 : run b (making w.objs.length (some g) ++ ops1) w = .ok w1)
    (hr2 : ∀ op ∈ ops2 ++ ops3, op.remakes w1.objs.length = false)
    (hp : addedTo w.objs.length ops1 ≠ [] ∨ addedTo w1.objs.length (ops2 ++ ops3) = [])
    (h2 : run b (.copy w.objs.length :: (ops2 ++ .destroy w.objs.length :: ops3)) w1 = .ok w') :
    report w' w1.objs.length = .ub := by
  obtain ⟨o, ho, hh, hx⟩ := kept_home (kept_whole hr1 h1)
  have hlt := lt_of_get ho
  obtain ⟨w2, hc, h2⟩ := bind_eq_ok h2
  obtain ⟨-, hj⟩ := copy_run ho hh hc
  have hadd : ∀ xs ys : List Op, addedTo w1.objs.length (xs ++ ys) = addedTo w1.objs.length xs ++ addedTo w1.objs.length ys :=
    fun xs ys => List.filterMap_append
  have hp' : o.val.ext.isSome = true ∨ addedTo w1.objs.length (ops2 ++ .destroy w.objs.length :: ops3) = [] := by
    rcases hp with hp | hp
    · exact .inl (hx hp)
    · right
      rw [hadd] at hp ⊢
      rw [addedTo_cons]
      simpa [addedTo] using hp
  have hr : ∀ op ∈ ops2 ++ .destroy w.objs.length :: ops3, op.remakes w1.objs.length = false := by
    intro op hop
    rcases List.mem_append.1 hop with hop | hop
    · exact hr2 op (by simp [hop])
    · rcases List.mem_cons.1 hop with rfl | hop
      · simp only [Op.remakes, beq_eq_false_iff_ne]; omega
      · exact hr2 op (by simp [hop])
  obtain ⟨o', ho', hh', _⟩ := home_run _ hj hh hp' hr h2
  refine report_ub ho' ?_
  unfold World.extHeader
  rw [hh']
  rw [run_append] at h2
  obtain ⟨w3, _, h2⟩ := bind_eq_ok h2
  obtain ⟨w4, h4, h5⟩ := bind_eq_ok h2
  obtain ⟨o4, h6, h4⟩ := bind_eq_ok h4
  cases h4
  have hd := run_dead ops3 (put_same (lt_of_get (get_ok h6))) h5
  simp only [World.headerAt, hd]

/-- C96: and while the original is there, the copy follows it: when the original is given another header, the extremes of
the copy are read with it. -/
theorem copy_follows_original {b : Build} {w w1 w2 : World} (g g2 : PHeader) (ops : List Op)
    (hr : ∀ op ∈ ops, op.remakes w.objs.length = false) (hp : addedTo w.objs.length ops ≠ [])
    (h1 : run b (making w.objs.length (some g) ++ ops) w = .ok w1)
    (h2 : run b [.copy w.objs.length, .setHeader w.objs.length g2] w1 = .ok w2) :
    ∃ r r', report w1 w.objs.length = .ok r ∧ report w2 w1.objs.length = .ok r' ∧ SameCounts r' r ∧
      r'.ext = r.ext.map (rehome g2) := by
  obtain ⟨s, r, _, hrep, _, _⟩ := summary_reports (some g) ops hr (fun h => by cases h) h1
  obtain ⟨o, ho, hh, hx⟩ := kept_home (kept_whole hr h1)
  have hlt := lt_of_get ho
  obtain ⟨w3, hc, h2⟩ := bind_eq_ok h2
  obtain ⟨hw3, hj⟩ := copy_run ho hh hc
  obtain ⟨w4, h4, h5⟩ := bind_eq_ok h2
  cases h5
  obtain ⟨o3, h6, h4⟩ := bind_eq_ok h4
  cases h4
  have hi3 : w3.objs[w.objs.length]? = some (some o3) := get_ok h6
  have hext : (w3.put w.objs.length (some (o3.setHeader w.objs.length g2))).extHeader o = .ok g2 := by
    unfold World.extHeader
    rw [hh]
    simp only [World.headerAt, put_same (lt_of_get hi3), Obj.setHeader]
  have hj' : (w3.put w.objs.length (some (o3.setHeader w.objs.length g2))).objs[w1.objs.length]? = some (some o) := by
    rw [put_other (by omega)]; exact hj
  refine ⟨r, _, hrep, report_of hj' hext, ?_, ?_⟩
  all_goals
    unfold report at hrep
    rw [get_of ho, Outcome.bind_ok] at hrep
    obtain ⟨h0, _, hrep⟩ := bind_eq_ok hrep
    cases hrep
  · exact ⟨rfl, rfl, rfl, rfl, rfl, rfl, rfl⟩
  · obtain ⟨e, he⟩ := Option.isSome_iff_exists.1 (hx hp)
    simp only [he, Option.getD_some, Option.map_some]
    rfl

/-- Extremes only refer to objects that exist or existed. -/
private def Refs (w : World) : Prop :=
  ∀ (i : Nat) (o : Obj) (k : Nat), w.objs[i]? = some (some o) → o.home = some (.summary k) → k < w.objs.length

private theorem refs_append {w : World} {o : Obj} (h : Refs w) (hk : ∀ k, o.home = some (.summary k) → k < w.objs.length) :
    Refs { w with objs := w.objs ++ [some o] } := by
  intro i o' k hi hh
  show k < (w.objs ++ [some o]).length
  rw [List.length_append]
  by_cases hlt : i < w.objs.length
  · have hi' : w.objs[i]? = some (some o') := by
      rw [← hi]; show _ = (w.objs ++ _)[i]?; rw [List.getElem?_append_left hlt]
    have := h i o' k hi' hh
    omega
  · have hi' : (w.objs ++ [some o])[i]? = some (some o') := hi
    rw [List.getElem?_append_right (by omega)] at hi'
    have : i - w.objs.length = 0 := by
      by_contra hn
      rw [List.getElem?_eq_none (by simp; omega)] at hi'
      cases hi'
    rw [this] at hi'
    cases hi'
    have := hk k hh
    omega

private theorem refs_put {w : World} {i : Nat} {x : Option Obj} (h : Refs w)
    (hk : ∀ o k, x = some o → o.home = some (.summary k) → k < w.objs.length) : Refs (w.put i x) := by
  intro j o k hj hh
  have hl : (w.put i x).objs.length = w.objs.length := by simp [World.put]
  rw [hl]
  by_cases hij : i = j
  · subst hij
    have : i < w.objs.length := by rw [← hl]; exact lt_of_get hj
    rw [put_same this] at hj
    exact hk o k (by simpa using hj) hh
  · rw [put_other hij] at hj
    exact h j o k hj hh

private theorem refs_step {b : Build} {w w' : World} {op : Op} (h : Refs w) (hs : step b w op = .ok w') : Refs w' := by
  cases op with
  | source g => cases hs; exact h
  | close k => cases hs; exact h
  | new => cases hs; exact refs_append h (fun k hk => by cases hk)
  | setHeader j g =>
    obtain ⟨o, h1, hs⟩ := bind_eq_ok hs
    cases hs
    refine refs_put h ?_
    rintro o k rfl' hk
    cases rfl'
    cases hk
    exact lt_of_get (get_ok h1)
  | add j k p =>
    obtain ⟨_, o, s, s', h1, _, _, rfl⟩ := step_add hs
    refine refs_put h ?_
    rintro o' k' e hk
    cases e
    unfold Obj.added at hk
    split at hk
    · exact h j o k' h1 hk
    · split at hk
      · cases hk; exact lt_of_get h1
      · cases hk
  | copy j =>
    obtain ⟨o, h1, hs⟩ := bind_eq_ok hs
    obtain ⟨c, h2, hs⟩ := bind_eq_ok hs
    cases hs
    unfold Obj.copied at h2
    split at h2
    · cases h2
    · cases h2; exact refs_append h (fun k hk => h j o k (get_ok h1) hk)
  | assign j k =>
    obtain ⟨_, _, hs⟩ := bind_eq_ok hs
    obtain ⟨o, h1, hs⟩ := bind_eq_ok hs
    split at hs
    · cases hs; exact h
    · obtain ⟨c, h2, hs⟩ := bind_eq_ok hs
      cases hs
      unfold Obj.copied at h2
      split at h2
      · cases h2
      · cases h2
        refine refs_put h ?_
        rintro o' k' e hk
        cases e
        exact h k o k' (get_ok h1) hk
  | destroy j =>
    obtain ⟨_, _, hs⟩ := bind_eq_ok hs
    cases hs
    exact refs_put h (fun o k e => by cases e)

private theorem refs_run {b : Build} : ∀ (ops : List Op) {w w' : World}, Refs w → run b ops w = .ok w' → Refs w'
  | [], w, w', hw, h => by cases h; exact hw
  | op :: ops, w, w', hw, h => by
    obtain ⟨w1, h1, h2⟩ := bind_eq_ok h
    exact refs_run ops (refs_step hw h1) h2

/-- C96: a copy just made reports exactly what the original does, in every history. -/
theorem copy_reports_same {b : Build} {w w' : World} (ops : List Op) (i : Nat) (h : run b ops .empty = .ok w)
    (hc : run b [.copy i] w = .ok w') : report w' w.objs.length = report w i ∧ report w' i = report w i := by
  have hrefs : Refs w := refs_run ops (fun i o k hi _ => by simp [World.empty] at hi) h
  obtain ⟨w1, h1, h2⟩ := bind_eq_ok hc
  cases h2
  obtain ⟨o, h3, h1⟩ := bind_eq_ok h1
  obtain ⟨c, h4, h1⟩ := bind_eq_ok h1
  cases h1
  have ho := get_ok h3
  unfold Obj.copied at h4
  split at h4
  · cases h4
  · rename_i hm hh
    cases h4
    have hext : World.extHeader { w with objs := w.objs ++ [some o] } o = w.extHeader o := by
      unfold World.extHeader
      rw [hh]
      cases hm with
      | source k => rfl
      | summary k =>
        have := hrefs i o k ho hh
        simp only [World.headerAt]
        rw [List.getElem?_append_left this]
    have g1 : World.get { w with objs := w.objs ++ [some o] } w.objs.length = .ok o := get_of (by simp)
    have g2 : World.get { w with objs := w.objs ++ [some o] } i = .ok o := by
      refine get_of ?_
      show (w.objs ++ _)[i]? = _
      rw [List.getElem?_append_left (lt_of_get ho)]; exact ho
    unfold report
    rw [g1, g2, h3]
    simp only [Outcome.bind_ok, hext, and_self]

/-- C96: a summary without header and without points can be neither copied, nor assigned from, nor reported. -/
theorem fresh_summary_unusable (b : Build) (w : World) :
    run b [.new, .copy w.objs.length] w = .ub ∧
    run b [.new, .new, .assign (w.objs.length + 1) w.objs.length] w = .ub ∧
    ∃ w', run b [.new] w = .ok w' ∧ report w' w.objs.length = .ub := by
  have g1 : World.get { w with objs := w.objs ++ [some ⟨Summary.new, none⟩] } w.objs.length = .ok ⟨Summary.new, none⟩ :=
    get_of (by simp)
  refine ⟨?_, ?_, _, rfl, ?_⟩
  · simp only [run, step, Outcome.bind_ok, g1]; rfl
  · have g2 : World.get { w with objs := w.objs ++ [some ⟨Summary.new, none⟩] ++ [some ⟨Summary.new, none⟩] } w.objs.length =
        .ok ⟨Summary.new, none⟩ := get_of (by simp)
    have g3 : World.get { w with objs := w.objs ++ [some ⟨Summary.new, none⟩] ++ [some ⟨Summary.new, none⟩] } (w.objs.length + 1) =
        .ok ⟨Summary.new, none⟩ := by
      refine get_of ?_
      rw [List.getElem?_append_right (by simp)]
      simp
    simp only [run, step, Outcome.bind_ok, g2, g3]
    rw [if_neg (show ¬ w.objs.length + 1 = w.objs.length by omega)]
    rfl
  · unfold report
    rw [g1]; rfl

private theorem addOps_facts (i k : Nat) (ps : List Point) : addedTo i (addOps i k ps) = ps.map (fun p => (k, p)) ∧
    (∀ j, ∀ op ∈ addOps i k ps, op.remakes j = false) ∧ ∀ j, .close j ∉ addOps i k ps := by
  refine ⟨?_, ?_, ?_⟩
  · induction ps with
    | nil => rfl
    | cons p ps ih =>
      show addedTo i (Op.add i k p :: addOps i k ps) = _
      rw [addedTo_cons, ih]; simp [addedTo]
  · intro j op hop
    obtain ⟨p, _, rfl⟩ := List.mem_map.1 hop
    rfl
  · intro j hm
    obtain ⟨p, _, h⟩ := List.mem_map.1 hm
    cases h

private theorem addOps_length {b : Build} {i k : Nat} : ∀ (ps : List Point) {w w' : World}, run b (addOps i k ps) w = .ok w' →
    w'.objs.length = w.objs.length
  | [], w, w', h => by cases h; rfl
  | p :: ps, w, w', h => by
    obtain ⟨w1, h1, h2⟩ := bind_eq_ok h
    obtain ⟨_, _, _, _, _, _, _, rfl⟩ := step_add h1
    rw [addOps_length ps h2]
    simp [World.put]

/-- A further point can be added when the sequence of values can be summarised. -/
private theorem kept_add_ok {b : Build} {w : World} {i k : Nat} {g : Option PHeader} {ps : List Point} {p : Point} {s : Summary}
    (hk : Kept b w i g (ps.map fun p => (k, p))) (hsrc : w.sources[k]? = some (some p.hdr))
    (ha : Summary.addAll b (ps ++ [p]) (Summary.start g) = .ok s) : ∃ w', step b w (.add i k p) = .ok w' := by
  obtain ⟨o, ho, hc⟩ := hk
  rw [addAll_append] at ha
  obtain ⟨t, h1, h2⟩ := bind_eq_ok ha
  obtain ⟨t', h2, -⟩ := bind_eq_ok h2
  simp only [step, hsrc, if_pos, get_of ho, Outcome.bind_ok]
  cases ps with
  | nil =>
    obtain ⟨hv, _⟩ := hc
    cases h1
    have hn : o.val.ext = none := by rw [hv]; exact (start_facts g).1
    have hl : w.load o = .ok o.val := by unfold World.load; rw [hn]
    rw [hl, Outcome.bind_ok, hv, h2]
    exact ⟨_, rfl⟩
  | cons p0 ps =>
    obtain ⟨t0, e, h4, hv, he, hon, hh, hsr⟩ := hc
    have hmap : (((k, p0) :: ps.map fun p => (k, p)).map Prod.snd) = p0 :: ps := by simp
    rw [show ((k, p0) :: List.map (fun p => (k, p)) ps).map Prod.snd = p0 :: ps from hmap, h1] at h4
    cases h4
    have hn : o.val.ext = some e := by rw [hv]; exact he
    have hx : ∃ h0, w.extHeader o = .ok h0 ∧ h0 = (g.map (adopt p0)).getD p0.hdr := by
      unfold World.extHeader
      rw [hh]
      cases g with
      | some g' => exact ⟨adopt p0 g', by simp only [homeOf, World.headerAt, ho, hv]; rfl, rfl⟩
      | none =>
        refine ⟨p.hdr, by simp only [homeOf, World.headerAt, hsrc], ?_⟩
        rcases hsr with hsr | hsr
        · have := hsrc.symm.trans hsr
          simp only [Option.some.injEq] at this
          exact this
        · rw [hsrc] at hsr; cases hsr
    obtain ⟨h0, hx, rfl⟩ := hx
    have hl : w.load o = .ok o.val := by
      unfold World.load
      rw [hn]
      simp only [hx, Outcome.bind_ok, Outcome.pure_eq, hon.rehome]
      rw [← hn]
    rw [hl, Outcome.bind_ok, hv]
    have : ∃ q, Summary.addPoint b { t with header := g.map (adopt p0) } p = .ok q := by
      have e1 : ({ ({ t with header := g.map (adopt p0) } : Summary) with header := t.header } : Summary) = t := rfl
      rw [← e1] at h2
      obtain ⟨q, hq, _⟩ := add_header (s := { t with header := g.map (adopt p0) }) he h2
      exact ⟨q, hq⟩
    obtain ⟨q, hq⟩ := this
    rw [hq]
    exact ⟨_, rfl⟩

private theorem addAll_prefix {b : Build} {ps qs : List Point} {s t : Summary} (h : Summary.addAll b (ps ++ qs) s = .ok t) :
    ∃ u, Summary.addAll b ps s = .ok u := by
  rw [addAll_append] at h
  obtain ⟨u, h, _⟩ := bind_eq_ok h
  exact ⟨u, h⟩

private theorem adds_run {b : Build} {i k : Nat} {g : Option PHeader} {h0 : PHeader} : ∀ (qs ps : List Point) {w : World} {s : Summary},
    Kept b w i g (ps.map fun p => (k, p)) → w.sources[k]? = some (some h0) → (∀ p ∈ qs, p.hdr = h0) →
    Summary.addAll b (ps ++ qs) (Summary.start g) = .ok s → ∃ w', run b (addOps i k qs) w = .ok w'
  | [], ps, w, s, _, _, _, _ => ⟨w, rfl⟩
  | p :: qs, ps, w, s, hk, hsrc, hp, ha => by
    have ha' : Summary.addAll b ((ps ++ [p]) ++ qs) (Summary.start g) = .ok s := by simpa using ha
    obtain ⟨u, hu⟩ := addAll_prefix ha'
    obtain ⟨w1, h1⟩ := kept_add_ok hk (by rw [hp p (by simp)]; exact hsrc) hu
    have hk1 := kept_step hk rfl h1
    rw [show addedTo i [Op.add i k p] = [(k, p)] by simp [addedTo]] at hk1
    obtain ⟨w', h2⟩ := adds_run qs (ps ++ [p]) (w := w1) (by simpa using hk1) (step_source hsrc (by simp) h1)
      (fun q hq => hp q (by simp [hq])) ha'
    exact ⟨w', by show (step b w (.add i k p) >>= run b (addOps i k qs)) = _; rw [h1, Outcome.bind_ok, h2]⟩

/-- C96: the summary of a reader (`SummarizeReader`) reports what the points say. -/
theorem summarize_reader_reports {b : Build} (h : PHeader) (ps : List Point) (hne : ps ≠ []) (hp : ∀ p ∈ ps, p.hdr = h)
    {s : Summary} (ha : Summary.addAll b ps Summary.new = .ok s) :
    ∃ w' r, run b (summarizeReader h ps) .empty = .ok w' ∧ report w' 0 = .ok r ∧ SameCounts r s ∧ r.ext = s.ext := by
  have h1 : run b (making 0 none) ⟨[], [some h]⟩ = .ok ⟨[some ⟨Summary.new, none⟩], [some h]⟩ := rfl
  obtain ⟨w', h2⟩ := adds_run (b := b) (i := 0) (k := 0) (g := none) (h0 := h) ps []
    (kept_made (w := ⟨[], [some h]⟩) h1) rfl hp ha
  obtain ⟨f1, f2, f3⟩ := addOps_facts 0 0 ps
  have h3 : run b (making 0 none ++ addOps 0 0 ps) ⟨[], [some h]⟩ = .ok w' := by
    rw [run_append, h1, Outcome.bind_ok, h2]
  have hne' : addedTo 0 (addOps 0 0 ps) ≠ [] := by rw [f1]; simpa using hne
  obtain ⟨s', r, g1, g2, g3, g4, -⟩ := summary_reports (w := ⟨[], [some h]⟩) none (addOps 0 0 ps) (f2 0)
    (fun _ => ⟨hne', fun e _ => f3 e.1⟩) h3
  have hm : (addedTo 0 (addOps 0 0 ps)).map Prod.snd = ps := by
    rw [f1, List.map_map]
    exact List.map_id ps
  have g1' : Summary.addAll b ((addedTo 0 (addOps 0 0 ps)).map Prod.snd) (Summary.start none) = .ok s' := g1
  rw [hm] at g1'
  have : s' = s := by
    have := g1'.symm.trans ha
    cases this; rfl
  subst this
  exact ⟨w', r, h3, g2, g3, g4 hne'⟩

private theorem lasinfo_end {b : Build} {w : World} {o o0 : Obj} (elide : Bool) (ho : w.objs[1]? = some (some o))
    (ho0 : w.objs[0]? = some (some o0)) (hh : o.home = some (.summary 1)) (hl : w.objs.length = 2) :
    ∃ w', run b (if elide then [.assign 0 1, .destroy 1] else [.copy 1, .destroy 1, .assign 0 2, .destroy 2]) w = .ok w' ∧
      report w' 0 = .ub := by
  obtain ⟨objs, srcs⟩ := w
  obtain ⟨v, hm⟩ := o
  cases hh
  have : objs = [some o0, some ⟨v, some (.summary 1)⟩] := by
    obtain ⟨a, c, rfl⟩ := List.length_eq_two.1 hl
    have ho : some c = some (some _) := ho
    have ho0 : some a = some (some _) := ho0
    rw [Option.some.inj ho, Option.some.inj ho0]
  subst this
  cases elide
  · refine ⟨⟨[some ⟨v, some (.summary 1)⟩, none, none], srcs⟩, ?_, rfl⟩
    simp [run, step, World.get, Obj.copied, World.put]
  · refine ⟨⟨[some ⟨v, some (.summary 1)⟩, none], srcs⟩, ?_, rfl⟩
    simp [run, step, World.get, Obj.copied, World.put]

/-- C96 refuted for `lasinfo`: for every file whose points can be summarised, empty files included, and whichever way the
compiler returns the summary, `lasinfo` (without `--no-check`) gets as far as its report and then reads the extremes
through the header of a summary that is gone. -/
theorem lasinfo_reads_destroyed {b : Build} (elide : Bool) (h : PHeader) (ps : List Point) (hp : ∀ p ∈ ps, p.hdr = h)
    {s : Summary} (ha : Summary.addAll b ps (Summary.new.setHeader h) = .ok s) :
    ∃ w', run b (lasinfo elide h ps) .empty = .ok w' ∧ report w' 0 = .ub := by
  have hw0 : run b [.source h, .new] .empty = .ok ⟨[some ⟨Summary.new, none⟩], [some h]⟩ := rfl
  obtain ⟨w1, hw1, h1⟩ : ∃ w1 : World, (w1.sources = [some h] ∧ w1.objs.length = 2 ∧ w1.objs[0]? = some (some ⟨Summary.new, none⟩)) ∧
      run b (making 1 (some h)) ⟨[some ⟨Summary.new, none⟩], [some h]⟩ = .ok w1 :=
    ⟨⟨[some ⟨Summary.new, none⟩, some (Obj.setHeader ⟨Summary.new, none⟩ 1 h)], [some h]⟩, ⟨rfl, rfl, rfl⟩, rfl⟩
  have hk1 := kept_made (w := ⟨[some ⟨Summary.new, none⟩], [some h]⟩) h1
  obtain ⟨w2, h2⟩ := adds_run (b := b) (i := 1) (k := 0) (g := some h) (h0 := h) ps [] hk1 (by rw [hw1.1]; rfl) hp ha
  obtain ⟨f1, f2, f3⟩ := addOps_facts 1 0 ps
  obtain ⟨o, ho, hh, -⟩ := kept_home (kept_run (addOps 1 0 ps) hk1 (f2 1) h2)
  have ho : w2.objs[1]? = some (some o) := ho
  have hh : o.home = some (.summary 1) := hh
  have hl2 : w2.objs.length = 2 := by rw [addOps_length ps h2, hw1.2.1]
  obtain ⟨o0, ho0⟩ : ∃ o0, w2.objs[0]? = some (some o0) := by
    have : ∀ (qs : List Point) {w w' : World}, w.objs[0]? = some (some ⟨Summary.new, none⟩) → run b (addOps 1 0 qs) w = .ok w' →
        w'.objs[0]? = some (some ⟨Summary.new, none⟩) := by
      intro qs
      induction qs with
      | nil => intro w w' h h'; cases h'; exact h
      | cons q qs ih =>
        intro w w' h h'
        obtain ⟨w3, h3, h4⟩ := bind_eq_ok h'
        exact ih (step_other h rfl (fun k p e => by cases e) h3) h4
    exact ⟨_, this ps hw1.2.2 h2⟩
  have hsplit : run b (lasinfo elide h ps) .empty =
      run b (if elide then [.assign 0 1, .destroy 1] else [.copy 1, .destroy 1, .assign 0 2, .destroy 2]) w2 := by
    unfold lasinfo
    rw [run_append, show ([Op.source h, .new, .new, .setHeader 1 h] ++ addOps 1 0 ps) =
      [Op.source h, .new] ++ (making 1 (some h) ++ addOps 1 0 ps) from rfl, run_append, hw0, Outcome.bind_ok, run_append, h1,
      Outcome.bind_ok, h2, Outcome.bind_ok]
  rw [hsplit]
  exact lasinfo_end elide ho ho0 hh hl2

/-- A PC. -/
private def pc : Build := ⟨.little, false⟩
/-- Headers of format 0 with scale 1 and scale 1/2. -/
private def one : PHeader := ⟨.f0, 20, false, false, ⟨.fin 1, .fin 1, .fin 1⟩, ⟨.fin 0, .fin 0, .fin 0⟩⟩
private def half : PHeader := ⟨.f0, 20, false, false, ⟨.fin (1/2), .fin (1/2), .fin (1/2)⟩, ⟨.fin 0, .fin 0, .fin 0⟩⟩
/-- A first return at x. -/
private def at1 (x : Byte) : Point := ⟨[x] ++ List.replicate 13 0#8 ++ [9#8] ++ List.replicate 5 0#8, one⟩

/-- The largest x in a report. -/
private def maxX (r : Summary) : Outcome Fl :=
  match r.ext with
  | some e => e.maximum.getX pc
  | none => .ub

/-- C96 refuted: a copy is not independent of the original. The summary of points at 10 and 12 is copied; then the original
is given another header, and the copy, which nobody touched, reports 6 as its largest x instead of 12. -/
theorem copy_not_independent :
    (∃ w r, run pc [.source one, .new, .setHeader 0 one, .add 0 0 (at1 10), .add 0 0 (at1 12), .copy 0] .empty = .ok w ∧
      report w 1 = .ok r ∧ maxX r = .ok (.fin 12)) ∧
    ∃ w r, run pc [.source one, .new, .setHeader 0 one, .add 0 0 (at1 10), .add 0 0 (at1 12), .copy 0, .setHeader 0 half] .empty =
      .ok w ∧ report w 1 = .ok r ∧ maxX r = .ok (.fin 6) := by
  have key : ∀ ops (v : Fl), ((run pc ops .empty).check fun w => (report w 1).check fun r => decide (maxX r = .ok v)) = true →
      ∃ w r, run pc ops .empty = .ok w ∧ report w 1 = .ok r ∧ maxX r = .ok v := by
    intro ops v h
    cases hw : run pc ops .empty with
    | ok w =>
      rw [hw] at h
      obtain ⟨r, hr, h⟩ := Outcome.exists_of_check (x := report w 1) h
      exact ⟨w, r, rfl, hr, h⟩
    | throw e => rw [hw] at h; cases h
    | ub => rw [hw] at h; cases h
  exact ⟨key _ _ (by decide +kernel), key _ _ (by decide +kernel)⟩

/-- The hypotheses of the theorems are met: the points can be summarised with and without a header given. -/
example : (∃ s, Summary.addAll pc [at1 10, at1 12] Summary.new = .ok s ∧ s.count = 2#32) ∧
    (∃ s, Summary.addAll pc [at1 10, at1 12] (Summary.new.setHeader one) = .ok s ∧ s.count = 2#32) ∧
    ∀ p ∈ [at1 10, at1 12], p.hdr = one := by
  refine ⟨Outcome.exists_of_check (by decide +kernel), Outcome.exists_of_check (by decide +kernel), ?_⟩
  intro p hp
  simp only [List.mem_cons, List.not_mem_nil, or_false] at hp
  rcases hp with rfl | rfl <;> rfl

/-- A summary in between other work: two summaries, a copy that is destroyed, the reader closed before the report. -/
example : ∃ w, run pc [.source one, .new, .setHeader 0 one, .add 0 0 (at1 10), .copy 0, .add 0 0 (at1 12), .new, .destroy 1,
    .close 0] .empty = .ok w ∧ (report w 0).check (fun r => decide (maxX r = .ok (.fin 12))) = true :=
  Outcome.exists_of_check (by decide +kernel)

/-- Without a header of its own: defined while the reader is open, undefined after. -/
example : (∃ w, run pc [.source one, .new, .add 0 0 (at1 10), .add 0 0 (at1 12)] .empty = .ok w ∧
      (report w 0).check (fun r => decide (maxX r = .ok (.fin 12))) = true) ∧
    ∃ w, run pc [.source one, .new, .add 0 0 (at1 10), .close 0] .empty = .ok w ∧ w.sources = [none] :=
  ⟨Outcome.exists_of_check (by decide +kernel), Outcome.exists_of_check (by decide +kernel)⟩

/-- A copy whose original goes: the whole run is defined, only the report is not. -/
example : ∃ w, run pc [.source one, .new, .setHeader 0 one, .add 0 0 (at1 10), .copy 0, .add 1 0 (at1 12), .destroy 0] .empty =
    .ok w ∧ w.objs.length = 2 := Outcome.exists_of_check (by decide +kernel)

/-- The smallest x in a report. -/
private def minX (r : Summary) : Outcome Fl :=
  match r.ext with
  | some e => e.minimum.getX pc
  | none => .ub

/-- C96 refuted for headers given after the first point: the summary goes on counting, but the extremes start again from zero, where
no point is. Two points at 10 and a header between them: two points counted, the smallest x is 0. -/
theorem late_header_spoils :
    ∃ w, run pc [.source one, .new, .setHeader 0 one, .add 0 0 (at1 10), .setHeader 0 one, .add 0 0 (at1 10)] .empty = .ok w ∧
      (report w 0).check (fun r => decide (r.count = 2 ∧ minX r = .ok (.fin 0) ∧ maxX r = .ok (.fin 10))) = true :=
  Outcome.exists_of_check (by decide +kernel)

end LibLAS.SummaryLife
