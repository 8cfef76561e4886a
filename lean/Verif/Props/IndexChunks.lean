import Verif.Lemmas.IndexChunks
import Verif.Props.IndexHeader
/-
C45: a query answered in pieces.
-/
namespace LibLAS.Index
open Spec

theorem subs_length (m : List (Nat × Runs)) : (m.flatMap fun e => Spec.ids e.2).length = (m.map fun s => (s.2.map fun e => e.2).sum).sum := by
  rw [List.length_flatMap]
  congr 1
  apply List.map_congr_left
  intro e _
  exact ids_length _

theorem _root_.LibLAS.Spec.Sound.count {n : Nat} {e : (Nat × Nat) × Cell} (h : Sound n e.2) (hf : Fits e) : cellCount e.2 = e.2.numPoints := by
  rw [← h.num]
  unfold cellCount cellIds
  simp only [List.length_append, ids_length, subs_length]
  rcases h.main with h1 | ⟨h1, h2⟩
  · rcases hf.one with h2 | h2
    · rw [h1, h2]; simp; intro h3; rw [h3]; simp
    · rw [h1, h2]; simp; intro h3; rw [h3]; simp
  · rw [h1, h2]; simp

theorem runs_in {n : Nat} {r : Runs} (h : ∀ i ∈ Spec.ids r, i < n) (h0 : ∀ e ∈ r, 0 < e.2) : RunsIn n r := by
  intro e he
  have := h (e.1 + (e.2 - 1)) (List.mem_flatMap.2 ⟨e, he, List.mem_map.2 ⟨e.2 - 1, List.mem_range.2 (by have := h0 e he; omega), rfl⟩⟩)
  have := h0 e he
  omega

theorem _root_.LibLAS.Spec.Sound.inn {n : Nat} {c : Cell} (h : Sound n c) : CellIn n c := by
  refine ⟨runs_in (fun i hi => h.ids i ?_) (h.runs _ (Or.inl rfl)), fun s hs => runs_in (fun i hi => h.ids i ?_) (h.runs _ (Or.inr (Or.inl ⟨s.1, hs⟩))),
    fun s hs => runs_in (fun i hi => h.ids i ?_) (h.runs _ (Or.inr (Or.inr ⟨s.1, hs⟩)))⟩
  · unfold cellIds; simp [hi]
  · unfold cellIds
    exact List.mem_append_left _ (List.mem_append_right _ (List.mem_flatMap.2 ⟨s, hs, hi⟩))
  · unfold cellIds
    exact List.mem_append_right _ (List.mem_flatMap.2 ⟨s, hs, hi⟩)

theorem groups_points (cs : List ((Nat × Nat) × Cell)) : ((groups cs).map Grp.points).sum = (cs.map fun e => e.2.numPoints).sum := by
  have h1 : ∀ gs : List Grp, (gs.map Grp.points).sum = ((gs.flatMap Grp.cells).map fun e => e.2.numPoints).sum := by
    intro gs
    induction gs with
    | nil => rfl
    | cons g gs ih => simp [ih, Grp.points]
  rw [h1, groups_cells]
  induction cs with
  | nil => rfl
  | cons e cs ih =>
    rw [List.filter_cons]
    split
    · rw [List.map_cons, List.sum_cons, ih]; rfl
    · rename_i h
      simp only [ne_eq, decide_not, Bool.not_eq_true', decide_eq_false_iff_not, Decidable.not_not] at h
      rw [ih, List.map_cons, List.sum_cons, h, Nat.zero_add]

theorem le_sum {l : List Nat} {a : Nat} (h : a ∈ l) : a ≤ l.sum := by
  induction l with
  | nil => simp at h
  | cons b l ih =>
    rcases List.mem_cons.1 h with rfl | h
    · simp
    · have := ih h; simp; omega

/-- The records of an index between other records are what is needed for answering queries. -/
theorem indexed {pts : List Pt} {cs : List ((Nat × Nat) × Cell)} {pre dvs post : List VLR} {hdr : VLR} {count : Nat}
    (hf : ∀ e ∈ cs, Fits e) (hs : ∀ e ∈ cs, 24 + cellSize e.2 < 2 ^ 32) (hsd : ∀ e ∈ cs, Sound pts.length e.2) (ho : outputIndex cs = .ok dvs)
    (hpre : ∀ v ∈ pre, NotIndex v) (hpost : ∀ v ∈ post, NotIndex v) (hname : hdr.getUserId false = lit "liblas") (hnum : hdr.recordId = 42#16)
    (hc : (cs.map fun e => e.2.numPoints).sum ≤ count) (hc2 : count < 2 ^ 31) (hp : pts.length ≤ 2 ^ 31) :
    ∃ vss, Indexed pts (pre ++ hdr :: (dvs ++ post)) count pre hdr (groups cs) vss post := by
  obtain ⟨vss, h1, h2⟩ := output_groups fun e he => (hf e he).num
  rw [ho] at h1
  injection h1 with h1
  refine ⟨vss, ⟨by rw [h1], hpre, hpost, hname, hnum, h2, ?_, hp, by rw [groups_points]; exact hc⟩⟩
  intro g hg
  have k := groups_ok cs g hg
  refine ⟨groups_fit hf (sizes hf hs) g hg, fun e he => (hsd e (k.cells e he).1).inn, fun e he => (hsd e (k.cells e he).1).count (hf e (k.cells e he).1), ?_,
    groups_nonempty cs g hg⟩
  have : g.points ≤ ((groups cs).map Grp.points).sum := le_sum (List.mem_map_of_mem hg)
  rw [groups_points] at this
  omega

/-- C45: let a file have an index of its points: a header record of version 1.2 or later and the data records for the cells `cs`, of any
sizes, among records that are not of an index. If a query is answered by `R`, then an iterator for the same query, with any number of
points to a piece, answers every sequence of requests with the pieces of `R` beginning where the requests say, wherever the reader is. -/
theorem index_chunks {pts : List Pt} {cs : List ((Nat × Nat) × Cell)} {pre dvs post : List VLR} {hdr : VLR} {i : Info} {count chunk : Nat} {q : Query} {r : RPos}
    {R : List Nat} (hf : ∀ e ∈ cs, Fits e) (hs : ∀ e ∈ cs, 24 + cellSize e.2 < 2 ^ 32) (hsd : ∀ e ∈ cs, Sound pts.length e.2)
    (ho : outputIndex cs = .ok dvs) (hpre : ∀ v ∈ pre, NotIndex v) (hpost : ∀ v ∈ post, NotIndex v)
    (hname : hdr.getUserId false = lit "liblas") (hnum : hdr.recordId = 42#16) (hload : loadInfo hdr = .ok (some i))
    (hver : 1 < i.major ∨ (i.major = 1 ∧ 2 ≤ i.minor)) (hc : (cs.map fun e => e.2.numPoints).sum ≤ count) (hc2 : count < 2 ^ 31) (hp : pts.length ≤ 2 ^ 31)
    (hR : filter pts (pre ++ hdr :: (dvs ++ post)) q r = .ok R) (hchunk : 0 < chunk) (as : List (Ask × RPos)) (ha : ∀ a ∈ as, a.1.InRange count) :
    ∃ outs, askAll pts (pre ++ hdr :: (dvs ++ post)) count (Iterator.new q chunk) as = .ok outs ∧ AnswersAll R chunk 0 (as.map Prod.fst) outs := by
  obtain ⟨vss, hx⟩ := indexed hf hs hsd ho hpre hpost hname hnum hc hc2 hp
  have hhead : ∃ o, atHeader hdr ⟨q.fresh, ⟨[], none, 0, r⟩⟩ = .ok o := by
    unfold filter at hR
    have e1 := hx.loop (Nat.zero_le _) ⟨q.fresh, ⟨[], none, 0, r⟩⟩
    rw [Nat.sub_zero] at e1
    rw [e1] at hR
    cases h : atHeader hdr ⟨q.fresh, ⟨[], none, 0, r⟩⟩ with
    | ok o => exact ⟨o, rfl⟩
    | throw e => rw [h] at hR; simp [Outcome.bind] at hR
    | ub => rw [h] at hR; simp [Outcome.bind] at hR
  obtain ⟨o, ho⟩ := hhead
  obtain ⟨ow, how, -⟩ := header_cases hload hver (q := q) rfl ho
  have hw := filter_whole hx how r
  rw [hR] at hw
  injection hw with hw
  rw [hw]
  exact requests hx how hchunk hc2 as ha

theorem repeated {R : List Nat} {chunk : Nat} (hchunk : 0 < chunk) (as : List Ask) : ∀ {pos m : Nat} {outs : List (List Nat)}, (∀ a ∈ as, a = .move 1) →
    pos = min (m * chunk) R.length → AnswersAll R chunk pos as outs → outs = (List.range as.length).map fun k => (R.drop ((m + k) * chunk)).take chunk := by
  induction as with
  | nil => intro pos m outs _ _ h; cases h; rfl
  | cons a as ih =>
    intro pos m outs ha hpos h
    cases h with
    | cons h1 h2 =>
      rename_i pos' out outs
      have := ha a (by simp)
      subst this
      have ht : Ask.target pos (.move 1) = pos := by simp [Ask.target]
      have hg := h1.given
      rw [ht] at hg
      have hd : R.drop pos = R.drop (m * chunk) := by
        rcases Nat.le_total (m * chunk) R.length with hl | hl
        · rw [hpos, Nat.min_eq_left hl]
        · rw [hpos, Nat.min_eq_right hl, List.drop_eq_nil_of_le (le_refl _), List.drop_eq_nil_of_le hl]
      have hlen : out.length = min chunk (R.length - pos) := by rw [hg]; simp
      have hmul : (m + 1) * chunk = m * chunk + chunk := by rw [Nat.add_mul, Nat.one_mul]
      have hpos' : pos' = min ((m + 1) * chunk) R.length := by
        by_cases hnil : out = []
        · have h0 : out.length = 0 := by rw [hnil]; rfl
          rcases h1.stuck hnil with k | k <;> omega
        · have := h1.moved hnil
          rw [ht] at this
          have h0 : 0 < out.length := List.length_pos_iff.2 hnil
          omega
      have := ih (fun a h => ha a (by simp [h])) hpos' h2
      rw [this, List.length_cons, List.range_succ_eq_map, List.map_cons, List.map_map, hg, hd]
      simp only [Nat.add_zero, List.cons.injEq, true_and]
      apply List.map_congr_left
      intro k _
      simp only [Function.comp]
      rw [show m + 1 + k = m + k.succ by omega]

theorem flatten_pieces (R : List Nat) (chunk k : Nat) : ((List.range k).map fun j => (R.drop (j * chunk)).take chunk).flatten = R.take (k * chunk) := by
  induction k with
  | zero => simp
  | succ k ih =>
    rw [List.range_succ, List.map_append, List.flatten_append, ih]
    simp only [List.map_cons, List.map_nil, List.flatten_cons, List.flatten_nil, List.append_nil]
    rw [Nat.add_mul, Nat.one_mul, List.take_add]

/-- C45, for `++`: the answers to `k` requests for the next piece are the first `k` pieces of `R`; put together they are the first
`k * chunk` elements, and all of `R` if there are enough requests. -/
theorem index_chunks_concat {pts : List Pt} {cs : List ((Nat × Nat) × Cell)} {pre dvs post : List VLR} {hdr : VLR} {i : Info} {count chunk : Nat} {q : Query} {r : RPos}
    {R : List Nat} (hf : ∀ e ∈ cs, Fits e) (hs : ∀ e ∈ cs, 24 + cellSize e.2 < 2 ^ 32) (hsd : ∀ e ∈ cs, Sound pts.length e.2)
    (ho : outputIndex cs = .ok dvs) (hpre : ∀ v ∈ pre, NotIndex v) (hpost : ∀ v ∈ post, NotIndex v)
    (hname : hdr.getUserId false = lit "liblas") (hnum : hdr.recordId = 42#16) (hload : loadInfo hdr = .ok (some i))
    (hver : 1 < i.major ∨ (i.major = 1 ∧ 2 ≤ i.minor)) (hc : (cs.map fun e => e.2.numPoints).sum ≤ count) (hc2 : count < 2 ^ 31) (hp : pts.length ≤ 2 ^ 31)
    (hR : filter pts (pre ++ hdr :: (dvs ++ post)) q r = .ok R) (hchunk : 0 < chunk) (rs : List RPos) :
    ∃ outs, askAll pts (pre ++ hdr :: (dvs ++ post)) count (Iterator.new q chunk) (rs.map fun r => (.move 1, r)) = .ok outs ∧
      outs = ((List.range rs.length).map fun k => (R.drop (k * chunk)).take chunk) ∧ outs.flatten = R.take (rs.length * chunk) ∧
      (R.length ≤ rs.length * chunk → outs.flatten = R) := by
  obtain ⟨outs, h1, h2⟩ := index_chunks hf hs hsd ho hpre hpost hname hnum hload hver hc hc2 hp hR hchunk (rs.map fun r => (.move 1, r)) (by
    intro a ha
    obtain ⟨r, -, rfl⟩ := List.mem_map.1 ha
    exact ⟨by norm_num, by omega⟩)
  have h3 := repeated hchunk _ (m := 0) (by
    intro a ha
    simp only [List.map_map, List.mem_map, Function.comp] at ha
    obtain ⟨r, -, rfl⟩ := ha
    rfl) (by simp) h2
  simp only [List.length_map, Nat.zero_add] at h3
  have h4 : outs.flatten = R.take (rs.length * chunk) := by rw [h3, flatten_pieces]
  exact ⟨outs, h1, h3, h4, fun hl => by rw [h4, List.take_of_length_le hl]⟩

theorem Shape.sound {g : Grid} {pts : List Pt} {xy : Nat × Nat} {z : Int × Int} {c : Cell} (hx : xy.1 < 2 ^ 32) (hy : xy.2 < 2 ^ 32)
    (hz : 1 < g.cellsZ → ∀ p ∈ pts, ∃ a, identifyCellZ g p = .ok (some a) ∧ a < 2 ^ 32 - 1)
    (h : Shape g pts xy (positions (inCell g xy) 0 pts) z c) (hl : pts.length < 2 ^ 32) : Sound pts.length c := by
  refine ⟨(h.fits hx hy hz hl).2.2, ?_, ?_, ?_⟩
  · intro i hi
    rw [(h.cellOK hz).perm.mem_iff, mem_positions] at hi
    obtain ⟨p, -, h2, -⟩ := hi
    exact (List.getElem?_eq_some_iff.1 h2).1
  · have hp := h.parts
    split at hp
    · exact Or.inl hp.1
    · split at hp
      · exact Or.inl hp.1
      · exact Or.inr ⟨hp.1, hp.2.1⟩
  · have hp := h.parts
    have hsub : ∀ {pl : Nat → Nat} {L : List Nat} {hi : Nat} {m : List (Nat × Runs)}, SubInv pl L hi m → ∀ k r, (k, r) ∈ m → ∀ e ∈ r, 0 < e.2 := by
      intro pl L hi m hs k r hk e he
      have := (hs.runs _ _ (hs.sorted.find (k, r) hk)).mem e he
      omega
    rintro r (rfl | ⟨k, hk⟩ | ⟨k, hk⟩) e he
    all_goals
      split at hp
      · obtain ⟨p1, p2, hi, p3⟩ := hp
        first
          | (rw [p1] at he; simp at he; done)
          | exact hsub p3 _ _ hk e he
          | (rw [p2] at hk; simp at hk; done)
      · split at hp
        · obtain ⟨p1, p2, hi, p3⟩ := hp
          first
            | (rw [p1] at he; simp at he; done)
            | exact hsub p3 _ _ hk e he
            | (rw [p2] at hk; simp at hk; done)
        · obtain ⟨p1, p2, -, p3⟩ := hp
          first
            | (have := p3.mem e he; omega)
            | (rw [p1] at hk; simp at hk; done)
            | (rw [p2] at hk; simp at hk; done)

/-- C41, C43, C45 and C52 together: a file has the records of the index the library builds for its points, which lie inside the bounds.
An iterator answers every sequence of requests with the pieces of the answer to the whole query. -/
theorem built_index_chunks {g : Grid} {pts : List Pt} (hg : GridOK g) (ht : g.temp = true) (hl : pts.length ≤ 2 ^ 28)
    (hz : g.cellsZ < 2 ^ 32) (hb : AllInside g pts) {i : Info} (hi : InfoFits i) (hver : 1 < i.major ∨ (i.major = 1 ∧ 2 ≤ i.minor))
    {pre post : List VLR} (hpre : ∀ v ∈ pre, NotIndex v) (hpost : ∀ v ∈ post, NotIndex v) {count : Nat} (hc : pts.length ≤ count) (hc2 : count < 2 ^ 31) :
    ∃ out dvs, buildIndex g pts = .ok (some out) ∧ outputIndex out = .ok dvs ∧
      ∀ q r R, filter pts (pre ++ headerRecord i :: (dvs ++ post)) q r = .ok R → ∀ chunk, 0 < chunk → ∀ as : List (Ask × RPos), (∀ a ∈ as, a.1.InRange count) →
        ∃ outs, askAll pts (pre ++ headerRecord i :: (dvs ++ post)) count (Iterator.new q chunk) as = .ok outs ∧
          AnswersAll R chunk 0 (as.map Prod.fst) outs := by
  have hp := placed_of_inside hg hb
  obtain ⟨out, o1, o2, o3⟩ := build_shaped hg ht hp (AllInside.zPlaced hb hz) (by omega)
  have hfit : ∀ e ∈ out, Fits e ∧ cellSize e.2 ≤ 28 + 13 * pts.length ∧ Sound pts.length e.2 := by
    intro e he
    have hm : e.1 ∈ g.cells := by rw [← o2]; exact List.mem_map_of_mem he
    have := mem_cells.1 (show (e.1.1, e.1.2) ∈ g.cells from hm)
    have hbd := hg.bounds
    obtain ⟨f1, f2, -⟩ := (o3 e he).fits (by omega) (by omega) (AllInside.zPlaced hb hz) (by omega)
    exact ⟨f1, f2, (o3 e he).sound (by omega) (by omega) (AllInside.zPlaced hb hz) (by omega)⟩
  have hs : ∀ e ∈ out, 24 + cellSize e.2 < 2 ^ 32 := fun e he => by have := (hfit e he).2.1; omega
  obtain ⟨dvs, v1, -, -⟩ := index_records (fun e he => (hfit e he).1) hs
  refine ⟨out, dvs, o1, v1, ?_⟩
  have hsum : (out.map fun e => e.2.numPoints).sum ≤ count := by
    have hperm := (all_ids hp o2 fun e he => (o3 e he).cellOK (AllInside.zPlaced hb hz)).length_eq
    rw [List.length_flatMap, List.length_range] at hperm
    have : (out.map fun e => (cellIds e.2).length) = out.map fun e => e.2.numPoints := List.map_congr_left fun e he => (hfit e he).2.2.num
    rw [this] at hperm
    omega
  intro q r R hR chunk hchunk as ha
  exact index_chunks (fun e he => (hfit e he).1) hs (fun e he => (hfit e he).2.2) v1 hpre hpost (headerRecord_name i) rfl (index_header hi)
    (by exact hver) hsum hc2 (by omega) hR hchunk as ha

/-- The header of an index of the sample points. -/
def sampleIndexInfo : Info :=
  ⟨1, 2, [], [], [], 0, 0x4024000000000000#64, 0, 0x4024000000000000#64, 0, 0x4024000000000000#64, 43, 6, 2, 2, 2⟩

example : sampleIndexInfo.grid.min = sampleGrid.min ∧ sampleIndexInfo.grid.max = sampleGrid.max := by decide +kernel

example : InfoFits sampleIndexInfo := by constructor <;> decide

/-- The records of the sample index, with another record before. -/
def sampleRecords : Outcome (List VLR) := buildIndex sampleGrid samplePts >>= fun o => outputIndex (o.getD []) >>= fun vs =>
  .ok (VLR.new :: headerRecord sampleIndexInfo :: vs)

/-- A window in x and y. -/
def sampleQuery : Query := ⟨pt 2 2 0, pt 8 8 0, false, false, true⟩

/-- The whole answer, and the answers to requests in pieces of two: three times the next piece, the piece from number 1 on, one step back. -/
example : (sampleRecords >>= fun vs => filter samplePts vs sampleQuery 4) = .ok [3, 1, 5] := by decide +kernel
example : (sampleRecords >>= fun vs => askAll samplePts vs 6 (Iterator.new sampleQuery 2)
    [(.move 1, 0), (.move 1, 5), (.move 1, 3), (.goto 1, 0), (.move (-1), 2)]) = .ok [[3, 1], [5], [], [1, 5], [5]] := by decide +kernel

/-- The hypotheses hold of the sample. -/
example : ∃ out dvs, buildIndex sampleGrid samplePts = .ok (some out) ∧ outputIndex out = .ok dvs ∧
      ∀ q r R, filter samplePts ([VLR.new] ++ headerRecord sampleIndexInfo :: (dvs ++ [])) q r = .ok R → ∀ chunk, 0 < chunk →
        ∀ as : List (Ask × RPos), (∀ a ∈ as, a.1.InRange 6) →
          ∃ outs, askAll samplePts ([VLR.new] ++ headerRecord sampleIndexInfo :: (dvs ++ [])) 6 (Iterator.new q chunk) as = .ok outs ∧
            AnswersAll R chunk 0 (as.map Prod.fst) outs :=
  built_index_chunks ⟨by decide, by decide, by decide⟩ rfl (by decide) (by decide) sample_inside (by constructor <;> decide) (Or.inr ⟨rfl, le_refl _⟩)
    (by intro v hv; rw [List.mem_singleton.1 hv]; unfold NotIndex; decide) (by simp) (by decide) (by decide)

end LibLAS.Index
