import Verif.Lemmas.Kernel
import Verif.Lemmas.FloatText
import Verif.Spec.Kernel
/-
`RepairHeader`: bounds and counts of the points.
-/
namespace LibLAS
open Spec Point Fl Summary

/-- What the text makes of a coordinate, and the bits of it. -/
theorem text_coordinate {s o : Fl} (h : OrdinaryAxis s o) (v : BitVec 32) :
    ∃ y, (scaled v s o).viaText = .ok y ∧ ofBits y.toBits = y ∧ Agree15 y (coordinate s o v) := by
  obtain ⟨p, q, rfl, rfl, h0, h1, h2⟩ := h
  have hf := scaled_fin v (s := p) (o := q) (by rw [abs_of_pos h0]; exact h1) h2
  obtain ⟨r, e1, e2, e3⟩ := viaText_spec hf.2
  refine ⟨.fin r, by rw [hf.1]; exact e1, ofBits_toBits e2, _, r, hf.1, rfl, e3⟩

theorem coordinate_le {s o : Fl} (h : OrdinaryAxis s o) {v w : BitVec 32} (hvw : v.toInt ≤ w.toInt) :
    Fl.le (coordinate s o v) (coordinate s o w) = true := by
  obtain ⟨p, q, rfl, rfl, h0, h1, h2⟩ := h
  exact scaled_le h0 (by rw [abs_of_pos h0]; exact h1) h2 hvw

theorem lowest_of {s o : Fl} (h : OrdinaryAxis s o) {as : List Attrs} {key : Attrs → BitVec 32} {v : BitVec 32}
    (hs : isSmallest (fun a => (key a).toInt) as v.toInt) :
    isLowest (as.map fun a => coordinate s o (key a)) (coordinate s o v) := by
  obtain ⟨⟨a, ha, e⟩, h2⟩ := hs
  refine ⟨List.mem_map.2 ⟨a, ha, ?_⟩, ?_⟩
  · rw [BitVec.eq_of_toInt_eq e]
  · intro x hx
    obtain ⟨c, hc, rfl⟩ := List.mem_map.1 hx
    exact coordinate_le h (h2 c hc)

theorem highest_of {s o : Fl} (h : OrdinaryAxis s o) {as : List Attrs} {key : Attrs → BitVec 32} {v : BitVec 32}
    (hs : isLargest (fun a => (key a).toInt) as v.toInt) :
    isHighest (as.map fun a => coordinate s o (key a)) (coordinate s o v) := by
  obtain ⟨⟨a, ha, e⟩, h2⟩ := hs
  refine ⟨List.mem_map.2 ⟨a, ha, ?_⟩, ?_⟩
  · rw [BitVec.eq_of_toInt_eq e]
  · intro x hx
    obtain ⟨c, hc, rfl⟩ := List.mem_map.1 hx
    exact coordinate_le h (h2 c hc)

theorem textCoords_ok {b : Build} {p : Point} {a : Attrs} {src : PHeader} (ho : observe b p = .ok a)
    (hh : p.hdr = src) (hs : OrdinaryScaling src) :
    ∃ v, Kernel.textCoords b p = .ok v ∧
      (ofBits (Kernel.bits v).x = v.x ∧ Agree15 v.x (coordinate src.scale.x src.offset.x a.rawX)) ∧
      (ofBits (Kernel.bits v).y = v.y ∧ Agree15 v.y (coordinate src.scale.y src.offset.y a.rawY)) ∧
      (ofBits (Kernel.bits v).z = v.z ∧ Agree15 v.z (coordinate src.scale.z src.offset.z a.rawZ)) := by
  subst hh
  have P := parts ho
  obtain ⟨x, x1, x2, x3⟩ := text_coordinate hs.1 a.rawX
  obtain ⟨y, y1, y2, y3⟩ := text_coordinate hs.2.1 a.rawY
  obtain ⟨z, z1, z2, z3⟩ := text_coordinate hs.2.2 a.rawZ
  refine ⟨⟨x, y, z⟩, ?_, ⟨x2, x3⟩, ⟨y2, y3⟩, ⟨z2, z3⟩⟩
  simp only [Kernel.textCoords, getX, getY, getZ, P.x, P.y, P.z, Outcome.bind_ok, Outcome.pure_eq, x1, y1, z1]

/-- The counts by return after entries were set. -/
def putReturns (es : List (Nat × BitVec 32)) (l : List (BitVec 32)) : List (BitVec 32) :=
  es.foldl (fun l e => l.set (e.1 - 1) e.2) l

/-- Setting counts by return that exist. -/
theorem setReturns_ok : ∀ (es : List (Nat × BitVec 32)) (h : Header), (∀ e ∈ es, e.1 - 1 < h.byReturn.length) →
    Kernel.setReturns es h = .ok { h with byReturn := putReturns es h.byReturn }
  | [], h, _ => rfl
  | (i, c) :: es, h, hl => by
    have h1 : i - 1 < h.byReturn.length := hl (i, c) (by simp)
    have h2 := setReturns_ok es { h with byReturn := h.byReturn.set (i - 1) c } (fun e he => by
      simp only [List.length_set]; exact hl e (by simp [he]))
    simp only [Kernel.setReturns, Header.setByReturn, h1, if_true, HeaderReader.set, Outcome.bind_ok]
    exact h2

theorem tally_eq_zero {as : List Attrs} {p : Attrs → Bool} (hn : as.length < 2 ^ 32) :
    tally as p = 0 ↔ ∀ a ∈ as, p a = false := by
  have hle : as.countP p ≤ as.length := List.countP_le_length
  unfold tally
  rw [← BitVec.toNat_inj]
  simp only [BitVec.toNat_ofNat, BitVec.ofNat_eq_ofNat]
  rw [Nat.mod_eq_of_lt (by omega)]
  simp [List.countP_eq_zero]

/-- An entry of the tree if the count is not zero. -/
def entry (i : Nat) (t : BitVec 32) (es : List (Nat × BitVec 32)) : List (Nat × BitVec 32) :=
  if t ≠ 0 then (i, t) :: es else es

theorem filterMap_entry {f : Nat → Option (Nat × BitVec 32)} {i : Nat} {t : BitVec 32} (is : List Nat)
    (h : f i = if t ≠ 0 then some (i, t) else none) : (i :: is).filterMap f = entry i t (is.filterMap f) := by
  unfold entry
  rw [List.filterMap_cons, h]
  by_cases h0 : t ≠ 0
  · rw [if_pos h0, if_pos h0]
  · rw [if_neg h0, if_neg h0]

theorem putReturns_entry {i : Nat} {t : BitVec 32} {es : List (Nat × BitVec 32)} {l : List (BitVec 32)}
    (h : l[i - 1]? = some 0) : putReturns (entry i t es) l = putReturns es (l.set (i - 1) t) := by
  unfold entry
  split
  · rfl
  · rename_i h0
    have h0 : t = 0 := by simpa using h0
    subst h0
    congr 1
    apply List.ext_getElem?
    intro n
    rw [List.getElem?_set]
    split
    · rename_i e; subst e
      rw [h, if_pos (List.getElem?_eq_some_iff.1 h).1]
    · rfl

theorem entry_mem {i : Nat} {t : BitVec 32} {es : List (Nat × BitVec 32)} {e : Nat × BitVec 32} (h : e ∈ entry i t es) :
    e = (i, t) ∨ e ∈ es := by
  unfold entry at h
  split at h
  · exact List.mem_cons.1 h
  · exact Or.inr h

theorem entry_nil {i : Nat} {t : BitVec 32} {es : List (Nat × BitVec 32)} : entry i t es = [] ↔ t = 0 ∧ es = [] := by
  unfold entry
  split <;> simp_all

/-- The entries of the tree, given the table of the eight counts. -/
theorem returnEntries_set {as : List Attrs} {s : CoordinateSummary} (hc : s.countersRight as)
    (hr : ∀ a ∈ as, a.returnNumber < 8) (hn : as.length < 2 ^ 32) (hne : as ≠ []) :
    (∀ e ∈ Kernel.returnEntries s, e.1 - 1 < 7) ∧
    (putReturns (Kernel.returnEntries s) [0, 0, 0, 0, 0, 0, 0]).take 5 =
      returnCounts as := by
  obtain ⟨c1, c2, -⟩ := hc
  have hz : (∀ i < 8, i ≠ 0 → tally as (fun a => a.returnNumber == i) = 0) ↔ ∀ a ∈ as, a.returnNumber = 0 := by
    constructor
    · intro h a ha
      by_contra h0
      have := (tally_eq_zero hn).1 (h a.returnNumber (hr a ha) h0) a ha
      simp at this
    · intro h i _ h0
      rw [tally_eq_zero hn]
      intro a ha
      simp [h a ha, Ne.symm h0]
  unfold Kernel.returnEntries returnCounts
  rw [c1, c2]
  have htot : tally as (fun _ => true) = BitVec.ofNat 32 as.length := by simp [tally]
  rw [htot]
  simp only [List.range_succ, List.range_zero, List.nil_append, List.map_cons, List.map_nil, List.cons_append]
  generalize hT : (fun i => tally as fun a => a.returnNumber == i) = T at *
  have hT' : ∀ i, (tally as fun a => a.returnNumber == i) = T i := fun i => congrFun hT i
  simp only [hT'] at *
  have hz' : (T 1 = 0 ∧ T 2 = 0 ∧ T 3 = 0 ∧ T 4 = 0 ∧ T 5 = 0 ∧ T 6 = 0 ∧ T 7 = 0) ↔ ∀ a ∈ as, a.returnNumber = 0 := by
    rw [← hz]
    constructor
    · rintro ⟨h1, h2, h3, h4, h5, h6, h7⟩ i hi h0
      rcases (by omega : i = 1 ∨ i = 2 ∨ i = 3 ∨ i = 4 ∨ i = 5 ∨ i = 6 ∨ i = 7) with
        rfl | rfl | rfl | rfl | rfl | rfl | rfl <;> assumption
    · intro h
      exact ⟨h 1 (by omega) (by omega), h 2 (by omega) (by omega), h 3 (by omega) (by omega), h 4 (by omega) (by omega),
        h 5 (by omega) (by omega), h 6 (by omega) (by omega), h 7 (by omega) (by omega)⟩
  rw [if_congr hz'.symm rfl rfl]
  generalize T 1 = t1, T 2 = t2, T 3 = t3, T 4 = t4, T 5 = t5, T 6 = t6, T 7 = t7, T 0 = t0 at *
  clear hz hz' hT hT' hr
  have he : (List.filterMap (fun i => if i = 0 then none
      else if [t0, t1, t2, t3, t4, t5, t6, t7].getD i 0 ≠ 0 then some (i, [t0, t1, t2, t3, t4, t5, t6, t7].getD i 0) else none)
      [0, 1, 2, 3, 4, 5, 6, 7]) = entry 1 t1 (entry 2 t2 (entry 3 t3 (entry 4 t4 (entry 5 t5 (entry 6 t6 (entry 7 t7 [])))))) := by
    rw [List.filterMap_cons_none (by rfl), filterMap_entry (t := t1) _ rfl, filterMap_entry (t := t2) _ rfl,
      filterMap_entry (t := t3) _ rfl, filterMap_entry (t := t4) _ rfl, filterMap_entry (t := t5) _ rfl,
      filterMap_entry (t := t6) _ rfl, filterMap_entry (t := t7) _ rfl, List.filterMap_nil]
  rw [he]
  simp only [entry_nil, and_true]
  split
  · refine ⟨by simp, rfl⟩
  · refine ⟨fun e h => ?_, ?_⟩
    · rcases entry_mem h with rfl | h
      · simp
      rcases entry_mem h with rfl | h
      · simp
      rcases entry_mem h with rfl | h
      · simp
      rcases entry_mem h with rfl | h
      · simp
      rcases entry_mem h with rfl | h
      · simp
      rcases entry_mem h with rfl | h
      · simp
      rcases entry_mem h with rfl | h
      · simp
      · simp at h
    · rw [putReturns_entry rfl, putReturns_entry rfl, putReturns_entry rfl, putReturns_entry rfl, putReturns_entry rfl,
        putReturns_entry rfl, putReturns_entry rfl]
      rfl

/-- The header of a file with points, repaired from the summary of the points. -/
theorem repair_ok {b : Build} {h : Header} {src : PHeader} {p : List Byte} {ps : List (List Byte)} {as : List Attrs}
    (hw : ∀ q ∈ p :: ps, (⟨q, src⟩ : Point).WF) (ho : (p :: ps).map (fun q => observe b ⟨q, src⟩) = as.map .ok)
    (hs : OrdinaryScaling src) (hn : (p :: ps).length < 2 ^ 32) (hl : ∃ l, l.length = 5 ∧ h.byReturn = l ++ [0, 0]) (hc : h.pointCount ≠ 0) :
    ∃ s g, CoordinateSummary.addAll b ((p :: ps).map fun q => ⟨q, src⟩) .new = .ok s ∧
      Kernel.repairHeader b s h = .ok g ∧ Restated h g ∧ Describes src as g := by
  have hlen : as.length = (p :: ps).length := by
    have := congrArg List.length ho; simpa using this.symm
  obtain ⟨s, e, lo, hi, e1, e2, e3, e4, e5, e6, e7, e8⟩ := CoordinateSummary.coordinate_summary_exact_partial b src.fmt
    ⟨p, src⟩ (ps.map fun q => ⟨q, src⟩) as (by
      intro q hq
      rw [← List.map_cons (f := fun q => (⟨q, src⟩ : Point))] at hq
      obtain ⟨q', hq', rfl⟩ := List.mem_map.1 hq
      exact ⟨hw q' hq', rfl⟩) (by rw [← ho]; simp)
  obtain ⟨vlo, t1, t2, t3, t4⟩ := textCoords_ok e4 e6 hs
  obtain ⟨vhi, u1, u2, u3, u4⟩ := textCoords_ok e5 e7 hs
  have hret : ∀ a ∈ as, a.returnNumber < 8 := by
    intro a ha
    have : (.ok a : Outcome Attrs) ∈ as.map .ok := List.mem_map.2 ⟨a, ha, rfl⟩
    rw [← ho] at this
    obtain ⟨q, hq, eq⟩ := List.mem_map.1 this
    exact (packed_lt (hw q hq) eq).1
  have hne : as ≠ [] := by intro h; rw [h] at hlen; simp at hlen
  obtain ⟨r1, r2⟩ := returnEntries_set e2 hret (by omega) hne
  have hz : ∀ l : List (BitVec 32), l.length = 5 →
      putReturns [(1, 0), (2, 0), (3, 0), (4, 0), (5, 0)] (l ++ [0, 0]) = [0, 0, 0, 0, 0, 0, 0] := by
    intro l hl
    match l, hl with
    | [_, _, _, _, _], _ => rfl
  obtain ⟨l, hl5, hl⟩ := hl
  have hclear : ∀ g : Header, (∃ l, l.length = 5 ∧ g.byReturn = l ++ [0, 0]) →
      Kernel.clearReturns g = .ok { g with byReturn := [0, 0, 0, 0, 0, 0, 0] } := by
    rintro g ⟨l, h5, hg⟩
    unfold Kernel.clearReturns
    rw [setReturns_ok _ _ (by rw [hg]; simp [h5]), hg, hz l h5]
  have e : Kernel.repairHeader b s h = .ok { h with
      min := Kernel.bits vlo
      max := Kernel.bits vhi
      byReturn := putReturns (Kernel.returnEntries s) [0, 0, 0, 0, 0, 0, 0] } := by
    unfold Kernel.repairHeader
    rw [if_neg hc, hclear h ⟨l, hl5, hl⟩]
    simp only [Outcome.bind_ok, e3, t1, u1]
    rw [hclear _ ⟨[0, 0, 0, 0, 0], rfl, rfl⟩]
    simp only [Outcome.bind_ok]
    rw [setReturns_ok _ _ (by simpa using r1)]
  have hk : ∀ key ∈ CoordinateSummary.coordinateAttrs, isSmallest key as (key lo) ∧ isLargest key as (key hi) := e8
  simp only [CoordinateSummary.coordinateAttrs, List.forall_mem_cons] at hk
  obtain ⟨kx, ky, kz, -⟩ := hk
  have hlen7 : ∀ (es : List (Nat × BitVec 32)) (l : List (BitVec 32)), (putReturns es l).length = l.length := by
    intro es
    induction es with
    | nil => intro l; rfl
    | cons x es ih => intro l; show (putReturns es _).length = _; rw [ih, List.length_set]
  refine ⟨s, _, ?_, e, ⟨rfl, by dsimp only; rw [hlen7]; simp⟩, ⟨?_, ?_, ?_, r2⟩⟩
  · rw [List.map_cons]; exact e1
  · exact ⟨⟨_, lowest_of hs.1 kx.1, by dsimp only; rw [t2.1]; exact t2.2⟩,
      ⟨_, highest_of hs.1 kx.2, by dsimp only; rw [u2.1]; exact u2.2⟩⟩
  · exact ⟨⟨_, lowest_of hs.2.1 ky.1, by dsimp only; rw [t3.1]; exact t3.2⟩,
      ⟨_, highest_of hs.2.1 ky.2, by dsimp only; rw [u3.1]; exact u3.2⟩⟩
  · exact ⟨⟨_, lowest_of hs.2.2 kz.1, by dsimp only; rw [t4.1]; exact t4.2⟩,
      ⟨_, highest_of hs.2.2 kz.2, by dsimp only; rw [u4.1]; exact u4.2⟩⟩

end LibLAS
