import Verif.Lemmas.IndexOut
import Verif.Spec.IndexRecords
/-
Reading the records of an index: every visitor sees the runs of the cells in order.
-/
namespace LibLAS.Index
open Spec

section
variable {σ : Type} (v : Visitor σ)

def foldRuns (x y : Nat) (p : Place) : Runs → σ → σ
  | [], s => s
  | e :: r, s =>
    let s := v.run s x y p e.1 e.2
    if v.full s then s else foldRuns x y p r s

def foldSubs (x y : Nat) (p : Nat → Place) : List (Nat × Runs) → σ → σ
  | [], s => s
  | e :: m, s =>
    let s := foldRuns v x y (p e.1) e.2 s
    if v.full s then s else foldSubs x y p m s

def foldCell (e : (Nat × Nat) × Cell) (s : σ) : σ :=
  if e.2.zCells ≠ [] then foldSubs v e.1.1 e.1.2 .z e.2.zCells s
  else if e.2.subCells ≠ [] then foldSubs v e.1.1 e.1.2 .sub e.2.subCells s
  else foldRuns v e.1.1 e.1.2 .main e.2.pts s

def foldCells : Nat → List ((Nat × Nat) × Cell) → σ → σ
  | _, [], s => s
  | pos, e :: cs, s =>
    let s := foldCell v e (v.start s pos)
    if v.full s then s else foldCells (pos + Grouping.entryLen e) cs s

variable {v}

theorem walkRuns_ok {x y : Nat} {p : Place} (r : Runs) : ∀ {b a c : List Byte} {pos : Nat} (s : σ), b = a ++ (putRuns r ++ c) →
    a.length = pos → (∀ e ∈ r, e.1 < 2 ^ 32 ∧ e.2 < 2 ^ 8) →
    ∃ q, walkRuns v b x y p r.length s pos = (foldRuns v x y p r s, some q) ∧
      (q = pos + (putRuns r).length ∨ v.full (foldRuns v x y p r s) = true) := by
  induction r with
  | nil => intro b a c pos s hb ha hr; exact ⟨pos, rfl, Or.inl (by simp [putRuns])⟩
  | cons e r ih =>
    intro b a c pos s hb ha hr
    obtain ⟨id, n⟩ := e
    obtain ⟨h1, h2⟩ := hr (id, n) (by simp)
    have f1 : freadNat b pos 4 = some id := by
      rw [hb, putRuns_cons, List.append_assoc]; exact freadNat_32 ha h1
    have f2 : freadNat b (pos + 4) 1 = some n := by
      have : b = (a ++ put32 id) ++ (put8 n ++ (putRuns r ++ c)) := by rw [hb, putRuns_cons]; simp
      rw [this]; exact freadNat_8 (by simp [put32_length, ha]) h2
    have hb' : b = (a ++ put32 id ++ put8 n) ++ (putRuns r ++ c) := by rw [hb, putRuns_cons]; simp
    show ∃ q, (match freadNat b pos 4, freadNat b (pos + 4) 1 with
      | some id, some k =>
        let s := v.run s x y p id k
        if v.full s then (s, some (pos + 5)) else walkRuns v b x y p r.length s (pos + 5)
      | _, _ => (s, none)) = _ ∧ _
    rw [f1, f2]
    unfold foldRuns
    simp only
    by_cases hf : v.full (v.run s x y p id n) = true
    · simp only [if_pos hf]
      exact ⟨_, rfl, Or.inr hf⟩
    · simp only [if_neg hf]
      obtain ⟨q, q1, q2⟩ := ih (b := b) (a := a ++ put32 id ++ put8 n) (c := c) (pos := pos + 5) (v.run s x y p id n) hb'
        (by simp [put32_length, put8_length, ha]) fun e he => hr e (by simp [he])
      refine ⟨q, q1, q2.imp_left fun h => ?_⟩
      rw [h, putRuns_cons]; simp [put32_length, put8_length]; omega

theorem putSubs_cons (e : Nat × Runs) (m : List (Nat × Runs)) :
    putSubs (e :: m) = put32 e.1 ++ (put32 e.2.length ++ (putRuns e.2 ++ putSubs m)) := by simp [putSubs]

theorem walkSubs_ok {x y : Nat} {p : Nat → Place} (m : List (Nat × Runs)) : ∀ {b a c : List Byte} {pos : Nat} (s : σ),
    b = a ++ (putSubs m ++ c) → a.length = pos → (∀ e ∈ m, e.1 < 2 ^ 32 ∧ RunsFit e.2) →
    ∃ q, walkSubs v b x y p m.length s pos = (foldSubs v x y p m s, some q) ∧
      (q = pos + (putSubs m).length ∨ v.full (foldSubs v x y p m s) = true) := by
  induction m with
  | nil => intro b a c pos s hb ha hr; exact ⟨pos, rfl, Or.inl (by simp [putSubs])⟩
  | cons e m ih =>
    intro b a c pos s hb ha hr
    obtain ⟨h1, h2, h3⟩ := hr e (by simp)
    rw [putSubs_cons] at hb
    have f1 : freadNat b pos 4 = some e.1 := by
      rw [hb, List.append_assoc]; exact freadNat_32 ha h1
    have f2 : freadNat b (pos + 4) 4 = some e.2.length := by
      have : b = (a ++ put32 e.1) ++ (put32 e.2.length ++ (putRuns e.2 ++ putSubs m ++ c)) := by rw [hb]; simp
      rw [this]; exact freadNat_32 (by simp [put32_length, ha]) h2
    obtain ⟨q, q1, q2⟩ := walkRuns_ok (v := v) (x := x) (y := y) (p := p e.1) e.2 (b := b) (a := a ++ put32 e.1 ++ put32 e.2.length)
      (c := putSubs m ++ c) (pos := pos + 8) s (by rw [hb]; simp) (by simp [put32_length, ha]) h3
    show ∃ q, (match freadNat b pos 4, freadNat b (pos + 4) 4 with
      | some k, some n =>
        match walkRuns v b x y (p k) n s (pos + 8) with
        | (s, none) => (s, none)
        | (s, some pos) => if v.full s then (s, some pos) else walkSubs v b x y p m.length s pos
      | _, _ => (s, none)) = _ ∧ _
    rw [f1, f2]
    simp only [q1]
    unfold foldSubs
    simp only
    by_cases hf : v.full (foldRuns v x y (p e.1) e.2 s) = true
    · simp only [if_pos hf]
      exact ⟨_, rfl, Or.inr hf⟩
    · simp only [if_neg hf]
      have hq := q2.resolve_right hf
      obtain ⟨q', r1, r2⟩ := ih (b := b) (a := a ++ put32 e.1 ++ put32 e.2.length ++ putRuns e.2) (c := c) (pos := q)
        (foldRuns v x y (p e.1) e.2 s) (by rw [hb]; simp) (by rw [hq]; simp [put32_length, ha]; omega) fun e he => hr e (by simp [he])
      refine ⟨q', r1, r2.imp_left fun h => ?_⟩
      rw [h, hq, putSubs_cons]; simp [put32_length]; omega

theorem put16_length (z : Int) : (put16 z).length = 2 := put_length _ _

/-- What is behind the numbers at the start of a cell. -/
def partBytes (c : Cell) : List Byte :=
  (if c.zCells.length ≠ 0 then putSubs c.zCells else []) ++
    (if c.subCells.length ≠ 0 then putSubs c.subCells else []) ++
    (if c.zCells.length = 0 ∧ c.subCells.length = 0 then putRuns c.pts else [])

theorem cellBytes_eq (x y : Nat) (c : Cell) : cellBytes x y c = put32 x ++ (put32 y ++ (put32 c.numPoints ++ (put16 c.minZ ++
    (put16 c.maxZ ++ (put32 c.pts.length ++ (put32 c.subCells.length ++ (put32 c.zCells.length ++ partBytes c))))))) := by
  simp [cellBytes, partBytes]

theorem freadNat_some {b a m c : List Byte} {pos k : Nat} (hb : b = a ++ (m ++ c)) (ha : a.length = pos) (hm : m.length = k) :
    ∃ n, freadNat b pos k = some n := by
  unfold freadNat
  rw [hb, fread_mid a m c ha hm]
  exact ⟨_, rfl⟩

theorem readCell_ok {e : (Nat × Nat) × Cell} (h : Fits e) {b a c : List Byte} {pos : Nat} (hb : b = a ++ (cellBytes e.1.1 e.1.2 e.2 ++ c))
    (ha : a.length = pos) : readCell b pos = some (e.1.1, e.1.2, e.2.pts.length, e.2.subCells.length, e.2.zCells.length) := by
  have hp := put32_length
  have hq := put16_length
  rw [cellBytes_eq] at hb
  have f1 : freadNat b pos 4 = some e.1.1 := by rw [hb, List.append_assoc]; exact freadNat_32 ha h.x
  have f2 : freadNat b (pos + 4) 4 = some e.1.2 := by
    rw [show b = (a ++ put32 e.1.1) ++ (put32 e.1.2 ++ (put32 e.2.numPoints ++ (put16 e.2.minZ ++
      (put16 e.2.maxZ ++ (put32 e.2.pts.length ++ (put32 e.2.subCells.length ++ (put32 e.2.zCells.length ++ (partBytes e.2 ++ c)))))))) by
        rw [hb]; simp]
    exact freadNat_32 (by simp [hp, ha]) h.y
  obtain ⟨n3, f3⟩ := freadNat_some (b := b) (a := a ++ put32 e.1.1 ++ put32 e.1.2) (m := put32 e.2.numPoints) (pos := pos + 8) (k := 4)
    (c := put16 e.2.minZ ++ (put16 e.2.maxZ ++ (put32 e.2.pts.length ++ (put32 e.2.subCells.length ++ (put32 e.2.zCells.length ++
      (partBytes e.2 ++ c)))))) (by rw [hb]; simp) (by simp [hp, ha]) (hp _)
  obtain ⟨n4, f4⟩ := freadNat_some (b := b) (a := a ++ put32 e.1.1 ++ put32 e.1.2 ++ put32 e.2.numPoints) (m := put16 e.2.minZ)
    (pos := pos + 12) (k := 2) (c := put16 e.2.maxZ ++ (put32 e.2.pts.length ++ (put32 e.2.subCells.length ++ (put32 e.2.zCells.length ++
      (partBytes e.2 ++ c))))) (by rw [hb]; simp) (by simp [hp, ha]) (hq _)
  obtain ⟨n5, f5⟩ := freadNat_some (b := b) (a := a ++ put32 e.1.1 ++ put32 e.1.2 ++ put32 e.2.numPoints ++ put16 e.2.minZ) (m := put16 e.2.maxZ)
    (pos := pos + 14) (k := 2) (c := put32 e.2.pts.length ++ (put32 e.2.subCells.length ++ (put32 e.2.zCells.length ++
      (partBytes e.2 ++ c)))) (by rw [hb]; simp) (by simp [hp, hq, ha]) (hq _)
  have f6 : freadNat b (pos + 16) 4 = some e.2.pts.length := by
    rw [show b = (a ++ put32 e.1.1 ++ put32 e.1.2 ++ put32 e.2.numPoints ++ put16 e.2.minZ ++ put16 e.2.maxZ) ++ (put32 e.2.pts.length ++
      (put32 e.2.subCells.length ++ (put32 e.2.zCells.length ++ (partBytes e.2 ++ c)))) by rw [hb]; simp]
    exact freadNat_32 (by simp [hp, hq, ha]) h.pts.1
  have f7 : freadNat b (pos + 20) 4 = some e.2.subCells.length := by
    rw [show b = (a ++ put32 e.1.1 ++ put32 e.1.2 ++ put32 e.2.numPoints ++ put16 e.2.minZ ++ put16 e.2.maxZ ++ put32 e.2.pts.length) ++
      (put32 e.2.subCells.length ++ (put32 e.2.zCells.length ++ (partBytes e.2 ++ c))) by rw [hb]; simp]
    exact freadNat_32 (by simp [hp, hq, ha]) h.sub.1
  have f8 : freadNat b (pos + 24) 4 = some e.2.zCells.length := by
    rw [show b = (a ++ put32 e.1.1 ++ put32 e.1.2 ++ put32 e.2.numPoints ++ put16 e.2.minZ ++ put16 e.2.maxZ ++ put32 e.2.pts.length ++
      put32 e.2.subCells.length) ++ (put32 e.2.zCells.length ++ (partBytes e.2 ++ c)) by rw [hb]; simp]
    exact freadNat_32 (by simp [hp, hq, ha]) h.z.1
  unfold readCell
  rw [f1, f2, f3, f4, f5, f6, f7, f8]

theorem walkCell_ok {e : (Nat × Nat) × Cell} (h : Fits e) {b a c : List Byte} {pos : Nat} (s : σ)
    (hb : b = a ++ (cellBytes e.1.1 e.1.2 e.2 ++ c)) (ha : a.length = pos) :
    ∃ q, walkCell v b s pos = (foldCell v e (v.start s pos), some q) ∧
      (q = pos + Grouping.entryLen e ∨ v.full (foldCell v e (v.start s pos)) = true) := by
  unfold walkCell
  simp only [readCell_ok h hb ha]
  generalize v.start s pos = s
  have hlen : Grouping.entryLen e = 28 + (partBytes e.2).length := by
    unfold Grouping.entryLen
    rw [cellBytes_eq]; simp [put32_length, put16_length]; omega
  have hb2 : ∃ a2, b = a2 ++ (partBytes e.2 ++ c) ∧ a2.length = pos + 28 := by
    rw [cellBytes_eq] at hb
    refine ⟨a ++ put32 e.1.1 ++ put32 e.1.2 ++ put32 e.2.numPoints ++ put16 e.2.minZ ++ put16 e.2.maxZ ++ put32 e.2.pts.length ++
      put32 e.2.subCells.length ++ put32 e.2.zCells.length, by rw [hb]; simp, by simp [put32_length, put16_length, ha]⟩
  obtain ⟨a2, hb2, ha2⟩ := hb2
  unfold walkParts foldCell
  by_cases hz : e.2.zCells = []
  · rw [hz]
    simp only [List.length_nil, walkSubs, ne_eq, not_true_eq_false, if_false]
    by_cases hs : e.2.subCells = []
    · rw [hs]
      simp only [List.length_nil, walkSubs, and_self, if_true, ne_eq, not_true_eq_false, if_false]
      have hpb : partBytes e.2 = putRuns e.2.pts := by simp [partBytes, hz, hs]
      rw [hpb] at hb2 hlen
      obtain ⟨q, q1, q2⟩ := walkRuns_ok (v := v) (x := e.1.1) (y := e.1.2) (p := .main) e.2.pts s hb2 ha2 h.pts.2
      exact ⟨q, q1, q2.imp_left fun h => by omega⟩
    · rw [if_pos hs]
      have hne : e.2.subCells.length ≠ 0 := by simpa using hs
      have hpb : partBytes e.2 = putSubs e.2.subCells := by simp [partBytes, hz, hs]
      rw [hpb] at hb2 hlen
      obtain ⟨q, q1, q2⟩ := walkSubs_ok (v := v) (x := e.1.1) (y := e.1.2) (p := .sub) e.2.subCells s hb2 ha2 h.sub.2
      simp only [q1]
      rw [if_neg (by simp [hs])]
      exact ⟨q, rfl, q2.imp_left fun h => by omega⟩
  · rw [if_pos hz]
    have hs : e.2.subCells = [] := h.one.resolve_left hz
    have hpb : partBytes e.2 = putSubs e.2.zCells := by simp [partBytes, hz, hs]
    rw [hpb] at hb2 hlen
    obtain ⟨q, q1, q2⟩ := walkSubs_ok (v := v) (x := e.1.1) (y := e.1.2) (p := .z) e.2.zCells s hb2 ha2 h.z.2
    simp only [q1, hs, List.length_nil, walkSubs]
    rw [if_neg (by simp [hz])]
    exact ⟨q, rfl, q2.imp_left fun h => by omega⟩

theorem entryLen_ge (e : (Nat × Nat) × Cell) : 28 ≤ Grouping.entryLen e := by
  unfold Grouping.entryLen
  rw [cellBytes_eq]; simp [put32_length, put16_length]; omega

def bodyBytes (cs : List ((Nat × Nat) × Cell)) : List Byte := cs.flatMap fun e => cellBytes e.1.1 e.1.2 e.2

theorem walkCells_ok (cs : List ((Nat × Nat) × Cell)) : ∀ {b a c : List Byte} {pos size fuel : Nat} (s : σ), (∀ e ∈ cs, Fits e) →
    b = a ++ (bodyBytes cs ++ c) → a.length = pos → size = pos + (bodyBytes cs).length → (bodyBytes cs).length < fuel →
    walkCells v b size fuel s pos = .ok (foldCells v pos cs s, true) := by
  induction cs with
  | nil =>
    intro b a c pos size fuel s hf hb ha hs hfu
    obtain ⟨fuel, rfl⟩ : ∃ k, fuel = k + 1 := ⟨fuel - 1, by omega⟩
    unfold walkCells
    rw [if_neg (by simp [bodyBytes] at hs; omega)]
    rfl
  | cons e cs ih =>
    intro b a c pos size fuel s hf hb ha hs hfu
    obtain ⟨fuel, rfl⟩ : ∃ k, fuel = k + 1 := ⟨fuel - 1, by omega⟩
    have hge := entryLen_ge e
    have hl : (bodyBytes (e :: cs)).length = Grouping.entryLen e + (bodyBytes cs).length := by
      simp [bodyBytes, Grouping.entryLen]
    have hb' : b = a ++ (cellBytes e.1.1 e.1.2 e.2 ++ (bodyBytes cs ++ c)) := by rw [hb]; simp [bodyBytes]
    obtain ⟨q, q1, q2⟩ := walkCell_ok (v := v) (hf e (by simp)) s hb' ha
    unfold walkCells
    rw [if_pos (by omega)]
    simp only [q1]
    unfold foldCells
    simp only
    by_cases hfull : v.full (foldCell v e (v.start s pos)) = true
    · simp only [if_pos hfull]
    · simp only [if_neg hfull]
      have hq := q2.resolve_right hfull
      rw [hq]
      refine ih (a := a ++ cellBytes e.1.1 e.1.2 e.2) (c := c) _ (fun e he => hf e (by simp [he])) (by rw [hb']; simp) ?_ (by omega) (by omega)
      rw [List.length_append, ha]; rfl

end

/-- Numbers in front of a group that can be read back. -/
structure GrpFits (g : Grp) : Prop where
  first : g.first.1 < 2 ^ 32 ∧ g.first.2 < 2 ^ 32
  last : g.last.1 < 2 ^ 32 ∧ g.last.2 < 2 ^ 32
  size : g.size < 2 ^ 32
  cells : ∀ e ∈ g.cells, Fits e

theorem gatherMore_ok {size : Nat} : ∀ {rs : List VLR} {cs : List (List Byte)} (got : List Byte) (used : Nat) (more : List VLR),
    List.Forall₂ (fun v c => recordBytesOf v = some c ∧ c ≠ []) rs cs → (rs = [] → size ≤ got.length) → (rs ≠ [] → (got ++ cs.flatten).length = size) →
    gatherMore size got used (rs ++ more) = .ok (some (got ++ cs.flatten, used + rs.length)) := by
  intro rs
  induction rs with
  | nil =>
    intro cs got used more h h1 h2
    cases h
    have := h1 rfl
    unfold gatherMore
    rw [if_neg (by omega)]
    simp
  | cons v rs ih =>
    intro cs got used more h h1 h2
    cases h with
    | cons hv hr =>
      rename_i c cs
      have hsz := h2 (by simp)
      rw [List.flatten_cons] at hsz
      simp only [List.length_append] at hsz
      have hc : 0 < c.length := List.length_pos_iff.2 hv.2
      unfold gatherMore
      rw [if_pos (by omega)]
      simp only [List.cons_append, hv.1]
      rw [if_neg (by omega), ih (got ++ c) (used + 1) more hr]
      · simp; omega
      · intro hrs
        subst hrs
        cases hr
        simp at hsz ⊢; omega
      · intro _; simp only [List.length_append]; omega

theorem gather_ok {g : Grp} {vs : List VLR} (h : Holds g vs) (hg : GrpFits g) (more : List VLR) :
    ∃ v rs pad, vs = v :: rs ∧ gather v (rs ++ more) = .ok (some ⟨g.first.1, g.first.2, g.last.1, g.last.2, g.size, g.points % 2 ^ 32,
      g.bytes ++ pad, vs.length⟩) := by
  obtain ⟨v, rs, b0, cs, pad, rfl, h1, h2, h3, h4, h5, h6⟩ := h.data
  have hp := put32_length
  refine ⟨v, rs, pad, rfl, ?_⟩
  -- the first record holds the frame
  have hfr : ∃ t, b0 = Grp.frame g.first g.last g.size (g.points % 2 ^ 32) ++ t := by
    have hl := Grp.frame_length g.first g.last g.size (g.points % 2 ^ 32)
    refine ⟨b0.drop 24, ?_⟩
    have : (b0 ++ cs.flatten).take 24 = (g.bytes ++ pad).take 24 := by rw [h3]
    rw [List.take_append_of_le_length h5] at this
    unfold Grp.bytes at this
    rw [List.append_assoc, List.take_left' hl] at this
    rw [← this, List.take_append_drop]
  obtain ⟨t, ht⟩ := hfr
  unfold Grp.frame at ht
  have f0 : freadNat b0 0 4 = some g.first.1 := by
    have := freadNat_32 (a := []) (pos := 0) (n := g.first.1) (c := put32 g.first.2 ++ (put32 g.last.1 ++ (put32 g.last.2 ++ (put32 g.size ++ (put32 (g.points % 2 ^ 32) ++ t))))) rfl hg.first.1
    rw [ht]; simpa using this
  have f1 : freadNat b0 4 4 = some g.first.2 := by
    have := freadNat_32 (a := put32 g.first.1) (pos := 4) (n := g.first.2) (c := put32 g.last.1 ++ (put32 g.last.2 ++ (put32 g.size ++ (put32 (g.points % 2 ^ 32) ++ t)))) (hp _) hg.first.2
    rw [ht]; simpa using this
  have f2 : freadNat b0 8 4 = some g.last.1 := by
    have := freadNat_32 (a := put32 g.first.1 ++ put32 g.first.2) (pos := 8) (n := g.last.1) (c := put32 g.last.2 ++ (put32 g.size ++ (put32 (g.points % 2 ^ 32) ++ t))) (by simp [hp]) hg.last.1
    rw [ht]; simpa using this
  have f3 : freadNat b0 12 4 = some g.last.2 := by
    have := freadNat_32 (a := put32 g.first.1 ++ put32 g.first.2 ++ put32 g.last.1) (pos := 12) (n := g.last.2) (c := put32 g.size ++ (put32 (g.points % 2 ^ 32) ++ t)) (by simp [hp]) hg.last.2
    rw [ht]; simpa using this
  have f4 : freadNat b0 16 4 = some g.size := by
    have := freadNat_32 (a := put32 g.first.1 ++ put32 g.first.2 ++ put32 g.last.1 ++ put32 g.last.2) (pos := 16) (n := g.size) (c := put32 (g.points % 2 ^ 32) ++ t) (by simp [hp]) hg.size
    rw [ht]; simpa using this
  have f5 : freadNat b0 20 4 = some (g.points % 2 ^ 32) := by
    have := freadNat_32 (a := put32 g.first.1 ++ put32 g.first.2 ++ put32 g.last.1 ++ put32 g.last.2 ++ put32 g.size) (pos := 20) (n := g.points % 2 ^ 32) (c := t) (by simp [hp]) (Nat.mod_lt _ (by norm_num))
    rw [ht]; simpa using this
  unfold gather
  rw [h1]
  simp only [f0, f1, f2, f3, f4, f5]
  have hb := g.bytes_length
  rw [gatherMore_ok b0 1 more h2]
  · rw [h3]
    simp [Outcome.bind]; omega
  · intro hr
    subst hr
    cases h2
    simp only [List.flatten_nil, List.append_nil] at h3
    rw [h3]; simp [hb]
  · intro hr
    rw [h3, h4 hr, List.append_nil, hb]

end LibLAS.Index
