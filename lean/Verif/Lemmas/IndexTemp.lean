import Verif.Lemmas.IndexMap
import Verif.Lemmas.Stream
/-
The temporary file: it always is the rendering of a list of pieces, each with the offset of the next piece of the same
cell in front.
-/
namespace LibLAS.Index
open Spec

theorem put64_length (n : Nat) : (put64 n).length = 8 := put_length _ _
theorem put32_length (n : Nat) : (put32 n).length = 4 := put_length _ _
theorem put8_length (n : Nat) : (put8 n).length = 1 := put_length _ _

theorem fread_mid (a b c : List Byte) {pos k : Nat} (h1 : a.length = pos) (h2 : b.length = k) :
    fread (a ++ (b ++ c)) pos k = some b := by
  subst h1; subst h2
  unfold fread
  simp

theorem freadNat_mid {a c : List Byte} {pos k n : Nat} (h1 : a.length = pos) (hn : n < 2 ^ (8 * k)) :
    freadNat (a ++ (put k (BitVec.ofNat (8 * k) n) ++ c)) pos k = some n := by
  unfold freadNat
  rw [fread_mid a _ c h1 (put_length _ _)]
  simp only [Option.map_some, Option.some.injEq]
  rw [got_put, BitVec.toNat_ofNat, Nat.mod_eq_of_lt hn]

theorem freadNat_64 {a c : List Byte} {pos n : Nat} (h1 : a.length = pos) (hn : n < 2 ^ 64) :
    freadNat (a ++ (put64 n ++ c)) pos 8 = some n := freadNat_mid h1 hn
theorem freadNat_32 {a c : List Byte} {pos n : Nat} (h1 : a.length = pos) (hn : n < 2 ^ 32) :
    freadNat (a ++ (put32 n ++ c)) pos 4 = some n := freadNat_mid h1 hn
theorem freadNat_8 {a c : List Byte} {pos n : Nat} (h1 : a.length = pos) (hn : n < 2 ^ 8) :
    freadNat (a ++ (put8 n ++ c)) pos 1 = some n := freadNat_mid h1 hn

theorem putRuns_length (r : Runs) : (putRuns r).length = 5 * r.length := by
  induction r with
  | nil => rfl
  | cons e t ih =>
    show ((put32 e.1 ++ put8 e.2) ++ putRuns t).length = _
    simp [put32_length, put8_length, ih]; omega

theorem putRuns_cons (a n : Nat) (t : Runs) : putRuns ((a, n) :: t) = put32 a ++ (put8 n ++ putRuns t) := by
  simp [putRuns]

/-- Adding several runs. -/
def addRuns (c : Cell) (r : Runs) : Cell := r.foldl (fun c e => c.addPointRecords e.1 e.2) c

theorem loadRuns_ok (r : Runs) : ∀ (a c : List Byte) (pos : Nat) (cell : Cell), a.length = pos →
    (∀ e ∈ r, e.1 < 2 ^ 32 ∧ e.2 < 2 ^ 8) → loadRuns (a ++ (putRuns r ++ c)) r.length pos cell = some (addRuns cell r) := by
  induction r with
  | nil => intros; rfl
  | cons e t ih =>
    intro a c pos cell h1 h2
    obtain ⟨id, n⟩ := e
    obtain ⟨k1, k2⟩ := h2 (id, n) (by simp)
    show (match freadNat _ pos 4, freadNat _ (pos + 4) 1 with
      | some id, some k => loadRuns _ t.length (pos + 5) (cell.addPointRecords id k)
      | _, _ => none) = _
    have e1 : a ++ (putRuns ((id, n) :: t) ++ c) = a ++ (put32 id ++ (put8 n ++ putRuns t ++ c)) := by
      rw [putRuns_cons]; simp
    have e2 : a ++ (putRuns ((id, n) :: t) ++ c) = (a ++ put32 id) ++ (put8 n ++ (putRuns t ++ c)) := by
      rw [putRuns_cons]; simp
    have e3 : a ++ (putRuns ((id, n) :: t) ++ c) = (a ++ put32 id ++ put8 n) ++ (putRuns t ++ c) := by
      rw [putRuns_cons]; simp
    have f1 : freadNat (a ++ (putRuns ((id, n) :: t) ++ c)) pos 4 = some id := by rw [e1]; exact freadNat_32 h1 k1
    have f2 : freadNat (a ++ (putRuns ((id, n) :: t) ++ c)) (pos + 4) 1 = some n := by
      rw [e2]; exact freadNat_8 (by simp [put32_length, h1]) k2
    rw [f1, f2]
    dsimp only
    rw [e3, ih _ c (pos + 5) _ (by simp [put32_length, put8_length, h1]) fun e he => h2 e (by simp [he])]
    rfl

/-- A piece of the temporary file: the cell, and the bytes behind the 8-byte pointer. -/
abbrev Piece := (Nat × Nat) × List Byte

/-- Offset of the first piece of cell `c` in `l`, which starts at `base`; 0 if there is none. -/
def nextOff (c : Nat × Nat) : Nat → List Piece → Nat
  | _, [] => 0
  | base, (d, b) :: rest => if d = c then base else nextOff c (base + 8 + b.length) rest

/-- The bytes of pieces placed at `base`. -/
def render : Nat → List Piece → List Byte
  | _, [] => []
  | base, (c, b) :: rest => put64 (nextOff c (base + 8 + b.length) rest) ++ (b ++ render (base + 8 + b.length) rest)

/-- Size of pieces. -/
def sizeOf' (l : List Piece) : Nat := (l.map fun p => 8 + p.2.length).sum

theorem sizeOf'_cons (p : Piece) (l : List Piece) : sizeOf' (p :: l) = 8 + p.2.length + sizeOf' l := by simp [sizeOf']
theorem sizeOf'_append (a b : List Piece) : sizeOf' (a ++ b) = sizeOf' a + sizeOf' b := by simp [sizeOf']

theorem render_length (l : List Piece) : ∀ base, (render base l).length = sizeOf' l := by
  induction l with
  | nil => intro; rfl
  | cons p l ih =>
    intro base
    obtain ⟨c, b⟩ := p
    show (put64 _ ++ (b ++ render _ l)).length = _
    rw [List.length_append, List.length_append, ih, put64_length, sizeOf'_cons]
    simp only []; omega

theorem nextOff_append_mem {c : Nat × Nat} (a b : List Piece) : ∀ base, c ∈ a.map Prod.fst →
    nextOff c base (a ++ b) = nextOff c base a := by
  induction a with
  | nil => intro base h; simp at h
  | cons p a ih =>
    intro base h
    obtain ⟨d, x⟩ := p
    show (if d = c then _ else _) = (if d = c then _ else _)
    split
    · rfl
    · rename_i hd
      apply ih
      simp only [List.map_cons, List.mem_cons] at h
      rcases h with h | h
      · exact absurd h.symm hd
      · exact h

theorem nextOff_append_not_mem {c : Nat × Nat} (a b : List Piece) : ∀ base, c ∉ a.map Prod.fst →
    nextOff c base (a ++ b) = nextOff c (base + sizeOf' a) b := by
  induction a with
  | nil => intro base _; simp [sizeOf']
  | cons p a ih =>
    intro base h
    obtain ⟨d, x⟩ := p
    simp only [List.map_cons, List.mem_cons, not_or] at h
    show (if d = c then _ else _) = _
    rw [if_neg (fun e => h.1 e.symm), show (List.append a b) = a ++ b from rfl, ih _ h.2, sizeOf'_cons]
    congr 1
    simp only []; omega

theorem nextOff_not_mem {c : Nat × Nat} (a : List Piece) (base : Nat) (h : c ∉ a.map Prod.fst) : nextOff c base a = 0 := by
  have := nextOff_append_not_mem a [] base h
  rw [List.append_nil] at this
  rw [this]; rfl

theorem nextOff_le {c : Nat × Nat} (l : List Piece) : ∀ base, nextOff c base l ≤ base + sizeOf' l := by
  induction l with
  | nil => intro base; simp [nextOff]
  | cons p l ih =>
    intro base
    obtain ⟨d, x⟩ := p
    show (if d = c then _ else _) ≤ _
    rw [sizeOf'_cons]
    have := ih (base + 8 + x.length)
    simp only []
    split <;> omega

/-- The rendering of a list, when pieces of other cells follow. -/
theorem render_append_ne (l : List Piece) (q : Piece) : ∀ base, q.1 ∉ l.map Prod.fst →
    render base (l ++ [q]) = render base l ++ render (base + sizeOf' l) [q] := by
  induction l with
  | nil => intro base _; simp [sizeOf', render]
  | cons p l ih =>
    intro base h
    obtain ⟨d, x⟩ := p
    simp only [List.map_cons, List.mem_cons, not_or] at h
    show put64 (nextOff d _ (l ++ [q])) ++ (x ++ render _ (l ++ [q])) = (put64 (nextOff d _ l) ++ (x ++ render _ l)) ++ _
    rw [ih _ h.2, sizeOf'_cons]
    have e : nextOff d (base + 8 + x.length) (l ++ [q]) = nextOff d (base + 8 + x.length) l := by
      by_cases hm : d ∈ l.map Prod.fst
      · exact nextOff_append_mem l [q] _ hm
      · rw [nextOff_append_not_mem l [q] _ hm, nextOff_not_mem l _ hm]
        obtain ⟨qc, qb⟩ := q
        show (if qc = d then _ else _) = 0
        rw [if_neg fun e => h.1 e]; rfl
    have e3 : base + 8 + x.length + sizeOf' l = base + (8 + x.length + sizeOf' l) := by omega
    rw [e, e3]
    simp

theorem overlay_append_right (a b bs : List Byte) (p : Nat) : overlay (a ++ b) (a.length + p) bs = a ++ overlay b p bs := by
  unfold overlay
  split
  · rfl
  · have h1 : (a ++ b).take (a.length + p) = a ++ b.take p := by
      rw [List.take_append, List.take_of_length_le (by omega)]; congr 2; omega
    have h2 : (a ++ b).drop (a.length + p + bs.length) = b.drop (p + bs.length) := by
      rw [Nat.add_assoc, List.drop_append]; simp
    rw [h1, h2]
    have : a.length + p - (a ++ b).length = p - b.length := by simp; omega
    rw [this]; simp

theorem overlay_front (x b bs : List Byte) (h : x.length = bs.length) : overlay (x ++ b) 0 bs = bs ++ b := by
  unfold overlay
  split
  · rename_i h0; subst h0; simp at h; simp [h]
  · simp [h]

/-- Appending a piece of cell `c` overwrites the pointer of the last earlier piece of `c`, and nothing else. -/
theorem render_append (l1 l2 : List Piece) (c : Nat × Nat) (b0 b : List Byte) : ∀ base, c ∉ l2.map Prod.fst →
    render base (l1 ++ (c, b0) :: l2 ++ [(c, b)]) =
      overlay (render base (l1 ++ (c, b0) :: l2)) (sizeOf' l1) (put64 (base + sizeOf' (l1 ++ (c, b0) :: l2))) ++
        (put64 0 ++ b) := by
  induction l1 with
  | nil =>
    intro base h
    show put64 (nextOff c (base + 8 + b0.length) (l2 ++ [(c, b)])) ++ (b0 ++ render _ (l2 ++ [(c, b)])) =
      overlay (put64 (nextOff c (base + 8 + b0.length) l2) ++ (b0 ++ render _ l2)) 0 _ ++ _
    rw [overlay_front _ _ _ (by rw [put64_length, put64_length]), render_append_ne _ _ _ h, nextOff_append_not_mem _ _ _ h]
    have e : nextOff c (base + 8 + b0.length + sizeOf' l2) [(c, b)] = base + sizeOf' ([] ++ (c, b0) :: l2) := by
      show (if c = c then _ else _) = _
      rw [if_pos rfl, List.nil_append, sizeOf'_cons]; simp only []; omega
    rw [e]
    simp [render, nextOff]
  | cons p l1 ih =>
    intro base h
    obtain ⟨d, x⟩ := p
    have hl : (put64 (nextOff d (base + 8 + x.length) (l1 ++ (c, b0) :: l2)) ++ x).length = 8 + x.length := by
      simp [put64_length]
    show put64 (nextOff d (base + 8 + x.length) (l1 ++ (c, b0) :: l2 ++ [(c, b)])) ++
        (x ++ render (base + 8 + x.length) (l1 ++ (c, b0) :: l2 ++ [(c, b)])) =
      overlay (put64 (nextOff d (base + 8 + x.length) (l1 ++ (c, b0) :: l2)) ++
        (x ++ render (base + 8 + x.length) (l1 ++ (c, b0) :: l2))) _ _ ++ _
    rw [ih _ h, sizeOf'_cons, ← List.append_assoc (put64 (nextOff d _ (l1 ++ (c, b0) :: l2))) x]
    have e2 : 8 + ((d, x) : Piece).2.length + sizeOf' l1 =
        (put64 (nextOff d (base + 8 + x.length) (l1 ++ (c, b0) :: l2)) ++ x).length + sizeOf' l1 := by rw [hl]
    rw [e2, overlay_append_right, List.cons_append, sizeOf'_cons]
    have e : nextOff d (base + 8 + x.length) (l1 ++ (c, b0) :: l2 ++ [(c, b)]) =
        nextOff d (base + 8 + x.length) (l1 ++ (c, b0) :: l2) := by
      by_cases hm : d ∈ (l1 ++ (c, b0) :: l2).map Prod.fst
      · exact nextOff_append_mem _ _ _ hm
      · rw [nextOff_append_not_mem _ _ _ hm, nextOff_not_mem _ _ hm]
        show (if c = d then _ else _) = 0
        rw [if_neg]
        · rfl
        · intro e; apply hm; simp [e]
    rw [e, show base + 8 + x.length + sizeOf' (l1 ++ (c, b0) :: l2) =
      base + (8 + ((d, x) : Piece).2.length + sizeOf' (l1 ++ (c, b0) :: l2)) by simp only []; omega]
    simp

/-- The body of a block of runs. -/
def body (r : Runs) : List Byte := put32 r.length ++ putRuns r

theorem body_length (r : Runs) : (body r).length = 4 + 5 * r.length := by
  simp [body, put32_length, putRuns_length]

/-- Blocks of runs as pieces. -/
def pieces (l : List ((Nat × Nat) × Runs)) : List Piece := l.map fun e => (e.1, body e.2)

/-- The runs of one cell. -/
def runsOf (c : Nat × Nat) (l : List ((Nat × Nat) × Runs)) : Runs := (l.filter fun e => e.1 = c).flatMap Prod.snd

theorem addRuns_append (c : Cell) (r s : Runs) : addRuns c (r ++ s) = addRuns (addRuns c r) s := by simp [addRuns]

/-- Following the pointers from the first block of `c`. -/
theorem loadChain_render (c : Nat × Nat) (l : List ((Nat × Nat) × Runs)) : ∀ (pre : List Byte) (fuel : Nat) (cell : Cell),
    0 < pre.length → l.length ≤ fuel → pre.length + sizeOf' (pieces l) < 2 ^ 64 →
    (∀ e ∈ l, e.2.length < 2 ^ 32 ∧ ∀ r ∈ e.2, r.1 < 2 ^ 32 ∧ r.2 < 2 ^ 8) →
    loadChain (pre ++ render pre.length (pieces l)) fuel (nextOff c pre.length (pieces l)) cell =
      .ok (some (addRuns cell (runsOf c l))) := by
  induction l with
  | nil => intro pre fuel cell _ _ _ _; cases fuel <;> rfl
  | cons e l ih =>
    intro pre fuel cell h0 hf hs hw
    obtain ⟨d, r⟩ := e
    have hsz : sizeOf' (pieces ((d, r) :: l)) = 8 + (body r).length + sizeOf' (pieces l) := by
      show sizeOf' ((d, body r) :: pieces l) = _; rw [sizeOf'_cons]
    rw [hsz] at hs
    have hfile : pre ++ render pre.length (pieces ((d, r) :: l)) =
        (pre ++ put64 (nextOff d (pre.length + 8 + (body r).length) (pieces l)) ++ body r) ++
          render (pre.length + 8 + (body r).length) (pieces l) := by
      show pre ++ (put64 (nextOff d _ (pieces l)) ++ (body r ++ render _ (pieces l))) = _
      simp
    have hlen : (pre ++ put64 (nextOff d (pre.length + 8 + (body r).length) (pieces l)) ++ body r).length =
        pre.length + 8 + (body r).length := by simp [put64_length]; omega
    have hoff : nextOff c pre.length (pieces ((d, r) :: l)) =
        if d = c then pre.length else nextOff c (pre.length + 8 + (body r).length) (pieces l) := rfl
    have hwl : ∀ e ∈ l, e.2.length < 2 ^ 32 ∧ ∀ r ∈ e.2, r.1 < 2 ^ 32 ∧ r.2 < 2 ^ 8 := fun e he => hw e (by simp [he])
    obtain ⟨w1, w2⟩ := hw (d, r) (by simp)
    have ih' := fun fuel cell => ih (pre ++ put64 (nextOff d (pre.length + 8 + (body r).length) (pieces l)) ++ body r) fuel cell
      (by rw [hlen]; omega)
    rw [hlen, ← hfile] at ih'
    rw [hoff]
    by_cases hd : d = c
    · subst hd
      rw [if_pos rfl]
      cases fuel with
      | zero => simp at hf
      | succ fuel =>
        have hne : pre.length ≠ 0 := by omega
        have f1 : freadNat (pre ++ render pre.length (pieces ((d, r) :: l))) pre.length 8 =
            some (nextOff d (pre.length + 8 + (body r).length) (pieces l)) := by
          show freadNat (pre ++ (put64 (nextOff d (pre.length + 8 + (body r).length) (pieces l)) ++ _)) _ 8 = _
          apply freadNat_64 rfl
          have := nextOff_le (c := d) (pieces l) (pre.length + 8 + (body r).length)
          omega
        have f2 : freadNat (pre ++ render pre.length (pieces ((d, r) :: l))) (pre.length + 8) 4 = some r.length := by
          have : pre ++ render pre.length (pieces ((d, r) :: l)) =
              (pre ++ put64 (nextOff d (pre.length + 8 + (body r).length) (pieces l))) ++ (put32 r.length ++
                (putRuns r ++ render (pre.length + 8 + (body r).length) (pieces l))) := by
            rw [hfile]; simp [body]
          rw [this]
          exact freadNat_32 (by simp [put64_length]) w1
        have f3 : loadRuns (pre ++ render pre.length (pieces ((d, r) :: l))) r.length (pre.length + 12) cell =
            some (addRuns cell r) := by
          have : pre ++ render pre.length (pieces ((d, r) :: l)) =
              (pre ++ put64 (nextOff d (pre.length + 8 + (body r).length) (pieces l)) ++ put32 r.length) ++
                (putRuns r ++ render (pre.length + 8 + (body r).length) (pieces l)) := by
            rw [hfile]; simp [body]
          rw [this]
          exact loadRuns_ok r _ _ _ _ (by simp [put64_length, put32_length]) w2
        have hstep : loadChain (pre ++ render pre.length (pieces ((d, r) :: l))) (fuel + 1) pre.length cell =
            loadChain (pre ++ render pre.length (pieces ((d, r) :: l))) fuel
              (nextOff d (pre.length + 8 + (body r).length) (pieces l)) (addRuns cell r) := by
          generalize pre ++ render pre.length (pieces ((d, r) :: l)) = f at *
          generalize pre.length = o at *
          cases o with
          | zero => exact absurd rfl hne
          | succ o =>
            show (match freadNat f (o + 1) 8, freadNat f (o + 1 + 8) 4 with
              | some next, some n =>
                match loadRuns f n (o + 1 + 12) cell with
                | some c => loadChain f fuel next c
                | none => Outcome.ok none
              | _, _ => .ok none) = _
            rw [f1, f2]
            dsimp only
            rw [f3]
        rw [hstep, ih' fuel _ (by simp at hf; omega) (by omega) hwl, ← addRuns_append]
        simp [runsOf]
    · rw [if_neg hd, ih' fuel cell (by simp at hf; omega) (by omega) hwl]
      simp [runsOf, hd]

end LibLAS.Index
