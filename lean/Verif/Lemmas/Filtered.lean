import Verif.Lemmas.MakeAny
namespace LibLAS
open Spec

/-! What filtered reading delivers, as a list function. -/

/-- All accepted records, but the last record is lost when the two before it are rejected. -/
def lossy (p : List Byte → Bool) : List (List Byte) → List (List Byte)
  | [] => []
  | [a] => [a].filter p
  | [a, b] => [a, b].filter p
  | [a, b, c] => if p a ∨ p b then [a, b, c].filter p else []
  | a :: b :: c :: d :: r => [a].filter p ++ lossy p (b :: c :: d :: r)

theorem ind5 {α : Type} {P : List α → Prop} (case1 : P []) (case2 : ∀ a, P [a]) (case3 : ∀ a b, P [a, b])
    (case4 : ∀ a b c, P [a, b, c]) (case5 : ∀ a b c d r, P (b :: c :: d :: r) → P (a :: b :: c :: d :: r)) : ∀ l, P l
  | [] => case1
  | [a] => case2 a
  | [a, b] => case3 a b
  | [a, b, c] => case4 a b c
  | a :: b :: c :: d :: r => case5 a b c d r (ind5 case1 case2 case3 case4 case5 (b :: c :: d :: r))

theorem lossy_keep (p : List Byte → Bool) : ∀ l : List (List Byte),
    (∀ pre a b c, l = pre ++ [a, b, c] → p c = true → p a = true ∨ p b = true) → lossy p l = l.filter p := by
  intro l
  induction l using ind5 with
  | case1 => intro _; rfl
  | case2 a => intro _; rfl
  | case3 a b => intro _; rfl
  | case4 a b c =>
    intro h
    rw [lossy]
    split
    · rfl
    · rename_i hn
      have : p c = false := by
        by_contra hc
        have hc : p c = true := by simpa using hc
        exact hn (h [] a b c rfl hc)
      simp only [not_or, Bool.not_eq_true] at hn
      simp [hn.1, hn.2, this]
  | case5 a b c d r ih =>
    intro h
    rw [lossy, ih]
    · rw [← List.filter_append]; rfl
    · intro pre x y z e hz
      exact h (a :: pre) x y z (by rw [e]; rfl) hz

theorem lossy_lose (p : List Byte → Bool) {a b c : List Byte} (ha : p a = false) (hb : p b = false) :
    ∀ pre : List (List Byte), lossy p (pre ++ [a, b, c]) = pre.filter p := by
  intro pre
  induction pre with
  | nil => simp [lossy, ha, hb]
  | cons x pre ih =>
    have : ∃ u v w r, pre ++ [a, b, c] = u :: v :: w :: r := by
      rcases pre with _ | ⟨u, _ | ⟨v, _ | ⟨w, r⟩⟩⟩
      · exact ⟨_, _, _, _, rfl⟩
      · exact ⟨_, _, _, _, rfl⟩
      · exact ⟨_, _, _, _, rfl⟩
      · exact ⟨_, _, _, _, rfl⟩
    obtain ⟨u, v, w, r, e⟩ := this
    rw [List.cons_append, e, lossy, ← e, ih, ← List.filter_append]; rfl

theorem lossy_cons {p : List Byte → Bool} {x : List Byte} (hx : p x = true) (xs : List (List Byte)) :
    lossy p (x :: xs) = x :: lossy p xs := by
  rcases xs with _ | ⟨u, _ | ⟨v, _ | ⟨w, r⟩⟩⟩
  · simp [lossy, hx]
  · simp [lossy, hx]
  · simp [lossy, hx]
  · rw [lossy]; simp [hx]

theorem skipSpec_hit {p : List Byte → Bool} {x : List Byte} (hx : p x = true) (xs : List (List Byte)) :
    skipSpec p (x :: xs) = some (x, xs) := by
  rcases xs with _ | ⟨u, _ | ⟨v, r⟩⟩ <;> simp [skipSpec, hx]

theorem skipSpec_lossy (p : List Byte → Bool) : ∀ l : List (List Byte), l.length ≠ 2 →
    (∀ v rest, skipSpec p l = some (v, rest) → lossy p l = v :: lossy p rest ∧ rest.length < l.length) ∧
    (skipSpec p l = none → lossy p l = []) := by
  intro l
  induction l using ind5 with
  | case1 => intro _; simp [skipSpec, lossy]
  | case2 a =>
    intro _
    by_cases ha : p a = true
    · simp only [skipSpec, ha, if_true]
      refine ⟨?_, by simp⟩
      intro v rest e
      injection e with e; injection e with e1 e2
      subst e1; subst e2
      simp [lossy, ha]
    · simp [skipSpec, lossy, ha]
  | case3 a b => intro h; simp at h
  | case4 a b c =>
    intro _
    by_cases ha : p a = true
    · simp only [skipSpec, ha, if_true]
      refine ⟨?_, by simp⟩
      intro v rest e
      injection e with e; injection e with e1 e2
      subst e1; subst e2
      exact ⟨lossy_cons ha _, by simp⟩
    · by_cases hb : p b = true
      · simp only [skipSpec, ha, hb, if_true]
        refine ⟨?_, by simp⟩
        intro v rest e
        simp only [Bool.false_eq_true, if_false] at e
        injection e with e; injection e with e1 e2
        subst e1; subst e2
        simp [lossy, ha, hb]
      · simp [skipSpec, lossy, ha, hb]
  | case5 a b c d r ih =>
    intro _
    by_cases ha : p a = true
    · simp only [skipSpec, ha, if_true]
      refine ⟨?_, by simp⟩
      intro v rest e
      injection e with e; injection e with e1 e2
      subst e1; subst e2
      exact ⟨lossy_cons ha _, by simp⟩
    · obtain ⟨i1, i2⟩ := ih (by simp)
      have e1 : skipSpec p (a :: b :: c :: d :: r) = skipSpec p (b :: c :: d :: r) := by
        conv_lhs => rw [skipSpec]
        simp [ha]
      have e2 : lossy p (a :: b :: c :: d :: r) = lossy p (b :: c :: d :: r) := by
        rw [lossy]; simp [ha]
      rw [e1, e2]
      refine ⟨fun v rest e => ?_, i2⟩
      obtain ⟨j1, j2⟩ := i1 v rest e
      refine ⟨j1, ?_⟩
      simp only [List.length_cons] at *
      omega

theorem nextSpec_lossy (p : List Byte → Bool) (l : List (List Byte)) :
    (∀ v rest, nextSpec p l = some (v, rest) → lossy p l = v :: lossy p rest ∧ rest.length < l.length) ∧
    (nextSpec p l = none → lossy p l = []) := by
  rcases l with _ | ⟨x, xs⟩
  · simp [nextSpec, lossy]
  by_cases hx : p x = true
  · simp only [nextSpec, hx, if_true]
    refine ⟨?_, by simp⟩
    intro v rest e
    injection e with e; injection e with e1 e2
    subst e1; subst e2
    exact ⟨lossy_cons hx _, by simp⟩
  · have e1 : nextSpec p (x :: xs) = skipSpec p xs := by simp [nextSpec, hx]
    rw [e1]
    by_cases h2 : xs.length = 2
    · rcases xs with _ | ⟨u, _ | ⟨v, _ | ⟨w, r⟩⟩⟩ <;> simp at h2
      by_cases hu : p u = true
      · simp only [skipSpec, hu, if_true]
        refine ⟨?_, by simp⟩
        intro v' rest e
        injection e with e; injection e with e1 e2
        subst e1; subst e2
        simp [lossy, hx, hu]
      · simp [skipSpec, lossy, hx, hu]
    · obtain ⟨i1, i2⟩ := skipSpec_lossy p xs h2
      have e2 : lossy p (x :: xs) = lossy p xs := by
        rcases xs with _ | ⟨u, _ | ⟨v, _ | ⟨w, r⟩⟩⟩
        · simp [lossy, hx]
        · simp [lossy, hx]
        · simp at h2
        · rw [lossy]; simp [hx]
      rw [e2]
      refine ⟨fun v rest e => ?_, i2⟩
      obtain ⟨j1, j2⟩ := i1 v rest e
      exact ⟨j1, by simp only [List.length_cons]; omega⟩

/-! The reader follows it. -/

/-- The reader with cursor `k` and the given record. -/
def Reader.cur (r : Reader) (f : List Byte) (off len k : Nat) (p : List Byte) : Reader :=
  { r with ifs := ⟨f, off + k * len, false, false⟩, point := p, current := k }

theorem Reader.cur_on {r : Reader} {f : List Byte} {off len n k : Nat} {p : List Byte} (h : r.On f off len n)
    (hp : p.length = len) : (r.cur f off len k p).On f off len n :=
  ⟨rfl, h.dataOffset, h.recordSize, h.recordLength, hp, h.size, h.count, h.pos⟩

theorem Reader.cur_read {r : Reader} {f : List Byte} {off len n k : Nat} {p : List Byte} (h : r.On f off len n)
    (hp : p.length = len) (hin : off + (k + 1) * len ≤ f.length) :
    (r.cur f off len k p).readCounted = (r.cur f off len (k + 1) (record f off len k), .ok ()) := by
  have e : off + k * len + len = off + (k + 1) * len := by rw [Nat.succ_mul]; omega
  rw [Reader.readCounted_full (r.cur_on h hp) rfl (by omega), e]
  rfl

/-- The read behind the last byte of the file. -/
theorem Reader.cur_read_end {r : Reader} {f : List Byte} {off len n k : Nat} {p : List Byte} (h : r.On f off len n)
    (hp : p.length = len) (hk : f.length = off + k * len) :
    (r.cur f off len k p).readCounted = ((r.cur f off len k p).shortOf ⟨f, off + k * len, true, true⟩ p (k + 1), .ok ()) := by
  have h0 := h.pos
  rw [Reader.readCounted_short (r.cur_on h hp) rfl (by omega)]
  have : slice f (off + k * len) len = [] := by
    unfold slice; rw [List.drop_eq_nil_of_le (by omega)]; simp
  rw [this]
  simp only [List.length_nil, Nat.add_zero, List.nil_append]
  rw [hk, Nat.sub_self]
  rfl

theorem Reader.cur_accepts {r : Reader} {q : List Byte → Bool} (hf : r.filter = some q) (f : List Byte) (off len k : Nat)
    (p : List Byte) : (r.cur f off len k p).accepts = q p := by
  unfold Reader.accepts; show (match r.filter with | none => true | some f => f p) = _; rw [hf]

theorem Reader.shortOf_accepts {r : Reader} {q : List Byte → Bool} (hf : r.filter = some q) (s : IStream) (k : Nat)
    (p : List Byte) : (r.shortOf s p k).accepts = q p := by
  unfold Reader.accepts; show (match r.filter with | none => true | some f => f p) = _; rw [hf]

theorem record_length {f : List Byte} {off len n k : Nat} (ht : f.length = off + n * len) (hk : k < n) :
    (record f off len k).length = len ∧ off + (k + 1) * len ≤ f.length := by
  have h1 : (k + 1) * len ≤ n * len := Nat.mul_le_mul_right _ (by omega)
  refine ⟨slice_length_of_le ?_, by omega⟩
  rw [Nat.succ_mul] at h1
  omega

/-- The loop, started with record `k - 1` read, `m` records left. -/
theorem Reader.skipLoop_spec {f : List Byte} {off len n : Nat} {q : List Byte → Bool} (r : Reader) (h : r.On f off len n)
    (hf : r.filter = some q) (ht : f.length = off + n * len) :
    ∀ (m fuel k : Nat), m + 3 ≤ fuel → k + 1 + m = n →
      (∀ v rest, skipSpec q (recordsFrom f off len k (m + 1)) = some (v, rest) →
        ∃ j, k < j ∧ j ≤ n ∧ v = record f off len (j - 1) ∧ rest = recordsFrom f off len j (n - j) ∧
          Reader.skipLoop fuel (r.cur f off len (k + 1) (record f off len k)) = (r.cur f off len j v, .ok false)) ∧
      (skipSpec q (recordsFrom f off len k (m + 1)) = none →
        ∃ r', Reader.skipLoop fuel (r.cur f off len (k + 1) (record f off len k)) = (r', .ok true) ∨
          Reader.skipLoop fuel (r.cur f off len (k + 1) (record f off len k)) = (r', .throw .outOfRange)) := by
  intro m
  induction m with
  | zero =>
    intro fuel k hfuel hk
    obtain ⟨hl, hin⟩ := record_length (k := k) ht (by omega)
    have e : recordsFrom f off len k (0 + 1) = [record f off len k] := by rw [recordsFrom_succ]; rfl
    rw [e]
    obtain ⟨fuel, rfl⟩ : ∃ g, fuel = g + 1 := ⟨fuel - 1, by omega⟩
    rw [Reader.skipLoop]
    by_cases ha : q (record f off len k) = true
    · rw [if_pos (by rw [Reader.cur_accepts hf]; exact ha)]
      simp only [skipSpec, ha, if_true]
      refine ⟨?_, by simp⟩
      intro v rest e
      injection e with e; injection e with e1 e2
      refine ⟨k + 1, by omega, by omega, by rw [← e1]; rfl, ?_, by rw [← e1]⟩
      rw [← e2, show n - (k + 1) = 0 by omega]; rfl
    · rw [if_neg (by rw [Reader.cur_accepts hf]; exact ha)]
      refine ⟨by simp [skipSpec, ha], fun _ => ?_⟩
      have hk' : k + 1 = n := by omega
      rw [Reader.cur_read_end h hl (by rw [ht, hk'])]
      dsimp only
      rw [if_neg (by show k + 1 + 1 ≠ r.size; rw [h.size]; omega)]
      obtain ⟨fuel, rfl⟩ : ∃ g, fuel = g + 1 := ⟨fuel - 1, by omega⟩
      rw [Reader.skipLoop, if_neg (by rw [Reader.shortOf_accepts (by exact hf)]; exact ha), Reader.readCounted_fail]
      · exact ⟨_, Or.inr rfl⟩
      · show record f off len k ≠ []
        intro hh; rw [hh] at hl; have := h.pos; simp at hl; omega
      · rfl
  | succ m ih =>
    intro fuel k hfuel hk
    obtain ⟨hl, hin⟩ := record_length (k := k) ht (by omega)
    have e : recordsFrom f off len k (m + 1 + 1) = record f off len k :: recordsFrom f off len (k + 1) (m + 1) :=
      recordsFrom_succ ..
    obtain ⟨fuel, rfl⟩ : ∃ g, fuel = g + 1 := ⟨fuel - 1, by omega⟩
    rw [Reader.skipLoop]
    by_cases ha : q (record f off len k) = true
    · rw [if_pos (by rw [Reader.cur_accepts hf]; exact ha), e, skipSpec_hit ha]
      refine ⟨?_, by simp⟩
      intro v rest e
      injection e with e; injection e with e1 e2
      refine ⟨k + 1, by omega, by omega, by rw [← e1]; rfl, ?_, by rw [← e1]⟩
      rw [← e2, show n - (k + 1) = m + 1 by omega]
    · rw [if_neg (by rw [Reader.cur_accepts hf]; exact ha)]
      obtain ⟨hl2, hin2⟩ := record_length (k := k + 1) ht (by omega)
      rw [Reader.cur_read h hl hin2]
      dsimp only
      by_cases hm : m = 0
      · subst hm
        rw [if_pos (by show k + 1 + 1 = r.size; rw [h.size]; omega), e, recordsFrom_succ]
        refine ⟨by simp [skipSpec, ha, recordsFrom], fun _ => ⟨_, Or.inl rfl⟩⟩
      · rw [if_neg (by show k + 1 + 1 ≠ r.size; rw [h.size]; omega)]
        have e2 : skipSpec q (recordsFrom f off len k (m + 1 + 1)) = skipSpec q (recordsFrom f off len (k + 1) (m + 1)) := by
          obtain ⟨m, rfl⟩ : ∃ g, m = g + 1 := ⟨m - 1, by omega⟩
          rw [e, recordsFrom_succ, recordsFrom_succ]
          conv_lhs => rw [skipSpec]
          simp [ha]
        obtain ⟨i1, i2⟩ := ih fuel (k + 1) (by omega) (by omega)
        rw [e2]
        refine ⟨fun v rest hv => ?_, i2⟩
        obtain ⟨j, j1, j2, j3⟩ := i1 v rest hv
        exact ⟨j, by omega, j2, j3⟩

/-- One filtered call on a file that ends with its last record. -/
theorem Reader.readNext_spec {f : List Byte} {off len n k : Nat} {q : List Byte → Bool} {r : Reader} (h : r.On f off len n)
    (ha : r.At off len k) (hk : k ≤ n)
    (hf : r.filter = some q) (ht : f.length = off + n * len) :
    (∀ v rest, nextSpec q (recordsFrom f off len k (n - k)) = some (v, rest) →
      ∃ j, k < j ∧ j ≤ n ∧ v = record f off len (j - 1) ∧ rest = recordsFrom f off len j (n - j) ∧
        r.readNext = (r.cur f off len j (r.xf v), .ok true)) ∧
    (nextSpec q (recordsFrom f off len k (n - k)) = none → r.readNext.2 = .ok false) := by
  have h0 := h.pos
  by_cases hkn : k = n
  · subst hkn
    rw [Nat.sub_self]
    exact ⟨by intro v rest e; simp [recordsFrom, nextSpec] at e, fun _ => Reader.readNext_end h ha (Nat.le_refl _)⟩
  obtain ⟨m, hm⟩ : ∃ m, n = k + 1 + m := ⟨n - (k + 1), by omega⟩
  obtain ⟨hl, hin⟩ := record_length (k := k) ht (by omega)
  rw [show n - k = m + 1 by omega, recordsFrom_succ]
  have hstart : (if r.current = 0 then { r with ifs := r.ifs.clear.seek r.hdr.dataOffset.toNat } else r) =
      r.cur f off len k r.point := by
    rw [Reader.At.start h ha]
    unfold Reader.cur
    rw [← ha.1]
  have hcs : ¬ (r.cur f off len k r.point).current ≥ (r.cur f off len k r.point).size := by
    show ¬ k ≥ r.size
    rw [h.size]; omega
  have hread := Reader.cur_read (k := k) h h.point hin
  by_cases hx : q (record f off len k) = true
  · have e : nextSpec q (record f off len k :: recordsFrom f off len (k + 1) m) =
        some (record f off len k, recordsFrom f off len (k + 1) m) := by simp [nextSpec, hx]
    rw [e]
    refine ⟨?_, by simp⟩
    intro v rest e
    injection e with e; injection e with e1 e2
    refine ⟨k + 1, by omega, by omega, by rw [← e1]; rfl, by rw [← e2, show n - (k + 1) = m by omega], ?_⟩
    unfold Reader.readNext Reader.implReadNext
    rw [hstart]
    dsimp only
    rw [if_neg hcs, hread]
    dsimp only
    rw [if_pos (by rw [Reader.cur_accepts hf]; exact hx), Reader.transform_eq, ← e1]
    rfl
  · have e : nextSpec q (record f off len k :: recordsFrom f off len (k + 1) m) = skipSpec q (recordsFrom f off len (k + 1) m) := by
      simp [nextSpec, hx]
    rw [e]
    have hnext : r.readNext = Reader.catchRange (r.cur f off len (k + 1) (record f off len k)).afterReject := by
      unfold Reader.readNext Reader.implReadNext
      rw [hstart]
      dsimp only
      rw [if_neg hcs, hread]
      dsimp only
      rw [if_neg (by rw [Reader.cur_accepts hf]; exact hx)]
    rw [hnext, Reader.afterReject]
    rcases m with _ | m
    · refine ⟨by intro v rest e; simp [recordsFrom, skipSpec] at e, fun _ => ?_⟩
      rw [Reader.cur_read_end h hl (by rw [ht, hm])]
      dsimp only
      have : Reader.skip ((r.cur f off len (k + 1) (record f off len k)).shortOf ⟨f, off + (k + 1) * len, true, true⟩ (record f off len k) (k + 1 + 1)) =
          ((r.cur f off len (k + 1) (record f off len k)).shortOf ⟨f, off + (k + 1) * len, true, true⟩ (record f off len k) (k + 1 + 1), .throw .outOfRange) := by
        unfold Reader.skip
        rw [Reader.skipLoop, if_neg (by rw [Reader.shortOf_accepts (by exact hf)]; exact hx), Reader.readCounted_fail]
        · show record f off len k ≠ []
          intro hh; rw [hh] at hl; simp at hl; omega
        · rfl
      rw [this]
      rfl
    · obtain ⟨hl2, hin2⟩ := record_length (k := k + 1) ht (by omega)
      rw [Reader.cur_read h hl hin2]
      dsimp only
      have hfuel : m + 3 ≤ f.length + 3 := by
        have : m * 1 ≤ n * len := Nat.mul_le_mul (by omega) h0
        omega
      obtain ⟨i1, i2⟩ := Reader.skipLoop_spec r h hf ht m (f.length + 3) (k + 1) hfuel (by omega)
      have hsk : (r.cur f off len (k + 1 + 1) (record f off len (k + 1))).skip =
          Reader.skipLoop (f.length + 3) (r.cur f off len (k + 1 + 1) (record f off len (k + 1))) := rfl
      rw [hsk]
      refine ⟨fun v rest hv => ?_, fun hn => ?_⟩
      · obtain ⟨j, j1, j2, j3, j4, j5⟩ := i1 v rest hv
        refine ⟨j, by omega, j2, j3, j4, ?_⟩
        rw [j5]
        simp only [Bool.false_eq_true, if_false]
        rw [Reader.transform_eq]
        rfl
      · obtain ⟨r', j | j⟩ := i2 hn
        · rw [j]; simp [Reader.catchRange]
        · rw [j]; simp [Reader.catchRange]

/-- Filtered reading of a file that ends with its last record. -/
theorem Reader.delivers_filtered {f : List Byte} {off len n : Nat} {q : List Byte → Bool} (ht : f.length = off + n * len) :
    ∀ (m : Nat) (r : Reader) (k : Nat), n - k = m → k ≤ n → r.On f off len n → r.At off len k → r.Keeps len → r.filter = some q →
      delivers r ((lossy q (recordsFrom f off len k (n - k))).map r.xf) := by
  intro m
  induction m using Nat.strong_induction_on with
  | _ m ih =>
    intro r k hm hk h ha hx hf
    obtain ⟨s1, s2⟩ := Reader.readNext_spec h ha hk hf ht
    obtain ⟨l1, l2⟩ := nextSpec_lossy q (recordsFrom f off len k (n - k))
    cases hn : nextSpec q (recordsFrom f off len k (n - k)) with
    | none =>
      rw [l2 hn]
      exact s2 hn
    | some x =>
      obtain ⟨v, rest⟩ := x
      obtain ⟨j, j1, j2, j3, j4, j5⟩ := s1 v rest hn
      rw [(l1 v rest hn).1, List.map_cons, j4]
      obtain ⟨hl, -⟩ := record_length (k := j - 1) ht (by omega)
      refine ⟨by rw [j5], by rw [j5]; rfl, ?_⟩
      rw [j5]
      exact ih (n - j) (by omega) _ j rfl j2 (r.cur_on h (hx _ (by rw [j3]; exact hl)))
        ⟨rfl, fun _ => ⟨rfl, rfl, rfl⟩⟩ hx hf

end LibLAS
