import Verif.Spec.Zip
import Verif.Lemmas.MakeAny
namespace LibLAS
open Spec

variable {z : LASzip}

/-- An open reader whose decompressor is ready for record `k`. -/
structure ZipReader.Live (rs : List (List Byte)) (Ready : Nat → z.State → IStream → Prop) (start : Nat)
    (acc : Option (List Byte → Bool)) (ts : List (List Byte → List Byte)) (k : Nat) (r : ZipReader z) : Prop where
  count : r.hdr.pointCount.toNat = rs.length
  size : r.size = rs.length
  current : r.current = k
  start : r.start = some start
  ready : Ready k r.unzipper r.ifs
  filter : r.filter = acc
  xform : r.xform = if ts = [] then none else some fun p => ts.foldl (fun p t => t p) p

/-- What a filter, if any, says of a record. -/
def Zip.verdict (acc : Option (List Byte → Bool)) (p : List Byte) : Bool :=
  match acc with
  | none => true
  | some f => f p

variable {c : z.Config} {file : List Byte} {off : Nat} {rs : List (List Byte)} {Ready : Nat → z.State → IStream → Prop}
  {u0 : z.State} {start : Nat} {acc : Option (List Byte → Bool)} {ts : List (List Byte → List Byte)} {k : Nat} {r : ZipReader z}

theorem ZipReader.transform_point (r : ZipReader z) (h : r.xform = if ts = [] then none else some fun p => ts.foldl (fun p t => t p) p) :
    r.transform = { r with point := ts.foldl (fun p t => t p) r.point } := by
  unfold ZipReader.transform
  rw [h]
  by_cases e : ts = []
  · subst e; rw [if_pos rfl] at *; obtain ⟨⟩ := r; cases h; rfl
  · rw [if_neg e] at *

/-- The decompressor reads record `k`. -/
theorem ZipReader.Live.idiom (hz : Decodes.With z c file off rs Ready u0 start) (h : r.Live rs Ready start acc ts k)
    (hk : k < rs.length) :
    ∃ r', r.readIdiom = (r', .ok ()) ∧ r'.point = rs[k] ∧ r'.Live rs Ready start acc ts (k + 1) := by
  obtain ⟨e1, e2⟩ := hz.reads k _ _ h.ready hk
  unfold ZipReader.readIdiom
  rcases hr : z.read r.unzipper r.ifs with ⟨d, u, s⟩
  rw [hr] at e1 e2
  simp only at e1 e2
  subst e1
  exact ⟨_, rfl, rfl, h.count, h.size, by show r.current + 1 = k + 1; rw [h.current], h.start, e2, h.filter, h.xform⟩

/-- The start of `ReadNextPoint` changes nothing. -/
theorem ZipReader.Live.rewind (hz : Decodes.With z c file off rs Ready u0 start) (h : r.Live rs Ready start acc ts k) :
    (if r.current = 0 then { r with ifs := ZipReader.seekTo r.ifs.clear r.start } else r) = r := by
  by_cases h0 : r.current = 0
  · rw [if_pos h0]
    have hk : k = 0 := by rw [← h.current, h0]
    have e := hz.first _ _ (hk ▸ h.ready)
    have : ZipReader.seekTo r.ifs.clear r.start = r.ifs := by rw [h.start, e]; rfl
    rw [this]
  · rw [if_neg h0]

theorem ZipReader.Live.at_end (hz : Decodes.With z c file off rs Ready u0 start) (h : r.Live rs Ready start acc ts k)
    (hk : rs.length ≤ k) : r.readNext = (r, .ok false) := by
  unfold ZipReader.readNext ZipReader.implReadNext
  dsimp only
  rw [h.rewind hz, if_pos (by rw [h.current, h.size]; exact hk)]
  rfl

theorem ZipReader.Live.transformed (h : r.Live rs Ready start acc ts k) :
    r.transform.Live rs Ready start acc ts k ∧ r.transform.point = ts.foldl (fun p t => t p) r.point := by
  rw [ZipReader.transform_point r h.xform]
  exact ⟨⟨h.count, h.size, h.current, h.start, h.ready, h.filter, h.xform⟩, rfl⟩

theorem ZipReader.Live.accepts (h : r.Live rs Ready start acc ts k) :
    r.accepts = Zip.verdict acc r.point := by
  unfold ZipReader.accepts Zip.verdict; rw [h.filter]; cases acc <;> rfl

theorem ZipReader.Live.impl_next (hz : Decodes.With z c file off rs Ready u0 start) (h : r.Live rs Ready start acc ts k)
    (hk : k < rs.length) (ha : Zip.verdict acc rs[k] = true) :
    ∃ r', r.implReadNext = (r', .ok ()) ∧ r'.point = ts.foldl (fun p t => t p) rs[k] ∧ r'.Live rs Ready start acc ts (k + 1) := by
  obtain ⟨r', e, hp, hl⟩ := h.idiom hz hk
  unfold ZipReader.implReadNext
  dsimp only
  rw [h.rewind hz, if_neg (by rw [h.current, h.size]; omega), e]
  dsimp only
  rw [if_pos (by rw [hl.accepts, hp]; exact ha)]
  exact ⟨_, rfl, by rw [hl.transformed.2, hp], hl.transformed.1⟩

theorem ZipReader.Live.next (hz : Decodes.With z c file off rs Ready u0 start) (h : r.Live rs Ready start acc ts k)
    (hk : k < rs.length) (ha : Zip.verdict acc rs[k] = true) :
    ∃ r', r.readNext = (r', .ok true) ∧ r'.point = ts.foldl (fun p t => t p) rs[k] ∧ r'.Live rs Ready start acc ts (k + 1) := by
  obtain ⟨r', e, hp, hl⟩ := h.impl_next hz hk ha
  exact ⟨r', by unfold ZipReader.readNext; rw [e]; rfl, hp, hl⟩

theorem ZipReader.Live.impl_seek (hz : Decodes.With z c file off rs Ready u0 start) (h : r.Live rs Ready start acc ts k) {n : Nat}
    (hn : n < rs.length) : ∃ r', r.implSeek n = (r', .ok ()) ∧ r'.Live rs Ready start acc ts n := by
  unfold ZipReader.implSeek
  rw [if_neg (by rw [h.size]; omega), if_neg (by rw [h.size]; omega)]
  exact ⟨_, rfl, h.count, h.size, rfl, h.start, hz.seeks k _ _ n h.ready hn, h.filter, h.xform⟩

/-- What the filter loop delivers after reading `p`, with `L` still to be read; nothing: the end is reported. -/
def Zip.skipSpec (f : List Byte → Bool) : List Byte → List (List Byte) → Option (List Byte × List (List Byte))
  | p, [] => some (p, [])
  | p, q :: L => if f p then some (p, q :: L) else if L = [] then none else Zip.skipSpec f q L

/-- `Zip` reader just opened. -/
theorem ZipReader.make_live {env : Env} {today : BitVec 16 × BitVec 16}
    (e : ZipReader.make z env today (IStream.onFile file) = .ok r) (hd : Decodes z r.config file r.hdr.dataOffset.toNat rs)
    (hn : r.hdr.pointCount.toNat = rs.length) :
    ∃ Ready u0 start, Decodes.With z r.config file r.hdr.dataOffset.toNat rs Ready u0 start ∧ r.Live rs Ready start none [] 0 := by
  obtain ⟨Ready, u0, start, hw⟩ := hd
  refine ⟨Ready, u0, start, hw, ?_⟩
  unfold ZipReader.make at e
  obtain ⟨⟨s, h⟩, e1, e⟩ := bind_eq_ok e
  have hb := readHeader_onBuf (b := file) (by rfl) _ _ e1
  dsimp only at e
  split at e
  · cases e
  · obtain ⟨c, e2, e⟩ := bind_eq_ok e
    have hs : (s.clear.seek 0).seek h.dataOffset.toNat = ⟨file, h.dataOffset.toNat, false, false⟩ := by
      obtain ⟨b, p, e, f⟩ := s
      cases hb; rfl
    rw [hs] at e
    split at e
    · cases e
    · rename_i u s' ho
      simp only [Outcome.ok.injEq] at e
      subst e
      have := hw.opens
      dsimp only at this hn
      rw [ho] at this
      simp only [Prod.mk.injEq, Option.some.injEq] at this
      obtain ⟨rfl, rfl⟩ := this
      exact ⟨hn, hn, rfl, rfl, hw.fresh, rfl, rfl⟩


theorem ZipReader.Live.skip (hz : Decodes.With z c file off rs Ready u0 start) {f : List Byte → Bool} :
    ∀ (L : List (List Byte)) (j : Nat) (p : List Byte) (r : ZipReader z) (fuel : Nat), r.Live rs Ready start (some f) ts j →
      r.point = p → j + L.length = rs.length → rs.drop j = L → L.length < fuel → (L = [] → f p = true) →
      match Zip.skipSpec f p L with
      | some (q, L') => ∃ r' j', ZipReader.skipLoop fuel r = (r', .ok false) ∧ r'.point = q ∧
        r'.Live rs Ready start (some f) ts j' ∧ rs.drop j' = L' ∧ j' + L'.length = rs.length
      | none => ∃ r', ZipReader.skipLoop fuel r = (r', .ok true) ∧ r'.Live rs Ready start (some f) ts rs.length := by
  intro L
  induction L with
  | nil =>
    intro j p r fuel h hp hj hL hf hok
    obtain ⟨fuel, rfl⟩ : ∃ m, fuel = m + 1 := ⟨fuel - 1, by simp at hf; omega⟩
    refine ⟨r, j, ?_, hp, h, hL, hj⟩
    unfold ZipReader.skipLoop
    rw [if_pos (by rw [h.accepts, hp]; exact hok rfl)]
  | cons q L ih =>
    intro j p r fuel h hp hj hL hf _
    obtain ⟨fuel, rfl⟩ : ∃ m, fuel = m + 1 := ⟨fuel - 1, by simp at hf; omega⟩
    unfold Zip.skipSpec
    have hjl : j < rs.length := by rw [← hj]; simp
    by_cases hfp : f p = true
    · rw [if_pos hfp]
      refine ⟨r, j, ?_, hp, h, hL, hj⟩
      unfold ZipReader.skipLoop
      rw [if_pos (by rw [h.accepts, hp]; exact hfp)]
    · rw [if_neg hfp]
      obtain ⟨r', e, hp', hl⟩ := h.idiom hz hjl
      have hq : rs[j] = q ∧ rs.drop (j + 1) = L := by
        rw [List.drop_eq_getElem_cons hjl] at hL
        simpa only [List.cons.injEq] using hL
      have hs : ZipReader.skipLoop (fuel + 1) r = (if r'.current = r'.size then (r', .ok true) else ZipReader.skipLoop fuel r') := by
        rw [ZipReader.skipLoop, if_neg (by rw [h.accepts, hp]; exact hfp), e]
      rw [hs]
      by_cases hL0 : L = []
      · rw [if_pos hL0, if_pos (by rw [hl.current, hl.size, ← hj, hL0]; rfl)]
        exact ⟨r', rfl, by have : j + 1 = rs.length := (by rw [← hj, hL0]; rfl); exact this ▸ hl⟩
      · have h0 : 0 < L.length := List.length_pos_of_ne_nil hL0
        simp only [List.length_cons] at hj hf
        rw [if_neg hL0, if_neg (by rw [hl.current, hl.size]; omega)]
        exact ih (j + 1) q r' fuel hl (hp'.trans hq.1) (by omega) hq.2 (by omega) (fun e => absurd e hL0)

/-- What `ReadNextPoint` does under a filter with `L` still to be read: it delivers a record, or reports the end. -/
theorem ZipReader.Live.filtered (hz : Decodes.With z c file off rs Ready u0 start) {f : List Byte → Bool}
    {p q : List Byte} {L : List (List Byte)} (h : r.Live rs Ready start (some f) ts k) (hj : k + (p :: q :: L).length = rs.length)
    (hL : rs.drop k = p :: q :: L) (hp : f p ≠ true) (hq : L = [] → f q = true) :
    match Zip.skipSpec f q L with
      | some (q, L') => ∃ r' j', r.readNext = (r', .ok true) ∧ r'.point = ts.foldl (fun p t => t p) q ∧
        r'.Live rs Ready start (some f) ts j' ∧ rs.drop j' = L' ∧ j' + L'.length = rs.length
      | none => ∃ r', r.readNext = (r', .ok false) := by
  simp only [List.length_cons] at hj
  have hk : k < rs.length := by omega
  have hk1 : k + 1 < rs.length := by omega
  obtain ⟨r1, e1, hp1, hl1⟩ := h.idiom hz hk
  obtain ⟨r2, e2, hp2, hl2⟩ := hl1.idiom hz hk1
  rw [List.drop_eq_getElem_cons hk, List.drop_eq_getElem_cons hk1] at hL
  simp only [List.cons.injEq] at hL
  obtain ⟨g1, g2, g3⟩ := hL
  have hr : r.readNext = ZipReader.catchRange (match ZipReader.skipLoop (r2.size - r2.current + 1) r2 with
    | (r, .throw e) => (r, .throw e)
    | (r, .ub) => (r, .ub)
    | (r, .ok last) => if last then (r.transform, .throw .outOfRange) else (r.transform, .ok ())) := by
    unfold ZipReader.readNext ZipReader.implReadNext
    dsimp only
    rw [h.rewind hz, if_neg (by rw [h.current, h.size]; omega), e1]
    dsimp only
    rw [if_neg (by rw [hl1.accepts, hp1, g1]; exact hp), ZipReader.afterReject, e2]
    dsimp only
    rcases ZipReader.skipLoop (r2.size - r2.current + 1) r2 with ⟨r3, _ | _ | _⟩ <;> rfl
  have := ZipReader.Live.skip hz L (k + 1 + 1) q r2 (r2.size - r2.current + 1) hl2 (hp2.trans g2) (by omega) g3
    (by rw [hl2.size, hl2.current]; omega) hq
  rcases hs : Zip.skipSpec f q L with _ | ⟨q', L'⟩
  · rw [hs] at this
    obtain ⟨r', e, _⟩ := this
    refine ⟨r'.transform, ?_⟩
    rw [hr, e]; rfl
  · rw [hs] at this
    obtain ⟨r', j', e, a, b, c, d⟩ := this
    refine ⟨r'.transform, j', ?_, ?_, b.transformed.1, c, d⟩
    · rw [hr, e]; rfl
    · rw [b.transformed.2, a]

end LibLAS
