import Verif.Props.Reset
import Verif.Lemmas.Cached
/-
C27.
-/
namespace LibLAS
open Spec HeaderReader

theorem Reread.inv {env : Env} {b : List Byte} {f : PointFormat} {l : List VLR} {k : Nat} {r r' : Reader} (h : Reread env b f l k r)
    (hi : r.Inv (got 16 (slice b 105 2)).toNat r') : Reread env b f l k r' :=
  ⟨Reader.Inv.ready h.ready hi, by rw [hi.1.hdr]; exact h.hdr, by rw [hi.1.hdr]; exact h.fmt, by rw [hi.1.hdr]; exact h.len,
    by rw [hi.1.hdr]; exact h.user, by rw [hi.1.hdr]; exact h.named, hi.1.even h.even⟩

theorem Reader.readNext_end' {r : Reader} {f : List Byte} {off len n k : Nat} (ho : r.On f off len n) (ha : r.At off len k)
    (hk : n ≤ k) : r.readNext = ({ r with ifs := ⟨f, off + k * len, false, false⟩ }, .ok false) := by
  unfold Reader.readNext Reader.implReadNext
  rw [Reader.At.start ho ha]
  dsimp only
  rw [if_pos (by rw [ho.size, ha.1]; omega)]
  rfl

theorem reset_sizes {env : Env} {bld : Build} {r r' : Reader} (h : r.reset env bld = .ok r') :
    r'.recordSize = r'.hdr.schema.byteSize ∧ r'.current = 0 := by
  unfold Reader.reset at h
  obtain ⟨⟨s, g⟩, -, h⟩ := bind_eq_ok h
  dsimp only at h
  split at h
  · cases h
  · obtain ⟨p, -, h⟩ := bind_eq_ok h
    injection h with h
    rw [← h]; exact ⟨rfl, rfl⟩

namespace Cached

/-- A cached reader given another reader object. -/
theorem Ok.rebase {c : Cached} {f : List Byte} {off len n : Nat} (h : c.Ok f off len n) {b : Reader} (hb : b.Ready f off len n)
    (hf : b.filter = none) (hs : b.hdr.schema.byteSize = len) (ha : b.At off len b.current)
    (hx : b.xf = c.base.xf ∨ c.mask = [] ∨ c.initialized = false) : ({ c with base := b } : Cached).Ok f off len n := by
  refine ⟨hb, hf, hs, ha, h.size, h.pos, h.start, h.maskLen, fun hi => ?_⟩
  obtain ⟨g1, g2, g3⟩ := h.good hi
  refine ⟨g1, g2, fun p hp => ?_⟩
  rcases hx with hx | hx | hx
  · show _ ∧ _ ∧ c.cache[p - c.start]? = some (some (b.xf _))
    rw [hx]; exact g3 p hp
  · have hp' : c.mask[p]? = some true := hp
    rw [hx] at hp'; simp at hp'
  · have hi' : c.initialized = true := hi
    rw [hx] at hi'; cases hi'

theorem implReset_clear (c : Cached) : c.implReset.mask = [] ∨ c.implReset.initialized = false := by
  unfold Cached.implReset
  split
  · rename_i h; exact Or.inl h
  · exact Or.inr rfl

theorem Ok.fitSize {c : Cached} {f : List Byte} {off len n : Nat} (h : c.Ok f off len n) : c.fitSize = c := by
  have h1 := h.size
  have h2 := h.pos
  unfold Cached.fitSize
  dsimp only
  rw [h.ready.on.count]
  have : (if (if c.cacheSize = 0 then n else c.cacheSize) > n then n else if c.cacheSize = 0 then n else c.cacheSize) = c.cacheSize := by
    split_ifs <;> omega
  rw [this]

end Cached

/-- The uncached and the cached reader side by side. -/
structure Together (env : Env) (b : List Byte) (f : PointFormat) (l : List VLR) (off len n : Nat) (s : Known) (r : Reader) (c : Cached) :
    Prop where
  plain : ∃ k, Reread env b f l k r
  cached : ∃ k, Reread env b f l k c.base
  xform : r.xform = c.base.xform
  nofilter : r.filter = none
  ok : c.Ok b off len n
  pos : ∀ k, s.pos = some k → r.At off len k ∧ c.readPos = k ∧ k ≤ n
  started : s.started = true → c.mask.length = n ∧ 0 < n

section
variable {env : Env} {b : List Byte} {f : PointFormat} {l : List VLR} {off len n : Nat} {s : Known} {r : Reader} {c : Cached}

theorem Together.xf (h : Together env b f l off len n s r c) : r.xf = c.base.xf := by
  funext p; unfold Reader.xf; rw [h.xform]

theorem Together.move (h : Together env b f l off len n s r c) (hl : len = (got 16 (slice b 105 2)).toNat) {s' : Known} {r' : Reader} {c' : Cached}
    (h1 : r.Inv len r') (h2 : c.base.Inv len c'.base) (h3 : c'.Ok b off len n)
    (h4 : ∀ k, s'.pos = some k → r'.At off len k ∧ c'.readPos = k ∧ k ≤ n)
    (h5 : s'.started = true → c'.mask.length = n ∧ 0 < n) : Together env b f l off len n s' r' c' := by
  subst hl
  obtain ⟨k, hk⟩ := h.plain
  obtain ⟨k', hk'⟩ := h.cached
  exact ⟨⟨k, hk.inv h1⟩, ⟨k', hk'.inv h2⟩, by rw [h1.1.xform, h2.1.xform]; exact h.xform, by rw [h1.1.filter]; exact h.nofilter, h3, h4, h5⟩

theorem Together.step_next (h : Together env b f l off len n s r c) (hof : off = (got 32 (slice b 96 4)).toNat)
    (hl : len = (got 16 (slice b 105 2)).toNat) (hc : n = (got 32 (slice b 107 4)).toNat)
    (hin : off + n * len ≤ b.length) (hn : n < 2 ^ 31) (hp : s.pos.isSome = true) :
    report r .next = cachedReport c .next ∧
    Together env b f l off len n (s.after n (.op .next)) (readStep r .next) (cachedStep c .next) := by
  obtain ⟨k, hk⟩ := Option.isSome_iff_exists.1 hp
  obtain ⟨p1, p2, p3⟩ := h.pos k hk
  obtain ⟨j, hj⟩ := h.plain
  have ho := hj.ready.on
  have hkeep := hj.ready.keeps
  rw [← hof, ← hl, ← hc] at ho
  rw [← hl] at hkeep
  by_cases hlt : k < n
  · have hle : off + k * len + len ≤ b.length := by
      have : (k + 1) * len ≤ n * len := Nat.mul_le_mul_right _ hlt
      rw [Nat.succ_mul] at this; omega
    have e1 := Reader.readNext_hit ho p1 hlt hle (by unfold Reader.accepts; rw [show ({ r with point := record b off len k } : Reader).filter = none from h.nofilter])
    obtain ⟨c', e2, e3, e4, e5, e6, e7⟩ := h.ok.readNext_hit hin hlt hn p2
    have hs' : s.after n (.op .next) = ⟨some (k + 1), true⟩ := by simp only [Known.after, hk, if_pos hlt]
    have hrec : (record b off len k).length = len := slice_length_of_le hle
    refine ⟨?_, ?_⟩
    · unfold report cachedReport
      simp only [e1, e2]
      rw [e7, h.xf]
    · rw [hs']
      refine h.move hl ?_ ?_ ?_ ?_ ?_
      · show r.Inv len r.readNext.1
        rw [e1]
        exact ⟨⟨rfl, rfl, rfl, rfl, rfl, ho.buf.symm, fun _ => rfl⟩, hkeep _ hrec⟩
      · show c.base.Inv len c.readNext.1.base; rw [e2]; exact e4
      · show c.readNext.1.Ok _ _ _ _; rw [e2]; exact e3
      · intro j hj
        injection hj with hj
        subst hj
        show r.readNext.1.At off len _ ∧ c.readNext.1.readPos = _ ∧ _
        rw [e1, e2]
        exact ⟨⟨rfl, fun _ => ⟨rfl, rfl, rfl⟩⟩, e5, by omega⟩
      · intro _
        show c.readNext.1.mask.length = n ∧ _
        rw [e2]
        exact ⟨e6, by omega⟩
  · have hkn : k = n := by omega
    have e1 := Reader.readNext_end' ho p1 (by omega)
    have e2 := h.ok.readNext_end (by omega)
    have hs' : s.after n (.op .next) = s := by simp only [Known.after, hk, if_neg hlt]
    refine ⟨?_, ?_⟩
    · unfold report cachedReport
      simp only [e1, e2]
      rfl
    · rw [hs']
      refine h.move hl ?_ ?_ ?_ ?_ ?_
      · show r.Inv len r.readNext.1
        rw [e1]
        exact ⟨⟨rfl, rfl, rfl, rfl, rfl, ho.buf.symm, fun _ => rfl⟩, ho.point⟩
      · show c.base.Inv len c.readNext.1.base; rw [e2]; exact ⟨.refl _, h.ok.ready.on.point⟩
      · show c.readNext.1.Ok _ _ _ _; rw [e2]; exact h.ok
      · intro j hj
        rw [hk] at hj
        injection hj with hj
        subst hj
        show r.readNext.1.At off len _ ∧ c.readNext.1.readPos = _ ∧ _
        rw [e1, e2]
        exact ⟨⟨p1.1, fun _ => ⟨rfl, rfl, rfl⟩⟩, p2, by omega⟩
      · intro hh
        show c.readNext.1.mask.length = n ∧ _
        rw [e2]
        exact h.started hh

theorem Together.step_at (h : Together env b f l off len n s r c) (hof : off = (got 32 (slice b 96 4)).toNat)
    (hl : len = (got 16 (slice b 105 2)).toNat) (hc : n = (got 32 (slice b 107 4)).toNat)
    (hin : off + n * len ≤ b.length) (hn : n < 2 ^ 31) (k : Nat) :
    report r (.at k) = cachedReport c (.at k) ∧
    Together env b f l off len n (s.after n (.op (.at k))) (readStep r (.at k)) (cachedStep c (.at k)) := by
  obtain ⟨j, hj⟩ := h.plain
  have ho := hj.ready.on
  have hkeep := hj.ready.keeps
  rw [← hof, ← hl, ← hc] at ho
  rw [← hl] at hkeep
  by_cases hlt : k < n
  · have hle : off + (k + 1) * len ≤ b.length := by
      have : (k + 1) * len ≤ n * len := Nat.mul_le_mul_right _ hlt
      omega
    have e1 := Reader.readAt_hit ho hlt hle
    obtain ⟨c', e2, e3, e4, e5, e6⟩ := h.ok.readAt_hit hin hlt hn
    have hs' : s.after n (.op (.at k)) = ⟨none, true⟩ := by simp only [Known.after, if_pos hlt]
    have hrec : (record b off len k).length = len := slice_length_of_le (by rw [Nat.succ_mul] at hle; omega)
    refine ⟨?_, ?_⟩
    · unfold report cachedReport
      simp only [e1, e2]
      rw [e6, h.xf]
    · rw [hs']
      refine h.move hl ?_ ?_ ?_ ?_ ?_
      · show r.Inv len (r.readAt k).1
        rw [e1]
        exact ⟨⟨rfl, rfl, rfl, rfl, rfl, ho.buf.symm, fun _ => rfl⟩, hkeep _ hrec⟩
      · show c.base.Inv len (c.readAt k).1.base; rw [e2]; exact e4
      · show (c.readAt k).1.Ok _ _ _ _; rw [e2]; exact e3
      · intro j hj; cases hj
      · intro _
        show (c.readAt k).1.mask.length = n ∧ _
        rw [e2]
        exact ⟨e5, by omega⟩
  · have e1 : r.readAt k = (r, .throw .outOfRange) := by
      unfold Reader.readAt; rw [if_pos (by rw [ho.count]; omega)]
    have e2 : c.readAt k = (c, .throw .outOfRange) := by
      unfold Cached.readAt; rw [if_pos (by rw [h.ok.ready.on.count]; omega)]
    have hs' : s.after n (.op (.at k)) = s := by simp only [Known.after, if_neg hlt]
    refine ⟨?_, ?_⟩
    · unfold report cachedReport
      simp only [e1, e2]
      rfl
    · rw [hs']
      show Together env b f l off len n s (r.readAt k).1 (c.readAt k).1
      rw [e1, e2]; exact h

theorem Together.step_seek (h : Together env b f l off len n s r c) (hof : off = (got 32 (slice b 96 4)).toNat)
    (hl : len = (got 16 (slice b 105 2)).toNat) (hc : n = (got 32 (slice b 107 4)).toNat) (k : Nat) :
    report r (.seek k) = cachedReport c (.seek k) ∧
    Together env b f l off len n (s.after n (.op (.seek k))) (readStep r (.seek k)) (cachedStep c (.seek k)) := by
  obtain ⟨j, hj⟩ := h.plain
  have ho := hj.ready.on
  rw [← hof, ← hl, ← hc] at ho
  by_cases hlt : k < n
  · have e1 := Reader.seek_hit ho hlt
    obtain ⟨c', e2, e3, e4, e5, e6, e7, -⟩ := h.ok.implSeek hlt
    have e2' : c.seek k = (c', .ok true) := by unfold Cached.seek; rw [e2]; rfl
    have hs' : s.after n (.op (.seek k)) = ⟨some k, s.started⟩ := by simp only [Known.after, if_pos hlt]
    refine ⟨?_, ?_⟩
    · unfold report cachedReport
      simp only [e1, e2']
    · rw [hs']
      refine h.move hl ?_ ?_ ?_ ?_ ?_
      · show r.Inv len (r.seek k).1
        rw [e1]
        exact ⟨⟨rfl, rfl, rfl, rfl, rfl, ho.buf.symm, fun _ => rfl⟩, ho.point⟩
      · show c.base.Inv len (c.seek k).1.base; rw [e2']; exact e4
      · show (c.seek k).1.Ok _ _ _ _; rw [e2']; exact e3
      · intro j hj
        injection hj with hj
        subst hj
        show (r.seek _).1.At off len _ ∧ (c.seek _).1.readPos = _ ∧ _
        rw [e1, e2']
        exact ⟨⟨rfl, fun _ => ⟨rfl, rfl, rfl⟩⟩, e6, by omega⟩
      · intro hh
        show (c.seek k).1.mask.length = n ∧ _
        rw [e2', e7]
        exact h.started hh
  · have hs' : s.after n (.op (.seek k)) = ⟨none, s.started⟩ := by simp only [Known.after, if_neg hlt]
    have fails : ∀ q : Reader, q.size = n → q.implSeek k = (q, .throw (if n = k then .outOfRange else .runtimeError)) := by
      intro q hq
      unfold Reader.implSeek
      rw [hq]
      by_cases hnk : n = k
      · rw [if_pos hnk, if_pos hnk]
      · rw [if_neg hnk, if_neg hnk, if_pos (by omega)]
    have key : ∀ d : Cached, d.Ok b off len n → c.base.Inv len d.base → d.mask.length = c.mask.length →
        ({ d with readPos := k } : Cached).Ok b off len n := fun d hd _ _ =>
      ⟨hd.ready, hd.nofilter, hd.bytes, hd.here, hd.size, hd.pos, hd.start, hd.maskLen, hd.good⟩
    obtain ⟨d, hd, hdi, hdm, e2⟩ : ∃ d : Cached, d.Ok b off len n ∧ c.base.Inv len d.base ∧ d.mask.length = c.mask.length ∧
        c.implSeek k = ({ d with readPos := k }, .throw (if n = k then .outOfRange else .runtimeError)) := by
      unfold Cached.implSeek
      by_cases h0 : k < 1
      · obtain ⟨g1, g2, -, g4, -⟩ := h.ok.implReset
        refine ⟨c.implReset, g1, g2, g4, ?_⟩
        rw [if_pos h0]
        dsimp only
        rw [fails _ g1.ready.on.size]
      · refine ⟨c, h.ok, ⟨.refl _, h.ok.ready.on.point⟩, rfl, ?_⟩
        rw [if_neg h0]
        dsimp only
        rw [fails _ h.ok.ready.on.size]
    have e1 : r.implSeek k = (r, .throw (if n = k then .outOfRange else .runtimeError)) := fails r ho.size
    refine ⟨?_, ?_⟩
    · show ((Reader.catchRange (r.implSeek k)).2, none) = ((Cached.catchRange (c.implSeek k)).2, none)
      rw [e1, e2]
      by_cases hnk : n = k
      · simp only [if_pos hnk]; rfl
      · simp only [if_neg hnk]; rfl
    · rw [hs']
      have f1 : (r.seek k).1 = r := by unfold Reader.seek; rw [catchRange_fst, e1]
      have f2 : (c.seek k).1 = { d with readPos := k } := by
        unfold Cached.seek
        rw [e2]
        by_cases hnk : n = k
        · simp only [if_pos hnk]; rfl
        · simp only [if_neg hnk]; rfl
      refine h.move hl ?_ ?_ ?_ ?_ ?_
      · show r.Inv len (r.seek k).1; rw [f1]; exact ⟨.refl _, ho.point⟩
      · show c.base.Inv len (c.seek k).1.base; rw [f2]; exact hdi
      · show (c.seek k).1.Ok _ _ _ _; rw [f2]; exact key d hd hdi hdm
      · intro j hj; cases hj
      · intro hh
        show (c.seek k).1.mask.length = n ∧ _
        rw [f2]
        show d.mask.length = n ∧ _
        rw [hdm]; exact h.started hh

/-- Setting filters or transforms: the cached reader is reset first, then both get the same settings. -/
theorem Together.step_set (h : Together env b f l off len n s r c) (hof : off = (got 32 (slice b 96 4)).toNat)
    (hl : len = (got 16 (slice b 105 2)).toNat) (hc : n = (got 32 (slice b 107 4)).toNat) (g : Reader → Reader)
    (hg : ∀ q, g q = { q with xform := (g q).xform }) (hx : ∀ q q' : Reader, q.xform = q'.xform → (g q).xform = (g q').xform)
    (hk : ∀ q, q.Keeps len → (g q).Keeps len) :
    Together env b f l off len n (if s.pos = some 0 then s else ⟨none, s.started⟩) (g r) { c.implReset with base := g c.implReset.base } := by
  obtain ⟨j, hj⟩ := h.plain
  obtain ⟨j', hj'⟩ := h.cached
  obtain ⟨i1, i2, i3, i4, i5, i6, i7, i8⟩ := h.ok.implReset
  have hbase : Reread env b f l j' c.implReset.base := hj'.inv (by rw [← hl]; exact i2)
  have set : ∀ (q : Reader) (j : Nat), Reread env b f l j q → Reread env b f l j (g q) := by
    intro q j hq
    have ho := hq.ready.on
    have hkeep := hk q (by rw [hl]; exact hq.ready.keeps)
    rw [hl] at hkeep
    rw [hg q] at hkeep ⊢
    exact ⟨⟨⟨ho.buf, ho.dataOffset, ho.recordSize, ho.recordLength, ho.point, ho.size, ho.count, ho.pos⟩, hkeep⟩, hq.hdr, hq.fmt, hq.len, hq.user, hq.named, hq.even⟩
  refine ⟨⟨j, set _ _ hj⟩, ⟨j', set _ _ hbase⟩, ?_, ?_, ?_, ?_, ?_⟩
  · exact hx _ _ (by rw [i2.1.xform]; exact h.xform)
  · rw [hg]; exact h.nofilter
  · have := (set _ _ hbase).ready
    rw [← hof, ← hl, ← hc] at this
    refine i1.rebase this (by rw [hg]; exact i1.nofilter) (by rw [hg]; exact i1.bytes) ?_ (Or.inr (Cached.implReset_clear c))
    have ha := i1.here
    rw [hg]; exact ha
  · intro k hk'
    split at hk'
    · rename_i h0
      rw [h0] at hk'
      injection hk' with hk'
      subst hk'
      obtain ⟨p1, p2, p3⟩ := h.pos 0 h0
      refine ⟨by rw [hg]; exact p1, ?_, p3⟩
      show c.implReset.readPos = 0
      by_cases hm : c.mask = []
      · rw [i8 hm]; exact p2
      · exact (i7 hm).1
    · cases hk'
  · intro hh
    show c.implReset.mask.length = n ∧ _
    rw [i4]
    apply h.started
    split at hh <;> exact hh

theorem Together.step_reset (h : Together env b f l off len n s r c) (bld : Build) (hB : Block env b f l)
    (hof : off = (got 32 (slice b 96 4)).toNat)
    (hl : len = (got 16 (slice b 105 2)).toNat) (hc : n = (got 32 (slice b 107 4)).toNat)
    {r₀ : Reader} {k₀ : Nat} (h0 : Reread env b f l k₀ r₀) (hs : Point.sameScaling r₀.hdr.toP r₀.hdr.toP = true) :
    ∃ r' c', r.reset env bld = .ok r' ∧ c.reset env bld = .ok c' ∧ Together env b f l off len n (s.after n .reset) r' c' := by
  obtain ⟨j, hj⟩ := h.plain
  obtain ⟨j', hj'⟩ := h.cached
  obtain ⟨r', e1, e2, e3, e4, e5, e6⟩ := hj.reset bld hB (h0.scaling hj hs)
  obtain ⟨q, d1, d2, d3, d4, d5, d6⟩ := hj'.reset bld hB (h0.scaling hj' hs)
  have hq := d2.ready
  rw [← hof, ← hl, ← hc] at hq
  have hrec := (reset_sizes d1).1
  rw [hq.on.recordSize] at hrec
  have hxf : q.xf = c.base.xf := by funext p; unfold Reader.xf; rw [d6]
  have hok := h.ok.rebase hq (by rw [d5]; exact h.ok.nofilter) hrec.symm (by rw [d4]; exact ⟨d4, fun hh => absurd rfl hh⟩) (Or.inl hxf)
  obtain ⟨i1, i2, i3, i4, i5, i6, i7, i8⟩ := hok.implReset
  refine ⟨r', (({ c with base := q } : Cached).implReset), e1, ?_, ⟨_, e2⟩, ⟨_, d2.inv (by rw [← hl]; exact i2)⟩, ?_, ?_, i1, ?_, ?_⟩
  · unfold Cached.reset
    rw [d1]
    simp only [Outcome.bind_ok, Outcome.pure_eq]
    rw [i1.fitSize]
  · rw [e6, i2.1.xform]; show _ = q.xform; rw [d6]; exact h.xform
  · rw [e5]; exact h.nofilter
  · intro k hk
    simp only [Known.after] at hk
    split at hk
    · rename_i hh
      injection hk with hk
      subst hk
      refine ⟨⟨e4, fun hh => absurd rfl hh⟩, ?_, Nat.zero_le _⟩
      by_cases hm : c.mask = []
      · rw [i8 hm]
        show c.readPos = 0
        rcases hh with hh | hh
        · obtain ⟨a, b⟩ := h.started hh
          rw [hm] at a; simp at a; omega
        · exact (h.pos 0 hh).2.1
      · exact (i7 hm).1
    · cases hk
  · intro hh
    rw [i4]
    apply h.started
    simp only [Known.after] at hh
    split at hh <;> exact hh

theorem Together.run (bld : Build) (hB : Block env b f l) (hof : off = (got 32 (slice b 96 4)).toNat)
    (hl : len = (got 16 (slice b 105 2)).toNat) (hc : n = (got 32 (slice b 107 4)).toNat)
    (hin : off + n * len ≤ b.length) (hn : n < 2 ^ 31)
    {r₀ : Reader} {k₀ : Nat} (h0 : Reread env b f l k₀ r₀) (hs : Point.sameScaling r₀.hdr.toP r₀.hdr.toP = true)
    (cs : List Call) : ∀ {s : Known} {r : Reader} {c : Cached}, Together env b f l off len n s r c → Plain n s cs →
      cachedReports env bld c cs = callReports env bld r cs := by
  induction cs with
  | nil => intro s r c _ _; rfl
  | cons o cs ih =>
    intro s r c h hp
    obtain ⟨hp1, hp2⟩ := hp
    have go : ∀ o', report r o' = cachedReport c o' ∧
        Together env b f l off len n (s.after n (.op o')) (readStep r o') (cachedStep c o') → o = .op o' →
        cachedReports env bld c (o :: cs) = callReports env bld r (o :: cs) := by
      intro o' h1 he
      subst he
      simp only [cachedReports, callReports]
      rw [h1.1, ih h1.2 hp2]
    cases o with
    | op o =>
      cases o with
      | next => exact go _ (h.step_next hof hl hc hin hn hp1) rfl
      | «at» k => exact go _ (h.step_at hof hl hc hin hn k) rfl
      | seek k => exact go _ (h.step_seek hof hl hc k) rfl
      | filters fs =>
        refine go _ ⟨rfl, ?_⟩ rfl
        have hfs : fs = [] := hp1
        subst hfs
        have := h.step_set hof hl hc id (fun q => rfl) (fun q q' e => e) (fun q e => e)
        have e1 : readStep r (.filters []) = id r := by
          show ({ r with filter := none } : Reader) = r
          rw [← h.nofilter]
        obtain ⟨i1, -⟩ := h.ok.implReset
        have e2 : cachedStep c (.filters []) = { c.implReset with base := id c.implReset.base } := by
          show ({ c.implReset with base := { c.implReset.base with filter := none } } : Cached) = _
          rw [← i1.nofilter]; rfl
        rw [e1, e2]; exact this
      | transforms ts =>
        refine go _ ⟨rfl, ?_⟩ rfl
        refine h.step_set hof hl hc (fun q => q.setTransforms ts) (fun q => rfl) (fun q q' _ => rfl) ?_
        intro q hq p hp'
        unfold Reader.xf Reader.setTransforms
        by_cases ht : ts = []
        · simp only [if_pos ht]; exact hp'
        · simp only [if_neg ht]; rw [foldl_length ts hp1]; exact hp'
    | reset =>
      obtain ⟨r', c', e1, e2, e3⟩ := h.step_reset bld hB hof hl hc h0 hs
      simp only [cachedReports, callReports, e1, e2, resetReport, orKeep]
      rw [ih e3 hp2]

end

/-- C27: a cached reader, whatever its cache size, gives the results and points of an uncached one for every history
of calls. Proved for files that hold all their point records (fewer than 2^31), with finite scale and offset and no
readable schema record, and for histories without filters in which every sequential read happens at a position set by
earlier sequential reads, a successful seek, a reset or the opening of the file (`Spec.Plain`). The other histories
are refuted below. -/
theorem cached_transparent_partial {env : Env} {today : BitVec 16 × BitVec 16} {b : List Byte} {r : Reader} {c : Cached} (bld : Build)
    (size : Nat) (hb : 227 ≤ b.length) (hr : Reader.make env today (IStream.onFile b) = .ok r)
    (hc : Cached.make env today (IStream.onFile b) size = .ok c) (hv : NoSchema env r.hdr.vlrs)
    (hl : 0 < r.hdr.dataRecordLength) (hfin : FiniteScaling r.hdr)
    (hin : r.hdr.dataOffset.toNat + r.hdr.pointCount.toNat * r.hdr.dataRecordLength ≤ b.length)
    (hn : r.hdr.pointCount.toNat < 2 ^ 31) (cs : List Call) (hcs : Plain r.hdr.pointCount.toNat ⟨some 0, false⟩ cs) :
    cachedReports env bld c cs = callReports env bld r cs := by
  have hs := hfin.same
  obtain ⟨f, hB, hJ⟩ := open_reread hb hr hv hl
  have hop := open_file hb hr hv
  obtain ⟨hon, hat, hkeep⟩ := hop.on hl
  have hcb : c = Cached.fitSize ⟨r, size, 0, 0, false, [], []⟩ := by
    unfold Cached.make at hc
    rw [hr] at hc
    injection hc with hc
    exact hc.symm
  have hbytes : r.hdr.schema.byteSize = r.hdr.dataRecordLength := by
    have : r.recordSize = r.hdr.schema.byteSize := by
      unfold Reader.make at hr
      obtain ⟨⟨s9, h9⟩, -, hr⟩ := bind_eq_ok hr
      dsimp only at hr
      split at hr
      · cases hr
      · injection hr with hr
        rw [← hr]; rfl
    rw [← this, hon.recordSize]
  refine Together.run bld hB (by rw [hop.dataOffset]) hop.recordLength (by rw [hop.pointCount]) hin hn hJ hs cs (s := ⟨some 0, false⟩) ?_ hcs
  subst hcb
  refine ⟨⟨0, hJ⟩, ⟨0, hJ⟩, rfl, hop.filter, ?_, ?_, ?_⟩
  · refine ⟨⟨hon, hkeep⟩, hop.filter, hbytes, ?_, ?_, ?_, Nat.zero_le _, Or.inr rfl, ?_⟩
    · show r.At _ _ r.current; rw [hop.current]; exact hat
    · unfold Cached.fitSize; dsimp only; split_ifs <;> omega
    · unfold Cached.fitSize; dsimp only; split_ifs <;> omega
    · intro hh; cases hh
  · intro k hk
    injection hk with hk
    subst hk
    exact ⟨hat, rfl, Nat.zero_le _⟩
  · intro hh; cases hh

instance : DecidableEq (List (Outcome Bool × Option (List Byte))) := inferInstance

/-- An uncached and a cached reader of a file, for examples. -/
def openBoth (file : List Byte) (size : Nat) (cs : List Call) :
    Outcome (List (Outcome Bool × Option (List Byte)) × List (Outcome Bool × Option (List Byte))) := do
  let r ← Reader.make plainEnv (1, 2000) (IStream.onFile file)
  let c ← Cached.make plainEnv (1, 2000) (IStream.onFile file) size
  .ok (callReports plainEnv ⟨.little, false⟩ r cs, cachedReports plainEnv ⟨.little, false⟩ c cs)

/-- The result of a read that delivers a point whose bytes are all `v`. -/
def got1 (v : Byte) : Outcome Bool × Option (List Byte) := (.ok true, some (List.replicate 28 v))

/-- The theorem at work: a history that meets `Plain`, with a cache of two points. -/
example : Plain 5 ⟨some 0, false⟩ [.op .next, .op .next, .op .next, .op (.at 0), .op (.seek 3), .op .next, .op .next, .op .next,
    .reset, .op .next, .op (.seek 9), .op (.at 4), .reset, .op (.transforms [List.reverse]), .op .next] ∧
    openBoth (sampleFile fivePoints) 2 [.op .next, .op .next, .op .next, .op (.at 0), .op (.seek 3), .op .next, .op .next, .op .next,
    .reset, .op .next, .op (.seek 9), .op (.at 4), .reset, .op .next] =
      .ok ([got1 1, got1 2, got1 3, got1 1, (.ok true, none), got1 4, got1 5, (.ok false, none), (.ok true, none), got1 1,
        (.throw .runtimeError, none), got1 5, (.ok true, none), got1 1],
        [got1 1, got1 2, got1 3, got1 1, (.ok true, none), got1 4, got1 5, (.ok false, none), (.ok true, none), got1 1,
        (.throw .runtimeError, none), got1 5, (.ok true, none), got1 1]) := by
  refine ⟨?_, by decide +kernel⟩
  simp [Plain, Known.after]

/-- C27 refuted, reading a point directly between sequential reads: the uncached reader continues with the point after
the one read directly, the cached one gives the same point once more. -/
theorem cached_readAt_differs : openBoth (sampleFile fivePoints) 0 [.op .next, .op (.at 3), .op .next] =
    .ok ([got1 1, got1 4, got1 5], [got1 1, got1 4, got1 4]) := by decide +kernel

/-- C27 refuted, a failed seek: the uncached reader reads on, the cached one says the file is at its end. -/
theorem cached_failed_seek_differs : openBoth (sampleFile fivePoints) 0 [.op .next, .op (.seek 5), .op .next] =
    .ok ([got1 1, (.ok false, none), got1 2], [got1 1, (.ok false, none), (.ok false, none)]) := by decide +kernel

/-- C27 refuted, a seek far past the end: the next sequential read of the cached reader is undefined behaviour. -/
theorem cached_seek_past_end_ub : openBoth (sampleFile fivePoints) 0 [.op .next, .op (.seek 9), .op .next] =
    .ok ([got1 1, (.throw .runtimeError, none), got1 2], [got1 1, (.throw .runtimeError, none), (.ub, none)]) := by decide +kernel

/-- C27 refuted, changing the transforms while reading: the cached reader starts over. -/
theorem cached_transforms_restart : openBoth (sampleFile fivePoints) 0 [.op .next, .op (.transforms []), .op .next] =
    .ok ([got1 1, (.ok true, none), got1 2], [got1 1, (.ok true, none), got1 1]) := by decide +kernel

/-- C27 refuted, filters: the whole file is in the cache after the first read, so the test for the end of the file
succeeds while points are being skipped: reading "ends" before the first kept point (and would go on if called again). -/
theorem cached_filter_differs : openBoth (sampleFile fivePoints) 0
    [.op (.filters [fun p => decide (4#8 ≤ p.headD 0)]), .op .next, .op .next] =
    .ok ([(.ok true, none), got1 4, got1 5], [(.ok true, none), (.ok false, none), got1 4]) := by decide +kernel

/-- C27 refuted, a seek before the first read: a reset does not go back to the first point. -/
theorem cached_seek_reset_differs : openBoth (sampleFile fivePoints) 0 [.op (.seek 3), .reset, .op .next] =
    .ok ([(.ok true, none), (.ok true, none), got1 1], [(.ok true, none), (.ok true, none), got1 4]) := by decide +kernel

/-- The second point of the file below: two bytes of its own, the rest of the first one. -/
def cutPoint : Outcome Bool × Option (List Byte) := (.ok true, some (List.replicate 2 2#8 ++ List.replicate 26 1#8))

/-- C27 refuted, a file cut short: filling the cache throws, although the point asked for is there. -/
theorem cached_truncated_differs : openBoth ((sampleFile fivePoints).take (227 + 57 + 28 + 2)) 0 [.op .next, .op .next, .op .next] =
    .ok ([got1 1, cutPoint, (.ok false, none)], [(.throw .runtimeError, none), got1 1, cutPoint]) := by
  decide +kernel

end LibLAS
