import Verif.Spec.Cached
import Verif.Lemmas.ResetRun
namespace LibLAS
open Spec

theorem Reader.readUncached_hit {r : Reader} {f : List Byte} {off len n k : Nat} (ho : r.On f off len n) (ha : r.At off len k)
    (hk : k < n) (hin : off + k * len + len ≤ f.length) :
    r.readUncached = ({ r with ifs := ⟨f, off + (k + 1) * len, false, false⟩, point := r.xf (record f off len k), current := k + 1 },
      .ok ()) := by
  unfold Reader.readUncached
  rw [Reader.At.start ho ha]
  dsimp only
  rw [if_neg (by rw [ho.size, ha.1]; omega)]
  have hon : Reader.On { r with ifs := ⟨f, off + k * len, false, false⟩ } f off len n :=
    ⟨rfl, ho.dataOffset, ho.recordSize, ho.recordLength, ho.point, ho.size, ho.count, ho.pos⟩
  rw [Reader.readRecord_full hon rfl hin]
  dsimp only
  have e : off + k * len + len = off + (k + 1) * len := by rw [Nat.succ_mul]; omega
  rw [Reader.transform_eq, e, ha.1]
  rfl

namespace Cached

/-- What every call on a cached reader keeps. -/
structure Ok (c : Cached) (f : List Byte) (off len n : Nat) : Prop where
  ready : c.base.Ready f off len n
  nofilter : c.base.filter = none
  bytes : c.base.hdr.schema.byteSize = len
  here : c.base.At off len c.base.current
  size : c.cacheSize ≤ n
  pos : 0 < n → 0 < c.cacheSize
  start : c.start ≤ n
  maskLen : c.mask.length = n ∨ c.mask = []
  good : c.initialized = true → c.mask.length = n ∧ c.cache.length = c.cacheSize ∧
    ∀ (p : Nat), c.mask[p]? = some true → c.start ≤ p ∧ p < c.start + c.cacheSize ∧
      c.cache[p - c.start]? = some (some (c.base.xf (record f off len p)))

theorem clearMarks_length (m : List Bool) (a k : Nat) : (clearMarks m a k).length = m.length := by
  unfold clearMarks; simp

theorem clearMarks_get (m : List Bool) (a k p : Nat) :
    (clearMarks m a k)[p]? = some true ↔ m[p]? = some true ∧ ¬ (a ≤ p ∧ p < a + k) := by
  unfold clearMarks
  rw [List.getElem?_mapIdx]
  cases m[p]? with
  | none => simp
  | some x =>
    simp only [Option.map_some, Option.some.injEq]
    split <;> simp_all

theorem cacheLoop_spec {f : List Byte} {off len n pos : Nat} (hin : off + n * len ≤ f.length) : ∀ (left i : Nat) (c : Cached),
    c.base.Ready f off len n → c.base.At off len (pos + i) → i + left ≤ c.cache.length → pos + i + left ≤ n → c.mask.length = n →
    ∃ c', cacheLoop left i c = (c', .ok ()) ∧ c'.base.At off len (pos + i + left) ∧ c.base.Inv len c'.base ∧
      c'.start = c.start ∧ c'.cacheSize = c.cacheSize ∧ c'.readPos = c.readPos ∧ c'.initialized = c.initialized ∧
      c'.mask.length = n ∧ c'.cache.length = c.cache.length ∧
      (∀ (p : Nat), c'.mask[p]? = some true ↔ c.mask[p]? = some true ∨ pos + i ≤ p ∧ p < pos + i + left) ∧
      (∀ (j : Nat), c'.cache[j]? = if i ≤ j ∧ j < i + left then some (some (c.base.xf (record f off len (pos + j)))) else c.cache[j]?) := by
  intro left
  induction left with
  | zero =>
    intro i c hr ha h1 h2 h3
    refine ⟨c, rfl, ha, ⟨.refl _, hr.on.point⟩, rfl, rfl, rfl, rfl, h3, rfl, ?_, ?_⟩
    · intro p; constructor
      · exact Or.inl
      · rintro (h | h)
        · exact h
        · omega
    · intro j; rw [if_neg (by omega)]
  | succ left ih =>
    intro i c hr ha h1 h2 h3
    have hle : off + (pos + i) * len + len ≤ f.length := by
      have : (pos + i + 1) * len ≤ n * len := Nat.mul_le_mul_right _ (by omega)
      rw [Nat.succ_mul] at this; omega
    have hcur := ha.1
    have hread := Reader.readUncached_hit hr.on ha (by omega) hle
    rw [cacheLoop, if_neg (by omega)]
    dsimp only
    rw [hread]
    dsimp only
    rw [if_neg (by omega)]
    have hrec : (record f off len (pos + i)).length = len := slice_length_of_le hle
    generalize hb : ({ c.base with ifs := ⟨f, off + (pos + i + 1) * len, false, false⟩, point := c.base.xf (record f off len (pos + i)), current := pos + i + 1 } : Reader) = b'
    have hinv : c.base.Inv len b' := by
      rw [← hb]; exact ⟨⟨rfl, rfl, rfl, rfl, rfl, hr.on.buf.symm, fun _ => rfl⟩, hr.keeps _ hrec⟩
    have hxf : b'.xf = c.base.xf := hinv.1.xf
    obtain ⟨c', e1, e2, e3, e4, e5, e6, e7, e8, e9, e10, e11⟩ := ih (i + 1)
      { c with mask := c.mask.set c.base.current true, base := b', cache := c.cache.set i (some (c.base.xf (record f off len (pos + i)))) }
      (Reader.Inv.ready hr hinv) (by rw [← hb]; exact ⟨rfl, fun _ => ⟨rfl, rfl, rfl⟩⟩) (by simp; omega) (by omega) (by simpa using h3)
    refine ⟨c', e1, ?_, hinv.trans e3, e4, e5, e6, e7, e8, by rw [e9]; simp, ?_, ?_⟩
    · have : pos + (i + 1) + left = pos + i + (left + 1) := by omega
      rw [← this]; exact e2
    · intro p
      rw [e10]
      simp only [hcur]
      by_cases hp : p = pos + i
      · subst hp
        rw [List.getElem?_set_self (by omega)]
        constructor
        · intro _; right; omega
        · intro _; left; rfl
      · rw [List.getElem?_set_ne (by omega)]
        constructor
        · rintro (h | h)
          · exact Or.inl h
          · right; omega
        · rintro (h | h)
          · exact Or.inl h
          · right; omega
    · intro j
      rw [e11]
      simp only [hxf]
      by_cases hj : j = i
      · subst hj
        rw [if_neg (by omega), if_pos (by omega), List.getElem?_set_self (by omega)]
      · by_cases hj2 : i + 1 ≤ j ∧ j < i + 1 + left
        · rw [if_pos hj2, if_pos (by omega)]
        · rw [if_neg hj2, if_neg (by omega), List.getElem?_set_ne (by omega)]

theorem implReset_inv {r : Reader} {f : List Byte} {off len n : Nat} (h : r.Ready f off len n) (hb : r.hdr.schema.byteSize = len) :
    r.Inv len r.implReset ∧ r.implReset.At off len 0 :=
  ⟨⟨⟨rfl, by show r.hdr.pointCount.toNat = r.size; rw [h.on.count, h.on.size],
    by show r.hdr.schema.byteSize = r.recordSize; rw [hb, h.on.recordSize], rfl, rfl, rfl, fun _ => rfl⟩, h.on.point⟩,
    rfl, fun hh => absurd rfl hh⟩

/-- All of the mask is clear after a reset. -/
theorem Ok.implReset {c : Cached} {f : List Byte} {off len n : Nat} (h : c.Ok f off len n) :
    c.implReset.Ok f off len n ∧ c.base.Inv len c.implReset.base ∧ c.implReset.base = c.base.implReset ∧
    c.implReset.mask.length = c.mask.length ∧ c.implReset.cacheSize = c.cacheSize ∧ c.implReset.cache = c.cache ∧
    (c.mask ≠ [] → c.implReset.readPos = 0 ∧ c.implReset.start = 0) ∧ (c.mask = [] → c.implReset.readPos = c.readPos) := by
  obtain ⟨h1, h2⟩ := implReset_inv h.ready h.bytes
  have hr := Reader.Inv.ready h.ready h1
  have hhere : c.base.implReset.At off len c.base.implReset.current := h2
  unfold Cached.implReset
  by_cases hm : c.mask = []
  · rw [if_pos hm]
    refine ⟨⟨hr, by rw [h1.1.filter]; exact h.nofilter, by rw [h1.1.hdr]; exact h.bytes, hhere, h.size, h.pos, h.start, h.maskLen, ?_⟩,
      h1, rfl, rfl, rfl, rfl, fun hh => absurd hm hh, fun _ => rfl⟩
    intro hi
    obtain ⟨g1, g2, g3⟩ := h.good hi
    refine ⟨g1, g2, fun p hp => ?_⟩
    rw [hm] at hp; simp at hp
  · rw [if_neg hm]
    refine ⟨⟨hr, by rw [h1.1.filter]; exact h.nofilter, by rw [h1.1.hdr]; exact h.bytes, hhere, h.size, h.pos, Nat.zero_le _, ?_, ?_⟩,
      h1, rfl, clearMarks_length _ _ _, rfl, rfl, fun _ => ⟨rfl, rfl⟩, fun hh => absurd hh hm⟩
    · rcases h.maskLen with hl | hl
      · left; simp only [clearMarks_length]; exact hl
      · exact absurd hl hm
    · intro hi; cases hi

theorem implSeek_ok {r : Reader} {f : List Byte} {off len n k : Nat} (ho : r.On f off len n) (hk : k < n) :
    r.implSeek k = ({ r with ifs := ⟨f, off + k * len, false, false⟩, current := k }, .ok ()) := by
  unfold Reader.implSeek
  rw [if_neg (by rw [ho.size]; omega), if_neg (by rw [ho.size]; omega)]
  have hs : r.ifs.clear.seek (k * r.hdr.dataRecordLength + r.hdr.dataOffset.toNat) = ⟨f, off + k * len, false, false⟩ := by
    rw [IStream.clear_seek, ho.buf, ho.recordLength, ho.dataOffset, Nat.add_comm]
  rw [hs]

/-- A valid seek. -/
theorem Ok.implSeek {c : Cached} {f : List Byte} {off len n k : Nat} (h : c.Ok f off len n) (hk : k < n) :
    ∃ c', c.implSeek k = (c', .ok ()) ∧ c'.Ok f off len n ∧ c.base.Inv len c'.base ∧ c'.base.At off len k ∧ c'.readPos = k ∧
      c'.mask.length = c.mask.length ∧ c'.cacheSize = c.cacheSize ∧ c'.cache = c.cache ∧
      (k ≠ 0 → c'.mask = c.mask ∧ c'.start = c.start) ∧ (c.mask ≠ [] → k = 0 → c'.start = 0) ∧
      (∀ (p : Nat), c'.mask[p]? = some true → c.mask[p]? = some true) := by
  have step : ∀ d : Cached, d.Ok f off len n → ∃ d', (({ d with readPos := k, base := (d.base.implSeek k).1 } : Cached), (d.base.implSeek k).2) = (d', .ok ()) ∧
      d'.Ok f off len n ∧ d.base.Inv len d'.base ∧ d'.base.At off len k ∧ d'.readPos = k ∧
      d'.mask = d.mask ∧ d'.cacheSize = d.cacheSize ∧ d'.cache = d.cache ∧ d'.start = d.start := by
    intro d hd
    rw [implSeek_ok hd.ready.on hk]
    have hinv : d.base.Inv len { d.base with ifs := ⟨f, off + k * len, false, false⟩, current := k } :=
      ⟨⟨rfl, rfl, rfl, rfl, rfl, hd.ready.on.buf.symm, fun _ => rfl⟩, hd.ready.on.point⟩
    exact ⟨_, rfl, ⟨Reader.Inv.ready hd.ready hinv, hd.nofilter, hd.bytes, ⟨rfl, fun _ => ⟨rfl, rfl, rfl⟩⟩, hd.size, hd.pos, hd.start,
      hd.maskLen, hd.good⟩, hinv, ⟨rfl, fun _ => ⟨rfl, rfl, rfl⟩⟩, rfl, rfl, rfl, rfl, rfl⟩
  unfold Cached.implSeek
  by_cases h0 : k < 1
  · rw [if_pos h0]
    have hk0 : k = 0 := by omega
    obtain ⟨g1, g2, g3, g4, g5, g6, g7, g8⟩ := h.implReset
    obtain ⟨d', e1, e2, e3, e4, e5, e6, e7, e8, e9⟩ := step _ g1
    refine ⟨d', e1, e2, g2.trans e3, e4, e5, by rw [e6, g4], by rw [e7, g5], by rw [e8, g6], fun hh => absurd hk0 hh,
      fun hm _ => by rw [e9]; exact (g7 hm).2, ?_⟩
    intro p hp
    rw [e6] at hp
    by_cases hm : c.mask = []
    · have : c.implReset.mask = [] := List.eq_nil_of_length_eq_zero (by rw [g4, hm]; rfl)
      rw [this] at hp; simp at hp
    · unfold Cached.implReset at hp
      rw [if_neg hm] at hp
      exact ((clearMarks_get _ _ _ _).1 hp).1
  · rw [if_neg h0]
    obtain ⟨d', e1, e2, e3, e4, e5, e6, e7, e8, e9⟩ := step _ h
    exact ⟨d', e1, e2, e3, e4, e5, by rw [e6], e7, e8, fun _ => ⟨e6, e9⟩, fun _ hh => absurd hh (by omega), fun p hp => by rw [e6] at hp; exact hp⟩

/-- Filling the cache at a position it does not hold. -/
theorem Ok.cacheData {c : Cached} {f : List Byte} {off len n k : Nat} (hin : off + n * len ≤ f.length) (h : c.Ok f off len n)
    (hi : c.initialized = true) (hk : k < n) :
    ∃ c', c.cacheData k = (c', .ok ()) ∧ c'.Ok f off len n ∧ c.base.Inv len c'.base ∧ c'.readPos = k ∧ c'.mask.length = n ∧
      c'.mask[k]? = some true ∧ c'.start = k ∧ c'.cache[0]? = some (some (c.base.xf (record f off len k))) := by
  obtain ⟨g1, g2, g3⟩ := h.good hi
  have hcs := h.pos (by omega)
  have hcount := h.ready.on.count
  unfold Cached.cacheData
  dsimp only
  rw [hcount]
  generalize hc0 : ({ c with start := k, mask := clearMarks c.mask c.start (min c.cacheSize (n - c.start)) } : Cached) = c0
  have hclear : ∀ (p : Nat), ¬ c0.mask[p]? = some true := by
    intro p hp
    rw [← hc0] at hp
    obtain ⟨h1, h2⟩ := (clearMarks_get _ _ _ _).1 hp
    obtain ⟨a, b, -⟩ := g3 p h1
    have hpn : p < n := by
      rw [← g1]
      by_contra hcon
      rw [List.getElem?_eq_none (by omega)] at h1
      cases h1
    omega
  have hml : c0.mask.length = n := by rw [← hc0]; simp only [clearMarks_length]; exact g1
  have hne : c0.mask ≠ [] := by intro hh; rw [hh] at hml; simp at hml; omega
  have hok0 : c0.Ok f off len n := by
    refine ⟨by rw [← hc0]; exact h.ready, by rw [← hc0]; exact h.nofilter, by rw [← hc0]; exact h.bytes, by rw [← hc0]; exact h.here,
      by rw [← hc0]; exact h.size, by rw [← hc0]; exact h.pos, by rw [← hc0]; show k ≤ n; omega, Or.inl hml, fun _ => ?_⟩
    exact ⟨hml, by rw [← hc0]; exact g2, fun p hp => absurd hp (hclear p)⟩
  have hcl0 : c0.cache.length = c.cacheSize := by rw [← hc0]; exact g2
  have hb0 : c0.base = c.base := by rw [← hc0]
  have hs0 : c0.start = k := by rw [← hc0]
  have hz0 : c0.cacheSize = c.cacheSize := by rw [← hc0]
  have hmove : ∃ c1, moveTo c0 k = (c1, .ok ()) ∧ c1.Ok f off len n ∧ c0.base.Inv len c1.base ∧ c1.base.At off len k ∧
      c1.mask.length = n ∧ c1.cacheSize = c0.cacheSize ∧ c1.cache = c0.cache ∧ c1.start = k ∧ (∀ (p : Nat), ¬ c1.mask[p]? = some true) := by
    unfold moveTo
    by_cases hcur : c0.base.current = k
    · rw [if_neg (by simpa using hcur)]
      exact ⟨c0, rfl, hok0, ⟨.refl _, hok0.ready.on.point⟩, by rw [← hcur]; exact hok0.here, hml, rfl, rfl, hs0, hclear⟩
    · rw [if_pos hcur]
      obtain ⟨c1, e1, e2, e3, e4, e5, e6, e7, e8, e9, e10, e11⟩ := hok0.implSeek hk
      rw [e1]
      dsimp only
      have e4' := e4
      have hself : ({ c1 with base := { c1.base with current := k } } : Cached) = c1 := by
        have : c1.base.current = k := e4.1
        rw [← this]
      rw [hself]
      refine ⟨c1, rfl, e2, e3, e4, by rw [e6]; exact hml, e7, e8, ?_, fun p hp => hclear p (e11 p hp)⟩
      by_cases hk0 : k = 0
      · rw [e10 hne hk0, hk0]
      · rw [(e9 hk0).2, hs0]
  obtain ⟨c1, m1, m2, m3, m4, m5, m6, m7, m8, m9⟩ := hmove
  rw [m1]
  dsimp only
  obtain ⟨c2, l1, l2, l3, l4, l5, l6, l7, l8, l9, l10, l11⟩ := cacheLoop_spec (pos := k) hin (min c.cacheSize (n - k)) 0
    { c1 with readPos := k } m2.ready m4 (by show 0 + min c.cacheSize (n - k) ≤ c1.cache.length; rw [m7, hcl0]; omega)
    (by omega) m5
  have hxf : c2.base.xf = c.base.xf := by rw [l3.1.xf, ← hb0]; exact m3.1.xf
  have hinv : c.base.Inv len c2.base := by rw [← hb0]; exact m3.trans l3
  have hxf1 : c1.base.xf = c.base.xf := by rw [← hb0]; exact m3.1.xf
  refine ⟨c2, l1, ⟨Reader.Inv.ready h.ready hinv, by rw [hinv.1.filter]; exact h.nofilter, by rw [hinv.1.hdr]; exact h.bytes, ?_,
    by rw [l5]; exact m2.size, by rw [l5]; exact m2.pos, by rw [l4]; show c1.start ≤ n; omega, Or.inl l8, fun _ => ⟨l8, ?_, ?_⟩⟩, hinv,
    l6, l8, ?_, by rw [l4]; exact m8, ?_⟩
  · have := l2.1; rw [this]; exact l2
  · rw [l9, l5]; show c1.cache.length = c1.cacheSize; rw [m7, m6, hcl0, hz0]
  · intro p hp
    rcases (l10 p).1 hp with hp | hp
    · exact absurd hp (m9 p)
    · rw [l4, l5]
      show c1.start ≤ p ∧ p < c1.start + c1.cacheSize ∧ _
      rw [m8, m6, hz0]
      refine ⟨by omega, by omega, ?_⟩
      rw [l11, if_pos (by omega)]
      show some (some (c1.base.xf _)) = _
      rw [hxf1, hxf]
      congr 4; omega
  · exact (l10 k).2 (Or.inr ⟨by omega, by omega⟩)
  · rw [l11, if_pos (by omega)]
    show some (some (c1.base.xf _)) = _
    rw [hxf1, Nat.add_zero]

theorem fromCache_ok {c : Cached} {k : Nat} {p : List Byte} (h1 : c.start ≤ k) (h2 : k < 2 ^ 31)
    (h3 : c.cache[k - c.start]? = some (some p)) :
    c.fromCache k = ({ c with base := { c.base with point := p } }, .ok ()) := by
  unfold fromCache
  have e : Int.bmod ((k : Int) - c.start) (2 ^ 32) = ((k - c.start : Nat) : Int) := by
    rw [Nat.cast_sub h1, Int.bmod_def]
    have : ((k : Int) - c.start) % ((2 ^ 32 : Nat) : Int) = (k : Int) - c.start := Int.emod_eq_of_lt (by omega) (by norm_num; omega)
    rw [this, if_pos (by norm_num; omega)]
  dsimp only
  rw [e, if_neg (by omega)]
  have : ((k - c.start : Nat) : Int).toNat = k - c.start := by omega
  rw [this, h3]

/-- Reading any point of the file through the cache. -/
theorem Ok.readCached {c : Cached} {f : List Byte} {off len n k : Nat} (hin : off + n * len ≤ f.length) (h : c.Ok f off len n)
    (hk : k < n) (hn : n < 2 ^ 31) :
    ∃ c', c.readCached k = (c', .ok ()) ∧ c'.Ok f off len n ∧ c.base.Inv len c'.base ∧ c'.readPos = k ∧ c'.mask.length = n ∧
      c'.base.point = c.base.xf (record f off len k) := by
  have hle : off + k * len + len ≤ f.length := by
    have : (k + 1) * len ≤ n * len := Nat.mul_le_mul_right _ hk
    rw [Nat.succ_mul] at this; omega
  have hrec : (record f off len k).length = len := slice_length_of_le hle
  have hplen := h.ready.keeps _ hrec
  have hmod : k % 2 ^ 32 = k := Nat.mod_eq_of_lt (by omega)
  have hini : c.initCache.Ok f off len n ∧ c.initCache.initialized = true ∧ c.initCache.base = c.base := by
    unfold initCache
    split
    · rename_i hi; exact ⟨h, hi, rfl⟩
    · refine ⟨⟨h.ready, h.nofilter, h.bytes, h.here, h.size, h.pos, h.start, Or.inl ?_, fun _ => ⟨?_, ?_, ?_⟩⟩, rfl, rfl⟩
      · simp only [List.length_replicate]; exact h.ready.on.count
      · simp only [List.length_replicate]; exact h.ready.on.count
      · simp
      · intro p hp
        rw [List.getElem?_replicate] at hp
        split at hp
        · simp at hp
        · cases hp
  unfold Cached.readCached
  dsimp only
  rw [hmod]
  obtain ⟨i1, i2, i3⟩ := hini
  generalize c.initCache = c0 at i1 i2 i3
  obtain ⟨g1, g2, g3⟩ := i1.good i2
  have put : ∀ d : Cached, d.Ok f off len n → d.mask.length = n → c.base.Inv len d.base → d.readPos = k →
      ({ d with base := { d.base with point := c.base.xf (record f off len k) } } : Cached).Ok f off len n ∧
      c.base.Inv len { d.base with point := c.base.xf (record f off len k) } := by
    intro d hd hm hinv hp
    have hinv2 : d.base.Inv len { d.base with point := c.base.xf (record f off len k) } := ⟨⟨rfl, rfl, rfl, rfl, rfl, rfl, id⟩, hplen⟩
    exact ⟨⟨Reader.Inv.ready hd.ready hinv2, hd.nofilter, hd.bytes, hd.here, hd.size, hd.pos, hd.start, hd.maskLen, hd.good⟩,
      hinv.trans hinv2⟩
  rcases hm : c0.mask[k]? with _ | b
  · rw [List.getElem?_eq_none_iff] at hm; omega
  cases b with
  | true =>
    obtain ⟨a1, a2, a3⟩ := g3 k hm
    dsimp only
    rw [fromCache_ok (c := { c0 with readPos := k }) a1 (by omega) a3]
    have hok' : ({ c0 with readPos := k } : Cached).Ok f off len n :=
      ⟨i1.ready, i1.nofilter, i1.bytes, i1.here, i1.size, i1.pos, i1.start, i1.maskLen, i1.good⟩
    obtain ⟨p1, p2⟩ := put { c0 with readPos := k } hok' g1 (by rw [i3]; exact ⟨.refl _, h.ready.on.point⟩) rfl
    rw [i3] at *
    exact ⟨_, rfl, p1, p2, rfl, g1, rfl⟩
  | false =>
    dsimp only
    obtain ⟨c1, e1, e2, e3, e4, e5, e6, e7, e8⟩ := i1.cacheData hin i2 hk
    rw [e1]
    dsimp only
    rw [e6]
    dsimp only
    rw [i3] at e3 e8
    rw [fromCache_ok (c := c1) (k := k) (by omega) (by omega) (by rw [e7, Nat.sub_self]; exact e8)]
    obtain ⟨p1, p2⟩ := put c1 e2 e5 e3 e4
    exact ⟨_, rfl, p1, p2, e4, e5, rfl⟩

/-- Sequential reading through the cache. -/
theorem Ok.readNext_hit {c : Cached} {f : List Byte} {off len n k : Nat} (hin : off + n * len ≤ f.length) (h : c.Ok f off len n)
    (hk : k < n) (hn : n < 2 ^ 31) (hp : c.readPos = k) :
    ∃ c', c.readNext = (c', .ok true) ∧ c'.Ok f off len n ∧ c.base.Inv len c'.base ∧ c'.readPos = k + 1 ∧ c'.mask.length = n ∧
      c'.base.point = c.base.xf (record f off len k) := by
  obtain ⟨c1, e1, e2, e3, e4, e5, e6⟩ := h.readCached hin hk hn
  unfold Cached.readNext Cached.implReadNext Cached.readOn
  rw [if_neg (by rw [h.ready.on.size]; omega), hp, e1]
  dsimp only
  have hacc : c1.base.accepts = true := by unfold Reader.accepts; rw [e2.nofilter]
  rw [if_pos hacc]
  exact ⟨{ c1 with readPos := c1.readPos + 1 }, rfl,
    ⟨e2.ready, e2.nofilter, e2.bytes, e2.here, e2.size, e2.pos, e2.start, e2.maskLen, e2.good⟩, e3, by show c1.readPos + 1 = _; rw [e4], e5, e6⟩

theorem Ok.readNext_end {c : Cached} {f : List Byte} {off len n : Nat} (h : c.Ok f off len n) (hp : c.readPos = n) :
    c.readNext = (c, .ok false) := by
  unfold Cached.readNext Cached.implReadNext
  rw [if_pos (by rw [h.ready.on.size]; omega)]
  rfl

theorem Ok.readAt_hit {c : Cached} {f : List Byte} {off len n k : Nat} (hin : off + n * len ≤ f.length) (h : c.Ok f off len n)
    (hk : k < n) (hn : n < 2 ^ 31) :
    ∃ c', c.readAt k = (c', .ok true) ∧ c'.Ok f off len n ∧ c.base.Inv len c'.base ∧ c'.mask.length = n ∧
      c'.base.point = c.base.xf (record f off len k) := by
  obtain ⟨c1, e1, e2, e3, e4, e5, e6⟩ := h.readCached hin hk hn
  unfold Cached.readAt Cached.implReadAt
  rw [if_neg (by rw [h.ready.on.count]; omega), if_neg (by rw [h.ready.on.size]; omega), e1]
  exact ⟨{ c1 with readPos := k }, rfl,
    ⟨e2.ready, e2.nofilter, e2.bytes, e2.here, e2.size, e2.pos, e2.start, e2.maskLen, e2.good⟩, e3, e5, e6⟩

end Cached
end LibLAS
