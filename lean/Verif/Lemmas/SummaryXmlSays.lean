import Verif.Lemmas.SummaryXml
import Verif.Props.Summary
/-
What the tree of a summary says.
-/
namespace LibLAS.Xml
open LibLAS.Spec PTree

theorem saysInt_num {t : PTree} {path : List String} {n : Nat} (h : (element t path).map PTree.data = some (num n)) :
    SaysInt t path (n : Int) := ⟨Las2txt.natText n, h, Las2txt.showsNat n⟩

theorem saysInt_signed {t : PTree} {path : List String} {i : Int} (h : (element t path).map PTree.data = some (signed i)) :
    SaysInt t path i := ⟨Las2txt.intText i, h, Las2txt.showsInt i⟩

theorem find_ne {k k' : List Byte} (t : PTree) (r : List (List Byte × PTree)) (h : k' ≠ k) : find k ((k', t) :: r) = find k r := by
  rw [find, if_neg h]

theorem find_eq (k : List Byte) (t : PTree) (r : List (List Byte × PTree)) : find k ((k, t) :: r) = some t := by
  rw [find, if_pos rfl]

theorem find_group_ne {k g : List Byte} (es r : List (List Byte × PTree)) (h : g ≠ k) : find k (groupOf g es ++ r) = find k r := by
  unfold groupOf
  split
  · rfl
  · exact find_ne _ _ h

theorem find_group_eq (g : List Byte) (es r : List (List Byte × PTree)) :
    find g (groupOf g es ++ r) = if es = [] then find g r else some (.node [] es) := by
  unfold groupOf
  split
  · rfl
  · exact find_eq _ _ _

/-- What the list of the counters that are not zero says. -/
theorem lists_of {tree : PTree} {path : List String} {item : String} {as : List Attrs} {key : Attrs → Nat} {among : List Nat}
    {fs : Nat → BitVec 32 → List (List Byte × List Byte)} {more : Nat → PTree → Prop} {L : List (BitVec 32 × Nat)}
    (hlen : as.length < 2 ^ 32) (hL : L = among.map fun i => (tally as (fun a => key a == i), i))
    (hw : element tree path = if entries (lit item) fs L = [] then none else some (.node [] (entries (lit item) fs L)))
    (hid : ∀ i c, SaysInt (.node [] (leaves (fs i c))) ["id"] (i : Int)) (hcount : ∀ i c, SaysInt (.node [] (leaves (fs i c))) ["count"] (c.toNat : Int))
    (hmore : ∀ i c, more i (.node [] (leaves (fs i c)))) : Lists tree path item among as key more := by
  have hto : ∀ i, (tally as (fun a => key a == i)).toNat = as.countP (fun a => key a == i) := by
    intro i
    unfold tally
    rw [BitVec.toNat_ofNat, Nat.mod_eq_of_lt]
    have := List.countP_le_length (p := fun a => key a == i) (l := as)
    omega
  have hz : ∀ i, (tally as (fun a => key a == i) != 0) = as.any fun a => key a == i := by
    intro i
    rw [Bool.eq_iff_iff, bne_iff_ne, List.any_eq_true]
    constructor
    · intro h
      by_contra hn
      apply h
      apply BitVec.eq_of_toNat_eq
      rw [hto]
      have : as.countP (fun a => key a == i) = 0 := by
        rw [List.countP_eq_zero]
        intro a ha hk
        exact hn ⟨a, ha, hk⟩
      rw [this]; rfl
    · rintro ⟨a, ha, hk⟩ h
      have := hto i
      rw [h] at this
      have h2 : 0 < as.countP (fun a => key a == i) := List.countP_pos_iff.2 ⟨a, ha, hk⟩
      rw [← this] at h2
      exact absurd h2 (by simp)
  have he : entries (lit item) fs L = (among.filter fun i => as.any fun a => key a == i).map
      fun i => (lit item, .node [] (leaves (fs i (tally as (fun a => key a == i))))) := by
    unfold entries
    rw [hL, List.filter_map, List.map_map]
    congr 1
    apply List.filter_congr
    intro i _
    exact hz i
  unfold Lists
  dsimp only
  rw [he] at hw
  generalize (among.filter fun i => as.any fun a => key a == i) = present at *
  by_cases hp : present = []
  · rw [if_pos hp, hw, if_pos (by simp [hp])]
  · rw [if_neg hp, hw, if_neg (by simpa using hp)]
    refine ⟨_, rfl, by rw [PTree.kids, List.map_map]; rfl, ?_⟩
    show List.Forall₂ _ present (present.map _)
    rw [List.forall₂_map_right_iff]
    rw [List.forall₂_same]
    intro i _
    refine ⟨hid _ _, ?_, hmore _ _⟩
    have := hcount i (tally as (fun a => key a == i))
    rw [hto] at this
    exact this

theorem zipIdx_table (n : Nat) (f : Nat → BitVec 32) : ((List.range n).map f).zipIdx = (List.range n).map fun i => (f i, i) := by
  apply List.ext_getElem
  · simp
  · intro i h1 h2
    simp

/-- The tree of a summary in closed form. -/
def wholeTree (mn mx : PTree) (s : Summary) : PTree :=
  .node [] [(lit "summary", .node [] [(lit "points", .node [] (pointsKids mn mx s))])]

theorem element_points (mn mx : PTree) (s : Summary) (k : String) :
    element (wholeTree mn mx s) ["summary", "points", k] = find (lit k) (pointsKids mn mx s) := by
  show (match find (lit k) (pointsKids mn mx s) with | none => none | some c => some c) = _
  cases find (lit k) (pointsKids mn mx s) <;> rfl

theorem element_min (mn mx : PTree) (s : Summary) (p : List String) :
    element (wholeTree mn mx s) (["summary", "points", "minimum"] ++ p) = element mn p := rfl

theorem element_max (mn mx : PTree) (s : Summary) (p : List String) :
    element (wholeTree mn mx s) (["summary", "points", "maximum"] ++ p) = element mx p := rfl

local macro "skip" : tactic => `(tactic| decide +kernel)

theorem find_classes (mn mx : PTree) (s : Summary) :
    find (lit "classification") (pointsKids mn mx s) =
      if entries (lit "classification") classFs s.classes.zipIdx = [] then none
      else some (.node [] (entries (lit "classification") classFs s.classes.zipIdx)) := by
  unfold pointsKids
  rw [List.cons_append, find_ne _ _ (by skip), List.cons_append, find_ne _ _ (by skip), List.nil_append, find_group_eq,
    find_ne _ _ (by skip), find_group_ne _ _ (by skip), find_group_ne _ _ (by skip), find_ne _ _ (by skip)]
  rfl

theorem find_returns (mn mx : PTree) (s : Summary) :
    find (lit "points_by_return") (pointsKids mn mx s) =
      if returnEntries s = [] then none else some (.node [] (returnEntries s)) := by
  unfold pointsKids
  rw [List.cons_append, find_ne _ _ (by skip), List.cons_append, find_ne _ _ (by skip), List.nil_append, find_group_ne _ _ (by skip),
    find_ne _ _ (by skip), find_group_eq, find_group_ne _ _ (by skip), find_ne _ _ (by skip)]
  rfl

theorem find_pulses (mn mx : PTree) (s : Summary) :
    find (lit "returns_of_given_pulse") (pointsKids mn mx s) =
      if entries (lit "pulse") countFs s.returnsOfPulse.zipIdx = [] then none
      else some (.node [] (entries (lit "pulse") countFs s.returnsOfPulse.zipIdx)) := by
  unfold pointsKids
  rw [List.cons_append, find_ne _ _ (by skip), List.cons_append, find_ne _ _ (by skip), List.nil_append, find_group_ne _ _ (by skip),
    find_ne _ _ (by skip), find_group_ne _ _ (by skip), find_group_eq, find_ne _ _ (by skip)]
  rfl

theorem find_count (mn mx : PTree) (s : Summary) :
    find (lit "count") (pointsKids mn mx s) = some (.node (num s.count.toNat) []) := by
  unfold pointsKids
  rw [List.cons_append, find_ne _ _ (by skip), List.cons_append, find_ne _ _ (by skip), List.nil_append, find_group_ne _ _ (by skip),
    find_ne _ _ (by skip), find_group_ne _ _ (by skip), find_group_ne _ _ (by skip), find_eq]

theorem find_encoding (mn mx : PTree) (s : Summary) :
    find (lit "encoding") (pointsKids mn mx s) = some (.node [] (leaves [(lit "withheld", num s.withheld.toNat), (lit "keypoint", num s.keypoint.toNat),
      (lit "synthetic", num s.synthetic.toNat)])) := by
  unfold pointsKids
  rw [List.cons_append, find_ne _ _ (by skip), List.cons_append, find_ne _ _ (by skip), List.nil_append, find_group_ne _ _ (by skip), find_eq]

theorem element_encoding (mn mx : PTree) (s : Summary) (k : String) :
    element (wholeTree mn mx s) ["summary", "points", "encoding", k] = element (.node [] (leaves [(lit "withheld", num s.withheld.toNat),
      (lit "keypoint", num s.keypoint.toNat), (lit "synthetic", num s.synthetic.toNat)])) [k] := by
  show (match find (lit "encoding") (pointsKids mn mx s) with | none => none | some c => walk [lit k] c) = _
  rw [find_encoding]
  rfl

theorem toNat_tally {as : List Attrs} (hlen : as.length < 2 ^ 32) (p : Attrs → Bool) : (tally as p).toNat = as.countP p := by
  unfold tally
  rw [BitVec.toNat_ofNat, Nat.mod_eq_of_lt]
  have := List.countP_le_length (p := p) (l := as)
  omega

theorem classFs_says (i : Nat) (c : BitVec 32) : SaysInt (.node [] (leaves (classFs i c))) ["id"] (i : Int) ∧
    SaysInt (.node [] (leaves (classFs i c))) ["count"] (c.toNat : Int) ∧
    SaysText (.node [] (leaves (classFs i c))) ["name"] (lit (className i)) := by
  refine ⟨saysInt_num ?_, saysInt_num ?_, ?_⟩
  · rfl
  · rfl
  · rfl

theorem countFs_says (i : Nat) (c : BitVec 32) : SaysInt (.node [] (leaves (countFs i c))) ["id"] (i : Int) ∧
    SaysInt (.node [] (leaves (countFs i c))) ["count"] (c.toNat : Int) := ⟨saysInt_num rfl, saysInt_num rfl⟩

theorem smallest_of {key : Attrs → BitVec 32} {as : List Attrs} {lo hi : Attrs} (h1 : isSmallest (fun a => (key a).toInt) as (key lo).toInt)
    (h2 : isLargest (fun a => (key a).toInt) as (key hi).toInt) : ∃ a ∈ as, ∃ c ∈ as,
      (∀ d ∈ as, (key a).toInt ≤ (key d).toInt ∧ (key d).toInt ≤ (key c).toInt) ∧ key a = key lo ∧ key c = key hi := by
  obtain ⟨⟨a, ha, ea⟩, h1⟩ := h1
  obtain ⟨⟨c, hc, ec⟩, h2⟩ := h2
  refine ⟨a, ha, c, hc, fun d hd => ?_, BitVec.eq_of_toInt_eq ea, BitVec.eq_of_toInt_eq ec⟩
  have e1 : (key a).toInt = (key lo).toInt := ea
  have e2 : (key c).toInt = (key hi).toInt := ec
  rw [e1, e2]
  exact ⟨h1 d hd, h2 d hd⟩

theorem reports_of (real : Fl → List Byte) (sc off : Vec3 Fl) {as : List Attrs} {s : Summary} {lo hi : Attrs} (hlen : as.length < 2 ^ 32)
    (hr8 : ∀ a ∈ as, a.returnNumber < 8) (hc : Summary.countersRight as s) (hn : numericExtremes as lo hi) (ht : (∀ a ∈ as, timeOf a ≠ .nan) → timeExtremes as lo hi) :
    Reports real sc off as (wholeTree (.node [] (pointKids real sc off lo)) (.node [] (pointKids real sc off hi)) s) := by
  obtain ⟨c1, c2, c3, c4, c5, c6, c7⟩ := hc
  have hn' : ∀ key ∈ numericAttrs, isSmallest key as (key lo) ∧ isLargest key as (key hi) := hn
  simp only [numericAttrs, List.forall_mem_cons] at hn'
  obtain ⟨nx, ny, nz, ni, nr, nn, nd, ne, na, nu, np, nc, nR, nG, nB, -⟩ := hn'
  refine ⟨?_, ?_, ?_, ?_, ?_, ?_, ?_, ?_, ?_, ?_⟩
  · apply saysInt_num
    rw [element_points, find_count, c1, toNat_tally hlen, List.countP_true]
    rfl
  · simp only [attributeElements, List.forall_mem_cons]
    refine ⟨⟨_, _, nx.1, nx.2, saysInt_signed rfl, saysInt_signed rfl⟩, ⟨_, _, ny.1, ny.2, saysInt_signed rfl, saysInt_signed rfl⟩,
      ⟨_, _, nz.1, nz.2, saysInt_signed rfl, saysInt_signed rfl⟩, ⟨_, _, ni.1, ni.2, saysInt_num rfl, saysInt_num rfl⟩,
      ⟨_, _, nr.1, nr.2, saysInt_num rfl, saysInt_num rfl⟩, ⟨_, _, nn.1, nn.2, saysInt_num rfl, saysInt_num rfl⟩,
      ⟨_, _, nd.1, nd.2, saysInt_num rfl, saysInt_num rfl⟩, ⟨_, _, na.1, na.2, saysInt_signed rfl, saysInt_signed rfl⟩,
      ⟨_, _, ne.1, ne.2, saysInt_num rfl, saysInt_num rfl⟩, ⟨_, _, nu.1, nu.2, saysInt_num rfl, saysInt_num rfl⟩,
      ⟨_, _, np.1, np.2, saysInt_num rfl, saysInt_num rfl⟩, ⟨_, _, nc.1, nc.2, ?_, ?_⟩,
      ⟨_, _, nR.1, nR.2, saysInt_num rfl, saysInt_num rfl⟩, ⟨_, _, nG.1, nG.2, saysInt_num rfl, saysInt_num rfl⟩,
      ⟨_, _, nB.1, nB.2, saysInt_num rfl, saysInt_num rfl⟩, by simp⟩
    · have h : SaysInt (wholeTree (.node [] (pointKids real sc off lo)) (.node [] (pointKids real sc off hi)) s)
          (["summary", "points", "minimum"] ++ ["classification", "id"]) ((lo.classification.flags.toNat % 32 : Nat) : Int) := saysInt_num rfl
      rw [Int.natCast_mod] at h
      exact h
    · have h : SaysInt (wholeTree (.node [] (pointKids real sc off lo)) (.node [] (pointKids real sc off hi)) s)
          (["summary", "points", "maximum"] ++ ["classification", "id"]) ((hi.classification.flags.toNat % 32 : Nat) : Int) := saysInt_num rfl
      rw [Int.natCast_mod] at h
      exact h
  · simp only [coordinateElements, List.forall_mem_cons]
    obtain ⟨a, ha, c, hc, hall, ea, ec⟩ := smallest_of (key := fun a => a.rawX) nx.1 nx.2
    obtain ⟨a', ha', c', hc', hall', ea', ec'⟩ := smallest_of (key := fun a => a.rawY) ny.1 ny.2
    obtain ⟨a'', ha'', c'', hc'', hall'', ea'', ec''⟩ := smallest_of (key := fun a => a.rawZ) nz.1 nz.2
    refine ⟨⟨a, ha, c, hc, hall, ?_, ?_⟩, ⟨a', ha', c', hc', hall', ?_, ?_⟩, ⟨a'', ha'', c'', hc'', hall'', ?_, ?_⟩, by simp⟩
    · rw [ea]; rfl
    · rw [ec]; rfl
    · rw [ea']; rfl
    · rw [ec']; rfl
    · rw [ea'']; rfl
    · rw [ec'']; rfl
  · intro hnan
    obtain ⟨⟨a, ha, ea⟩, h1, ⟨c, hc, ec⟩, h2⟩ := ht hnan
    refine ⟨a, ha, c, hc, fun d hd => ⟨by rw [ea]; exact h1 d hd, by rw [ec]; exact h2 d hd⟩, ?_, ?_⟩
    · rw [ea]; rfl
    · rw [ec]; rfl
  · apply saysInt_num
    rw [element_encoding, c5, toNat_tally hlen]
    rfl
  · apply saysInt_num
    rw [element_encoding, c4, toNat_tally hlen]
    rfl
  · apply saysInt_num
    rw [element_encoding, c3, toNat_tally hlen]
    rfl
  · refine lists_of (fs := classFs) (L := s.classes.zipIdx) hlen (by rw [c2, zipIdx_table]) ?_ (fun i c => (classFs_says i c).1)
      (fun i c => (classFs_says i c).2.1) (fun i c => (classFs_says i c).2.2)
    rw [element_points, find_classes]
  · rintro ⟨a, ha, hr⟩
    have hz : s.pointsByReturn.zipIdx.drop 1 = [1, 2, 3, 4, 5, 6, 7].map fun i => (tally as (fun a => a.returnNumber == i), i) := by
      rw [c6, zipIdx_table]; rfl
    by_cases hany : (s.pointsByReturn.zipIdx.drop 1).any (fun e => e.1 != 0) = true
    · refine lists_of (fs := countFs) (L := s.pointsByReturn.zipIdx.drop 1) hlen hz ?_ (fun i c => (countFs_says i c).1)
        (fun i c => (countFs_says i c).2) (fun _ _ => trivial)
      rw [element_points, find_returns]
      unfold returnEntries
      rw [if_pos hany]
    · exfalso
      apply hany
      have h8 := hr8 a ha
      rw [hz, List.any_eq_true]
      refine ⟨(tally as (fun c => c.returnNumber == a.returnNumber), a.returnNumber), List.mem_map.2 ⟨a.returnNumber, ?_, rfl⟩, ?_⟩
      · simp only [List.mem_cons, List.not_mem_nil, or_false]
        omega
      · rw [bne_iff_ne]
        intro h0
        have h0 : tally as (fun c => c.returnNumber == a.returnNumber) = 0 := h0
        have h1 := toNat_tally hlen (as := as) (fun c => c.returnNumber == a.returnNumber)
        rw [h0] at h1
        have h2 : 0 < as.countP (fun c => c.returnNumber == a.returnNumber) := List.countP_pos_iff.2 ⟨a, ha, by simp⟩
        rw [← h1] at h2
        exact absurd h2 (by simp)
  · refine lists_of (fs := countFs) (L := s.returnsOfPulse.zipIdx) hlen (by rw [c7, zipIdx_table]) ?_ (fun i c => (countFs_says i c).1)
      (fun i c => (countFs_says i c).2) (fun _ _ => trivial)
    rw [element_points, find_pulses]

end LibLAS.Xml
