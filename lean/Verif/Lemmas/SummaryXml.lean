import Verif.Model.SummaryXml
import Verif.Spec.SummaryXml
import Verif.Lemmas.SchemaText
import Verif.Lemmas.Summary
/-
The tree of a summary in closed form.
-/
namespace LibLAS.Xml
open LibLAS.Spec PTree

/-- Children without children. -/
def leaves (l : List (List Byte × List Byte)) : List (List Byte × PTree) := l.map fun e => (e.1, .node e.2 [])

theorem putAll_new (l : List (List Byte × List Byte)) (d : List Byte) (ks : List (List Byte × PTree))
    (h : (ks.map Prod.fst ++ l.map Prod.fst).Nodup) : putAll (.node d ks) l = .node d (ks ++ leaves l) := by
  induction l generalizing ks with
  | nil => simp [putAll, leaves]
  | cons e l ih =>
    have hn : e.1 ∉ ks.map Prod.fst := by
      intro hm
      rw [List.map_cons, List.nodup_append] at h
      exact h.2.2 _ hm _ (by simp) rfl
    show putAll ((PTree.node d ks).put [e.1] e.2) l = _
    rw [put_new _ _ _ _ hn, ih]
    · simp [leaves]
    · simpa using h

theorem putAll_fields2 (k1 k2 v1 v2 w1 w2 : List Byte) (h : k1 ≠ k2) :
    putAll (.node [] [(k1, .node v1 []), (k2, .node v2 [])]) [(k1, w1), (k2, w2)] =
      .node [] [(k1, .node w1 []), (k2, .node w2 [])] := by
  simp [putAll, PTree.put, PTree.change, PTree.changeKid, PTree.kids, PTree.data, h]

theorem putAll_fields3 (k1 k2 k3 v1 v2 v3 w1 w2 w3 : List Byte) (h : k1 ≠ k2) (h3 : k1 ≠ k3) (h4 : k2 ≠ k3) :
    putAll (.node [] [(k1, .node v1 []), (k2, .node v2 []), (k3, .node v3 [])]) [(k1, w1), (k2, w2), (k3, w3)] =
      .node [] [(k1, .node w1 []), (k2, .node w2 []), (k3, .node w3 [])] := by
  simp [putAll, PTree.put, PTree.change, PTree.changeKid, PTree.kids, PTree.data, h, h3, h4]

/-- The children made by the counters that are not zero. -/
def entries (item : List Byte) (fields : Nat → BitVec 32 → List (List Byte × List Byte)) (L : List (BitVec 32 × Nat)) :
    List (List Byte × PTree) :=
  (L.filter fun e => e.1 != 0).map fun e => (item, .node [] (leaves (fields e.2 e.1)))

/-- A group of children, when there are any. -/
def groupOf (group : List Byte) (es : List (List Byte × PTree)) : List (List Byte × PTree) :=
  if es = [] then [] else [(group, .node [] es)]

theorem changeKid_last (k : List Byte) (f : PTree → PTree) (ks : List (List Byte × PTree)) (t : PTree) (h : k ∉ ks.map Prod.fst) :
    changeKid k f (ks ++ [(k, t)]) = ks ++ [(k, f t)] := by
  induction ks with
  | nil => exact changeKid_hit _ _ _ _
  | cons p ks ih =>
    obtain ⟨k', t'⟩ := p
    rw [List.map_cons, List.mem_cons, not_or] at h
    rw [List.cons_append, changeKid, if_neg (fun e => h.1 e.symm), ih h.2]
    rfl

theorem addChild_group (d : List Byte) (ks es : List (List Byte × PTree)) (g item : List Byte) (c : PTree) (h : g ∉ ks.map Prod.fst) :
    (PTree.node d (ks ++ groupOf g es)).addChild [g] item c = .node d (ks ++ groupOf g (es ++ [(item, c)])) := by
  show PTree.node d (changeKid g (fun n => PTree.node n.data (n.kids ++ [(item, c)])) (ks ++ groupOf g es)) = _
  unfold groupOf
  by_cases he : es = []
  · subst he
    rw [if_pos rfl, List.append_nil, changeKid_new _ _ _ h]
    simp [PTree.empty, PTree.kids, PTree.data]
  · rw [if_neg he, changeKid_last _ _ _ _ h, if_neg (by simp)]
    rfl

/-- The local tree of a loop: new, or as the last turn left it. -/
def Local (fields : Nat → BitVec 32 → List (List Byte × List Byte)) (tmp : PTree) : Prop :=
  ∀ i c, putAll tmp (fields i c) = .node [] (leaves (fields i c))

theorem listCounts_eq {group item : List Byte} {fields : Nat → BitVec 32 → Outcome (List (List Byte × List Byte))}
    {fs : Nat → BitVec 32 → List (List Byte × List Byte)} (hl : ∀ i c, Local fs (.node [] (leaves (fs i c))))
    (d : List Byte) (ks : List (List Byte × PTree)) (hg : group ∉ ks.map Prod.fst) :
    ∀ (L : List (BitVec 32 × Nat)) (tmp : PTree) (es : List (List Byte × PTree)), Local fs tmp →
      (∀ e ∈ L, fields e.2 e.1 = .ok (fs e.2 e.1)) →
      listCounts group item fields L tmp (.node d (ks ++ groupOf group es)) = .ok (.node d (ks ++ groupOf group (es ++ entries item fs L)))
  | [], tmp, es, _, _ => by simp [listCounts, entries]
  | (c, i) :: L, tmp, es, ht, hf => by
    unfold listCounts
    by_cases hc : c = 0
    · rw [if_neg (by simp [hc]), listCounts_eq hl d ks hg L tmp es ht (fun e he => hf e (List.mem_cons_of_mem _ he))]
      simp [entries, hc]
    · rw [if_pos hc, hf (c, i) (by simp), Outcome.bind_ok]
      dsimp only
      rw [ht, addChild_group _ _ _ _ _ _ hg,
        listCounts_eq hl d ks hg L _ _ (hl i c) (fun e he => hf e (List.mem_cons_of_mem _ he))]
      have e1 : entries item fs ((c, i) :: L) = (item, .node [] (leaves (fs i c))) :: entries item fs L := by
        unfold entries
        rw [List.filter_cons_of_pos (by simpa using hc)]
        rfl
      rw [e1, List.append_assoc]
      rfl

/-- The fields of an entry of `classification`. -/
def classFs (i : Nat) (c : BitVec 32) : List (List Byte × List Byte) :=
  [(lit "name", lit (className i)), (lit "count", num c.toNat), (lit "id", num i)]

/-- The fields of an entry of a return number. -/
def countFs (i : Nat) (c : BitVec 32) : List (List Byte × List Byte) := [(lit "id", num i), (lit "count", num c.toNat)]

theorem classFields_eq (i : Nat) (c : BitVec 32) (hi : i < 32) : classFields i c = .ok (classFs i c) := by
  have h : ∀ i < 32, ((Classification.make (BitVec.ofNat 32 i) false false false).bind Classification.getClassName) = .ok (className i) := by
    decide +kernel
  have := h i hi
  unfold classFields classFs
  cases hk : Classification.make (BitVec.ofNat 32 i) false false false with
  | ok k =>
    rw [hk] at this
    have e : k.getClassName = .ok (className i) := this
    rw [Outcome.bind_ok, e, Outcome.bind_ok]
    rfl
  | throw e => rw [hk] at this; cases this
  | ub => rw [hk] at this; cases this

theorem class_local (i : Nat) (c : BitVec 32) : Local classFs (.node [] (leaves (classFs i c))) := by
  intro j e
  exact putAll_fields3 (lit "name") (lit "count") (lit "id") _ _ _ _ _ _ (by decide +kernel) (by decide +kernel) (by decide +kernel)

theorem count_local (i : Nat) (c : BitVec 32) : Local countFs (.node [] (leaves (countFs i c))) := by
  intro j e
  exact putAll_fields2 (lit "id") (lit "count") _ _ _ _ (by decide +kernel)

theorem class_new : Local classFs PTree.empty := by
  intro i c
  exact putAll_new _ _ _ (by show [lit "name", lit "count", lit "id"].Nodup; decide +kernel)

theorem count_new : Local countFs PTree.empty := by
  intro i c
  exact putAll_new _ _ _ (by show [lit "id", lit "count"].Nodup; decide +kernel)

/-- The children of the tree of a point. -/
def pointKids (real : Fl → List Byte) (sc off : Vec3 Fl) (a : Attrs) : List (List Byte × PTree) :=
  leaves [(lit "x", real (coordinateValue a.rawX sc.x off.x)), (lit "y", real (coordinateValue a.rawY sc.y off.y)),
    (lit "z", real (coordinateValue a.rawZ sc.z off.z)), (lit "rawx", signed a.rawX.toInt),
    (lit "rawy", signed a.rawY.toInt), (lit "rawz", signed a.rawZ.toInt), (lit "time", real (timeOf a)),
    (lit "intensity", num a.intensity.toNat), (lit "returnnumber", num a.returnNumber), (lit "numberofreturns", num a.numberOfReturns),
    (lit "scandirection", num a.scanDirection), (lit "scanangle", signed a.scanAngle.toInt), (lit "flightlineedge", num a.edge),
    (lit "userdata", num a.userData.toNat), (lit "pointsourceid", num a.sourceId.toNat)] ++
  [(lit "classification", .node [] (leaves [(lit "name", lit (className (a.classification.flags.toNat % 32))),
      (lit "id", num (a.classification.flags.toNat % 32)), (lit "withheld", word a.classification.isWithheld),
      (lit "keypoint", word a.classification.isKeyPoint), (lit "synthetic", word a.classification.isSynthetic)])),
   (lit "color", .node [] (leaves [(lit "red", num a.color.c0.toNat), (lit "green", num a.color.c1.toNat), (lit "blue", num a.color.c2.toNat)]))]

theorem classTree_eq (c : Classification) : classTree c = .ok (.node [] (leaves [(lit "name", lit (className (c.flags.toNat % 32))),
    (lit "id", num (c.flags.toNat % 32)), (lit "withheld", word c.isWithheld), (lit "keypoint", word c.isKeyPoint),
    (lit "synthetic", word c.isSynthetic)])) := by
  have h : ∀ f : BitVec 8, (Classification.mk f).getClassName = .ok (className (f.toNat % 32)) ∧ (Classification.mk f).getClass.toNat = f.toNat % 32 := by
    decide +kernel
  obtain ⟨f⟩ := c
  unfold classTree
  rw [(h f).1, Outcome.bind_ok, (h f).2]
  show Outcome.ok _ = _
  rw [PTree.empty, putAll_new _ _ _ (by
    show [lit "name", lit "id", lit "withheld", lit "keypoint", lit "synthetic"].Nodup; decide +kernel)]
  rfl

theorem colorTree_eq (c : Color) : colorTree c =
    .node [] (leaves [(lit "red", num c.c0.toNat), (lit "green", num c.c1.toNat), (lit "blue", num c.c2.toNat)]) := by
  unfold colorTree
  rw [PTree.empty, putAll_new _ _ _ (by show [lit "red", lit "green", lit "blue"].Nodup; decide +kernel)]
  rfl

theorem pointTree_eq {b : Build} (real : Fl → List Byte) {p : Point} {a : Attrs} (h : Point.observe b p = .ok a) :
    pointTree b real p = .ok (.node [] (pointKids real p.hdr.scale p.hdr.offset a)) := by
  have P := Summary.parts h
  obtain ⟨rn, h1, e1⟩ := P.rn
  obtain ⟨nr, h2, e2⟩ := P.nr
  obtain ⟨sd, h3, e3⟩ := P.sd
  obtain ⟨fe, h4, e4⟩ := P.fe
  unfold pointTree Point.getX Point.getY Point.getZ
  simp only [P.x, P.y, P.z, P.i, P.t, h1, h2, h3, h4, P.c, P.ar, P.u, P.s, P.col, Outcome.bind_ok, Outcome.pure_eq, classTree_eq,
    colorTree_eq, e1, e2, e3, e4]
  rw [PTree.empty, putAll_new _ _ _ (by
    show [lit "x", lit "y", lit "z", lit "rawx", lit "rawy", lit "rawz", lit "time", lit "intensity", lit "returnnumber",
      lit "numberofreturns", lit "scandirection", lit "scanangle", lit "flightlineedge", lit "userdata", lit "pointsourceid"].Nodup
    decide +kernel)]
  rfl

/-- The entries of the points by return. -/
def returnEntries (s : Summary) : List (List Byte × PTree) :=
  if (s.pointsByReturn.zipIdx.drop 1).any (fun e => e.1 != 0) then entries (lit "return") countFs (s.pointsByReturn.zipIdx.drop 1)
  else [(lit "return", .node [] (leaves [(lit "id", num 1), (lit "count", num s.count.toNat)]))]

/-- The children of `points`. -/
def pointsKids (mn mx : PTree) (s : Summary) : List (List Byte × PTree) :=
  [(lit "minimum", mn), (lit "maximum", mx)] ++
  (groupOf (lit "classification") (entries (lit "classification") classFs s.classes.zipIdx) ++
  ((lit "encoding", .node [] (leaves [(lit "withheld", num s.withheld.toNat), (lit "keypoint", num s.keypoint.toNat),
      (lit "synthetic", num s.synthetic.toNat)])) ::
  (groupOf (lit "points_by_return") (returnEntries s) ++
  (groupOf (lit "returns_of_given_pulse") (entries (lit "pulse") countFs s.returnsOfPulse.zipIdx) ++
  [(lit "count", .node (num s.count.toNat) [])]))))

theorem keys_groupOf (g k : List Byte) (es : List (List Byte × PTree)) (h : k ∈ (groupOf g es).map Prod.fst) : k = g := by
  unfold groupOf at h
  split at h <;> simp at h
  exact h

theorem put2_group (d : List Byte) (ks : List (List Byte × PTree)) (g k v : List Byte) (l : List (List Byte × List Byte))
    (h : g ∉ ks.map Prod.fst) (hk : k ∉ l.map Prod.fst) :
    (PTree.node d (ks ++ groupOf g (leaves l))).put [g, k] v = .node d (ks ++ [(g, .node [] (leaves (l ++ [(k, v)])))]) := by
  show PTree.node d (changeKid g (fun n => n.put [k] v) (ks ++ groupOf g (leaves l))) = _
  unfold groupOf
  by_cases he : leaves l = []
  · have : l = [] := by simpa [leaves] using he
    subst this
    rw [if_pos he, List.append_nil, changeKid_new _ _ _ h, PTree.empty, put_new _ _ _ _ (by simp)]
    rfl
  · rw [if_neg he, changeKid_last _ _ _ _ h, put_new _ _ _ _ (by simpa [leaves] using hk)]
    simp [leaves]

theorem putReturns_eq (s : Summary) (d : List Byte) (ks : List (List Byte × PTree)) (h : lit "points_by_return" ∉ ks.map Prod.fst) :
    putReturns s (.node d ks) = .ok (.node d (ks ++ groupOf (lit "points_by_return") (returnEntries s))) := by
  unfold putReturns returnEntries
  dsimp only
  split
  · have := listCounts_eq (item := lit "return") (fields := countFields) count_local d ks h (s.pointsByReturn.zipIdx.drop 1) PTree.empty [] count_new (fun _ _ => rfl)
    simpa [groupOf] using this
  · have := addChild_group d ks [] (lit "points_by_return") (lit "return")
      (putAll PTree.empty [(lit "id", num 1), (lit "count", num s.count.toNat)]) h
    rw [show groupOf (lit "points_by_return") [] = [] from rfl, List.append_nil, List.nil_append] at this
    rw [this, PTree.empty, putAll_new _ _ _ (by show [lit "id", lit "count"].Nodup; decide +kernel)]
    rfl

theorem summaryTree_eq {b : Build} (real : Fl → List Byte) {s : Summary} {e : Extremes} {lo hi : Attrs} (hs : s.ext = some e)
    (h1 : Point.observe b e.minimum = .ok lo) (h2 : Point.observe b e.maximum = .ok hi) (hc : s.classes.length = 32) :
    summaryTree b real s = .ok (.node [] [(lit "summary", .node [] [(lit "points", .node []
      (pointsKids (.node [] (pointKids real e.minimum.hdr.scale e.minimum.hdr.offset lo))
        (.node [] (pointKids real e.maximum.hdr.scale e.maximum.hdr.offset hi)) s))])]) := by
  unfold summaryTree
  rw [hs]
  dsimp only
  rw [pointTree_eq real h1, Outcome.bind_ok, pointTree_eq real h2, Outcome.bind_ok]
  generalize PTree.node [] (pointKids real e.minimum.hdr.scale e.minimum.hdr.offset lo) = mn
  generalize PTree.node [] (pointKids real e.maximum.hdr.scale e.maximum.hdr.offset hi) = mx
  have e0 : (PTree.empty.addChild [] (lit "minimum") mn).addChild [] (lit "maximum") mx =
      .node [] ([(lit "minimum", mn), (lit "maximum", mx)] ++ groupOf (lit "classification") []) := rfl
  rw [e0]
  have hb : ∀ x ∈ s.classes.zipIdx, classFields x.2 x.1 = .ok (classFs x.2 x.1) := by
    intro x hx
    have := List.snd_lt_of_mem_zipIdx hx
    exact classFields_eq _ _ (by omega)
  rw [listCounts_eq class_local [] [(lit "minimum", mn), (lit "maximum", mx)]
    (by show lit "classification" ∉ [lit "minimum", lit "maximum"]; decide +kernel) s.classes.zipIdx PTree.empty [] class_new hb, Outcome.bind_ok]
  simp only [List.nil_append]
  have key : ∀ (k : List Byte) (l : List (List Byte × PTree)), k ∉ [lit "minimum", lit "maximum", lit "classification"] →
      k ∉ l.map Prod.fst → k ∉ (([(lit "minimum", mn), (lit "maximum", mx)] ++ groupOf (lit "classification")
        (entries (lit "classification") classFs s.classes.zipIdx)) ++ l).map Prod.fst := by
    intro k l hk hl hm
    rw [List.map_append, List.mem_append] at hm
    rcases hm with hm | hm
    · rw [List.map_append, List.mem_append] at hm
      rcases hm with hm | hm
      · apply hk
        simp only [List.map_cons, List.map_nil, List.mem_cons, List.not_mem_nil, or_false] at hm ⊢
        rcases hm with h | h
        · exact .inl h
        · exact .inr (.inl h)
      · apply hk
        rw [keys_groupOf _ _ _ hm]
        simp
    · exact hl hm
  generalize hK : ([(lit "minimum", mn), (lit "maximum", mx)] ++ groupOf (lit "classification")
        (entries (lit "classification") classFs s.classes.zipIdx)) = K at key ⊢
  have p1 := put2_group [] K (lit "encoding") (lit "withheld") (num s.withheld.toNat) []
    (by simpa using key (lit "encoding") [] (by decide +kernel) (by simp)) (by simp)
  rw [show groupOf (lit "encoding") (leaves []) = [] from rfl, List.append_nil] at p1
  have p2 := put2_group [] K (lit "encoding") (lit "keypoint") (num s.keypoint.toNat) [(lit "withheld", num s.withheld.toNat)]
    (by simpa using key (lit "encoding") [] (by decide +kernel) (by simp)) (by show lit "keypoint" ∉ [lit "withheld"]; decide +kernel)
  rw [show groupOf (lit "encoding") (leaves [(lit "withheld", num s.withheld.toNat)]) =
    [(lit "encoding", .node [] (leaves ([] ++ [(lit "withheld", num s.withheld.toNat)])))] from rfl] at p2
  have p3 := put2_group [] K (lit "encoding") (lit "synthetic") (num s.synthetic.toNat)
    [(lit "withheld", num s.withheld.toNat), (lit "keypoint", num s.keypoint.toNat)]
    (by simpa using key (lit "encoding") [] (by decide +kernel) (by simp)) (by show lit "synthetic" ∉ [lit "withheld", lit "keypoint"]; decide +kernel)
  rw [show groupOf (lit "encoding") (leaves [(lit "withheld", num s.withheld.toNat), (lit "keypoint", num s.keypoint.toNat)]) =
    [(lit "encoding", .node [] (leaves ([(lit "withheld", num s.withheld.toNat)] ++ [(lit "keypoint", num s.keypoint.toNat)])))] from rfl] at p3
  rw [p1, p2, p3, putReturns_eq s [] _ (key _ _ (by decide +kernel) (by
    show lit "points_by_return" ∉ [lit "encoding"]; decide +kernel)), Outcome.bind_ok]
  have p5 := listCounts_eq (group := lit "returns_of_given_pulse") (item := lit "pulse") (fields := countFields) count_local [] (K ++ [(lit "encoding", .node [] (leaves
    ([(lit "withheld", num s.withheld.toNat), (lit "keypoint", num s.keypoint.toNat)] ++ [(lit "synthetic", num s.synthetic.toNat)])))] ++
      groupOf (lit "points_by_return") (returnEntries s))
    (by
      rw [List.append_assoc]
      refine key _ _ (by decide +kernel) ?_
      intro hm
      rw [List.map_append, List.mem_append] at hm
      rcases hm with hm | hm
      · revert hm; show ¬ lit "returns_of_given_pulse" ∈ [lit "encoding"]; decide +kernel
      · exact absurd (keys_groupOf _ _ _ hm) (by decide +kernel))
    s.returnsOfPulse.zipIdx PTree.empty [] count_new (fun _ _ => rfl)
  rw [show groupOf (lit "returns_of_given_pulse") [] = [] from rfl, List.append_nil, List.nil_append] at p5
  rw [p5, Outcome.bind_ok]
  rw [put_new _ _ _ _ (by
      rw [List.append_assoc, List.append_assoc]
      refine key _ _ (by decide +kernel) ?_
      intro hm
      rw [List.map_append, List.mem_append, List.map_append, List.mem_append] at hm
      rcases hm with hm | hm | hm
      · revert hm; show ¬ lit "count" ∈ [lit "encoding"]; decide +kernel
      · exact absurd (keys_groupOf _ _ _ hm) (by decide +kernel)
      · exact absurd (keys_groupOf _ _ _ hm) (by decide +kernel))]
  show Outcome.ok _ = _
  have e9 : ∀ pt : PTree, PTree.empty.addChild [lit "summary"] (lit "points") pt =
      .node [] [(lit "summary", .node [] [(lit "points", pt)])] := fun _ => rfl
  rw [e9]
  unfold pointsKids
  rw [← hK]
  simp only [List.append_assoc, List.cons_append, List.nil_append]

end LibLAS.Xml
