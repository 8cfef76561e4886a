import Verif.Model.SchemaXml
import Verif.Spec.Summary
import Verif.Spec.Las2txt
/-
What an XML summary says about a list of points. The tree is what any XML parser finds in the text: elements with names,
texts and children. Numbers are read the way everybody reads decimals (`Spec.Text.ShowsInt`).
-/
namespace LibLAS.Spec
open LibLAS.Xml

/-- The element at a path of names (the first of each name). -/
def element (tree : PTree) (path : List String) : Option PTree := PTree.walk (path.map lit) tree

/-- The element at the path holds this text. -/
def SaysText (tree : PTree) (path : List String) (t : List Byte) : Prop := (element tree path).map PTree.data = some t

/-- The element at the path holds an integer in decimal notation. -/
def SaysInt (tree : PTree) (path : List String) (v : Int) : Prop :=
  ∃ t : List Char, SaysText tree path (t.map fun c => BitVec.ofNat 8 c.toNat) ∧ Text.ShowsInt v t

/-- The elements for the attributes of a point, and the attribute each stands for. -/
def attributeElements : List (List String × (Attrs → Int)) :=
  [(["rawx"], fun a => a.rawX.toInt), (["rawy"], fun a => a.rawY.toInt), (["rawz"], fun a => a.rawZ.toInt),
   (["intensity"], fun a => a.intensity.toNat), (["returnnumber"], fun a => a.returnNumber),
   (["numberofreturns"], fun a => a.numberOfReturns), (["scandirection"], fun a => a.scanDirection),
   (["scanangle"], fun a => a.scanAngle.toInt), (["flightlineedge"], fun a => a.edge),
   (["userdata"], fun a => a.userData.toNat), (["pointsourceid"], fun a => a.sourceId.toNat),
   (["classification", "id"], fun a => a.classification.flags.toNat % 32),
   (["color", "red"], fun a => a.color.c0.toNat), (["color", "green"], fun a => a.color.c1.toNat),
   (["color", "blue"], fun a => a.color.c2.toNat)]

/-- The elements for the coordinates, with the stored integer of each. -/
def coordinateElements : List (String × (Attrs → BitVec 32) × (Vec3 Fl → Fl)) :=
  [("x", fun a => a.rawX, fun v => v.x), ("y", fun a => a.rawY, fun v => v.y), ("z", fun a => a.rawZ, fun v => v.z)]

/-- A number read from the records of a point as a coordinate. -/
def coordinateValue (raw : BitVec 32) (scale offset : Fl) : Fl := Fl.add (Fl.mul (Fl.ofInt32 raw) scale) offset

/-- The list at a path: one child `item` for every `i` in `among` that some point has, in order, each with `i` under
"id" and the number of the points that have it under "count"; no list when there is none. -/
def Lists (tree : PTree) (path : List String) (item : String) (among : List Nat) (as : List Attrs) (key : Attrs → Nat)
    (more : Nat → PTree → Prop) : Prop :=
  let present := among.filter fun i => as.any fun a => key a == i
  if present = [] then element tree path = none
  else ∃ t, element tree path = some t ∧ t.kids.map Prod.fst = present.map (fun _ => lit item) ∧
    List.Forall₂ (fun (i : Nat) (e : List Byte × PTree) => SaysInt e.2 ["id"] (i : Int) ∧ SaysInt e.2 ["count"] (as.countP fun a => key a == i) ∧
      more i e.2) present t.kids

/-- What the tree must say about the points `as`; `real` is the text of a double. -/
structure Reports (real : Fl → List Byte) (scale offset : Vec3 Fl) (as : List Attrs) (tree : PTree) : Prop where
  count : SaysInt tree ["summary", "points", "count"] as.length
  attributes : ∀ e ∈ attributeElements, ∃ lo hi, isSmallest e.2 as lo ∧ isLargest e.2 as hi ∧
    SaysInt tree (["summary", "points", "minimum"] ++ e.1) lo ∧ SaysInt tree (["summary", "points", "maximum"] ++ e.1) hi
  coordinates : ∀ e ∈ coordinateElements, ∃ a ∈ as, ∃ c ∈ as, (∀ d ∈ as, (e.2.1 a).toInt ≤ (e.2.1 d).toInt ∧ (e.2.1 d).toInt ≤ (e.2.1 c).toInt) ∧
    SaysText tree ["summary", "points", "minimum", e.1] (real (coordinateValue (e.2.1 a) (e.2.2 scale) (e.2.2 offset))) ∧
    SaysText tree ["summary", "points", "maximum", e.1] (real (coordinateValue (e.2.1 c) (e.2.2 scale) (e.2.2 offset)))
  times : (∀ a ∈ as, timeOf a ≠ .nan) → ∃ a ∈ as, ∃ c ∈ as,
    (∀ d ∈ as, Fl.le (timeOf a) (timeOf d) = true ∧ Fl.le (timeOf d) (timeOf c) = true) ∧
    SaysText tree ["summary", "points", "minimum", "time"] (real (timeOf a)) ∧
    SaysText tree ["summary", "points", "maximum", "time"] (real (timeOf c))
  withheld : SaysInt tree ["summary", "points", "encoding", "withheld"] (as.countP fun a => a.classification.flags.getLsbD 7)
  keypoint : SaysInt tree ["summary", "points", "encoding", "keypoint"] (as.countP fun a => a.classification.flags.getLsbD 6)
  synthetic : SaysInt tree ["summary", "points", "encoding", "synthetic"] (as.countP fun a => a.classification.flags.getLsbD 5)
  classes : Lists tree ["summary", "points", "classification"] "classification" (List.range 32) as
    (fun a => a.classification.flags.toNat % 32) fun i e => SaysText e ["name"] (lit (className i))
  returns : (∃ a ∈ as, a.returnNumber ≠ 0) → Lists tree ["summary", "points", "points_by_return"] "return" [1, 2, 3, 4, 5, 6, 7] as
    (fun a => a.returnNumber) fun _ _ => True
  pulses : Lists tree ["summary", "points", "returns_of_given_pulse"] "pulse" (List.range 8) as
    (fun a => a.numberOfReturns) fun _ _ => True

end LibLAS.Spec
