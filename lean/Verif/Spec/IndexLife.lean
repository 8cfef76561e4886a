import Verif.Spec.Index
import Verif.Spec.IndexQuery
import Verif.Spec.Records
import Verif.Spec.Reading
import Verif.Spec.IndexWindow
import Verif.Model.IndexLife
import Verif.Lemmas.FloatBits
import Verif.Lemmas.Point
/-
Files for which an index can be made.
-/
namespace LibLAS.Spec
open Index Point

/-- The coordinates of a record. -/
def xyz (b : LibLAS.Build) (src : PHeader) (p : List Byte) : Pt :=
  ⟨Point.scaled (view b src.fmt p).rawX src.scale.x src.offset.x, Point.scaled (view b src.fmt p).rawY src.scale.y src.offset.y,
    Point.scaled (view b src.fmt p).rawZ src.scale.z src.offset.z⟩

/-- The records of the points of a file. -/
def pointRecords (input : List Byte) (h : LibLAS.Header) : List (List Byte) :=
  recordsFrom input h.dataOffset.toNat h.dataRecordLength 0 h.pointCount.toNat

/-- Their coordinates. -/
def pointsOf (b : LibLAS.Build) (input : List Byte) (h : LibLAS.Header) : List Pt := (pointRecords input h).map (xyz b h.toP)

/-- A file whose points can be indexed: it opens and is complete, has records long enough for its format, between one and 2^28 points, which lie on the area its
header gives, no readable schema record, and a header from which a new file can be made; there are at most 54 unused bytes in front of the points. -/
structure Copyable (env : Env) (today : BitVec 16 × BitVec 16) (b : LibLAS.Build) (input : List Byte) (r : Reader) : Prop where
  opens : Reader.make env today (IStream.onFile input) = .ok r
  long : 227 ≤ input.length
  schema : NoSchema env r.hdr.vlrs
  format : formatSize r.hdr.schema.fmt ≤ r.hdr.dataRecordLength
  complete : r.hdr.dataOffset.toNat + r.hdr.pointCount.toNat * r.hdr.dataRecordLength ≤ input.length
  some : 0 < r.hdr.pointCount.toNat
  few : r.hdr.pointCount.toNat ≤ 2 ^ 28
  size : 227 ≤ r.hdr.headerSize.toNat
  text : r.hdr.schema.isCustom = true → (env.xml r.hdr.schema).length ≤ 65535
  outSchema : NoSchema env (outputRecords env r.hdr)
  room : r.hdr.dataOffset.toNat ≤ r.hdr.headerSize.toNat + recordBytes (outputRecords env r.hdr) + 54
  inside : ∀ p ∈ pointsOf b input r.hdr, Between (Fl.ofBits r.hdr.min.x) (Fl.ofBits r.hdr.max.x) p.x ∧
    Between (Fl.ofBits r.hdr.min.y) (Fl.ofBits r.hdr.max.y) p.y

/-- ... and which has no index yet. -/
structure Indexable (env : Env) (today : BitVec 16 × BitVec 16) (b : LibLAS.Build) (input : List Byte) (r : Reader) : Prop extends Copyable env today b input r where
  fresh : ∀ v ∈ r.hdr.vlrs, NotIndex v

/-- The heights in the header are in order, and either no cell height is asked for, or one that gives fewer than 2^28 layers, and the points are
between the heights. -/
structure Heights (b : LibLAS.Build) (s : Setup) (input : List Byte) (h : LibLAS.Header) (σ z0 z1 : ℚ) : Prop where
  size : s.cellSizeZ = .fin σ
  rep : Fl.Rep σ
  min : Fl.ofBits h.min.z = .fin z0
  max : Fl.ofBits h.max.z = .fin z1
  order : z0 ≤ z1
  layers : σ ≤ 1 / 2 ^ 52 ∨ ∃ c, Fl.sub (.fin z1) (.fin z0) = .fin c ∧ 1 / 2 ^ 20 < c / σ ∧ c / σ ≤ 2 ^ 28 ∧
    ∀ p ∈ pointsOf b input h, Between (.fin z0) (.fin z1) p.z

/-- A record of an index: named "liblas", number 42 (header) or 43 (data). -/
structure IsIndex (v : VLR) : Prop where
  name : v.getUserId false = lit "liblas"
  id : v.recordId = 42#16 ∨ v.recordId = 43#16

/-- What a new file holds besides the caller's records: those of the spatial reference and of the schema. -/
def laterRecords (env : Env) (h : LibLAS.Header) : List VLR := referenceRecords h.schema.isCustom h.srs ++ schemaRecords env h.schema

/-- The index in the records `vs` answers windows on the points `pts` as it should: for a window from `l` to `u` that meets the bounds of the
grid, wherever the reader is, the answer has no id twice, no point outside the window and all points of it (up to the margin at its edges;
an axis on which the window has no extent is not filtered; z is filtered only if there is one layer). -/
def AnswersWindows (g : Grid) (pts : List Pt) (vs : List VLR) : Prop :=
  ∀ (l u : Pt) (q : Query) (pos : RPos), Meets g.min.x g.max.x l.x u.x → Meets g.min.y g.max.y l.y u.y → Meets g.min.z g.max.z l.z u.z →
    q = Query.set g l u → (q.noX = false ∨ q.noY = false ∨ q.noZ = false) →
    (q.noZ = true ∨ (g.cellsZ = 1 ∧ ∀ p ∈ pts, Between g.min.z g.max.z p.z)) →
    ∃ ids, filter pts vs q pos = .ok ids ∧ ids.Nodup ∧
      (∀ id ∈ ids, ∃ p, pts[id]? = some p ∧ (q.noX = false → Near g.min.x g.max.x l.x u.x p.x) ∧ (q.noY = false → Near g.min.y g.max.y l.y u.y p.y) ∧
        (q.noZ = false → Near g.min.z g.max.z l.z u.z p.z)) ∧
      ∀ id p, pts[id]? = some p → (q.noX = false → Deeper g.min.x g.max.x l.x u.x p.x) → (q.noY = false → Deeper g.min.y g.max.y l.y u.y p.y) →
        (q.noZ = false → Deeper g.min.z g.max.z l.z u.z p.z) → id ∈ ids

end LibLAS.Spec
