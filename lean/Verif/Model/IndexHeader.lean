import Verif.Model.IndexOutput
import Verif.Model.Bounds
/-
The header record of the index (number 42): `IndexOutput::InitiateOutput`, src/detail/index/indexoutput.cpp:61-151, and
`Index::LoadIndexVLR`, src/index.cpp:435-514. Doubles are bit patterns in the record.
-/
namespace LibLAS.Index
open LibLAS

/-- What the header record holds. -/
structure Info where
  major : Nat
  minor : Nat
  author : List Byte
  comment : List Byte
  date : List Byte
  minX : BitVec 64
  maxX : BitVec 64
  minY : BitVec 64
  maxY : BitVec 64
  minZ : BitVec 64
  maxZ : BitVec 64
  dataId : Nat
  points : Nat
  cellsX : Nat
  cellsY : Nat
  cellsZ : Nat
  deriving DecidableEq, Repr

/-- The grid after `LoadIndexVLR`; what is used when building only is left empty. -/
def Info.grid (h : Info) : Grid :=
  ⟨⟨Fl.ofBits h.minX, Fl.ofBits h.minY, Fl.ofBits h.minZ⟩, ⟨Fl.ofBits h.maxX, Fl.ofBits h.maxY, Fl.ofBits h.maxZ⟩,
    h.cellsX, h.cellsY, h.cellsZ, .fin 0, 0, false⟩

/-- `m_bounds`. -/
def Info.bounds (h : Info) : Bounds :=
  let g := h.grid
  Bounds.make3 g.min.x g.min.y g.min.z g.max.x g.max.y g.max.z

/-- src/detail/index/indexoutput.cpp:80-84 (and :86-90, :92-96): a text is cut to 511 bytes (`strncpy`), and written with its
terminating zero after its length. -/
def putText (t : List Byte) : List Byte :=
  let t := (cstr t).take 511
  put 2 (BitVec.ofNat 16 (t.length + 1)) ++ t ++ [0#8]

/-- src/detail/index/indexoutput.cpp:76-126: the data of the header record. -/
def putInfo (h : Info) : List Byte :=
  put8 h.major ++ put8 h.minor ++ putText h.author ++ putText h.comment ++ putText h.date ++
    put 8 h.minX ++ put 8 h.maxX ++ put 8 h.minY ++ put 8 h.maxY ++ put 8 h.minZ ++ put 8 h.maxZ ++
    put32 h.dataId ++ put32 h.points ++ put32 h.cellsX ++ put32 h.cellsY ++ put32 h.cellsZ

/-- src/detail/index/indexoutput.cpp:72-75, :128-132: the header record. -/
def headerRecord (h : Info) : VLR :=
  { VLR.new with
    userId := padTo 16 (lit "liblas")
    recordId := 42#16
    description := padTo 32 (lit "LibLAS Index Header")
    recordSize := BitVec.ofNat 16 (putInfo h).length
    data := putInfo h }

/-- src/index.cpp:452-456: a text of the record: its length, then that many bytes, copied into 512 bytes of stack, and
read up to the first zero. More than 512 bytes overrun the stack; without a zero the text ends in what the stack holds
beyond it, for which undefined stands too. -/
def takeText (b : List Byte) (pos : Nat) : Outcome (Option (List Byte × Nat)) :=
  match freadNat b pos 2 with
  | none => .ok none
  | some n =>
    match fread b (pos + 2) n with
    | none => .ok none
    | some t => if 512 < n ∨ 0#8 ∉ t then .ub else .ok (some (cstr t, pos + 2 + n))

/-- src/index.cpp:463-497: the numbers of the record. -/
def takeNumbers (b : List Byte) (pos : Nat) (major minor : Nat) (author comment date : List Byte) : Option Info :=
  match freadNat b pos 8, freadNat b (pos + 8) 8, freadNat b (pos + 16) 8, freadNat b (pos + 24) 8, freadNat b (pos + 32) 8,
    freadNat b (pos + 40) 8, freadNat b (pos + 48) 4, freadNat b (pos + 52) 4, freadNat b (pos + 56) 4, freadNat b (pos + 60) 4,
    freadNat b (pos + 64) 4 with
  | some x0, some x1, some y0, some y1, some z0, some z1, some id, some n, some cx, some cy, some cz =>
    some ⟨major, minor, author, comment, date, .ofNat 64 x0, .ofNat 64 x1, .ofNat 64 y0, .ofNat 64 y1, .ofNat 64 z0,
      .ofNat 64 z1, id, n, cx, cy, cz⟩
  | _, _, _, _, _, _, _, _, _, _, _ => none

/-- src/index.cpp:435-514 `LoadIndexVLR`; `none` for a returned `false`. The position is an `uint16_t` in the code; it does not
exceed 65535 unless the texts are far longer than 512 bytes. -/
def loadInfo (v : VLR) : Outcome (Option Info) :=
  let b := v.data
  match freadNat b 0 1, freadNat b 1 1 with
  | some major, some minor =>
    (takeText b 2).bind fun r =>
      match r with
      | none => .ok none
      | some (author, pos) =>
        (takeText b pos).bind fun r =>
          match r with
          | none => .ok none
          | some (comment, pos) =>
            (takeText b pos).bind fun r =>
              match r with
              | none => .ok none
              | some (date, pos) => .ok (takeNumbers b pos major minor author comment date)
  | _, _ => .ok none

end LibLAS.Index
