import Verif.Model.Writer
import Verif.Model.Reader
import Verif.Model.FloatText
import Verif.Model.CApi
/-
apps/txt2las.c: lines of text as points. Text is a list of characters. `sscanf` is a parameter. The options are taken as
already read from the command line (its loop, :389-544, is not modelled), messages are not modelled, `exit(1)` is the exception
`runtimeError`.
-/
namespace LibLAS.Txt2las

/-- `sscanf` with the formats `%d` (undefined when the number does not fit an `int`), `%f` and `%lf`: the number found at the
front of the text, if the call returns 1. -/
structure Scan where
  d : List Char → Outcome (Option Int)
  f : List Char → Option Fl
  lf : List Char → Option Fl

/-- What `parse` works on: `xyz`, `gps_time`, the point and the colour. -/
structure Vars where
  x : Fl
  y : Fl
  z : Fl
  t : Fl
  point : Point
  color : Color

/-- apps/txt2las.c, e.g. :114: blank, comma and tab separate columns. -/
def isSep (c : Char) : Bool := c == ' ' || c == ',' || c == '\t'

/-- A call of a C setter whose result is not looked at: an exception leaves the point unchanged (and an error on the stack,
which is not modelled here). -/
def call (b : Build) (p : Point) (s : CApi.PointSet) : Outcome Point :=
  match s.run b p with
  | .ok q => .ok q
  | .throw _ => .ok p
  | .ub => .ub

/-- Store with a setter. -/
def put (b : Build) (v : Vars) (s : CApi.PointSet) : Outcome (Option Vars) := do
  let p ← call b v.point s
  pure (some { v with point := p })

/-- `sscanf(l, "%d", &temp_i)` and what is done with the number. -/
def withInt (sc : Scan) (l : List Char) (f : Int → Outcome (Option Vars)) : Outcome (Option Vars) := do
  match ← sc.d l with
  | some i => f i
  | none => pure none

/-- `sscanf(l, "%f", &temp_f)` and what is done with `(int)temp_f`. -/
def withFloat (sc : Scan) (l : List Char) (f : Int → Outcome (Option Vars)) : Outcome (Option Vars) :=
  match sc.f l with
  | some x => do let i ← Fl.toInt32 x; f i.toInt
  | none => .ok none

/-- The letters that stand for a column. -/
def known (c : Char) : Bool := "xyzsianrcupedtRGB".toList.contains c

/-- apps/txt2las.c:110-338: what a letter does with the text `l` at the start of its column; nothing: the scan fails. Integers
are converted to the types of the setters' parameters. -/
def store (sc : Scan) (b : Build) (c : Char) (l : List Char) (v : Vars) : Outcome (Option Vars) :=
  match c with
  | 'x' => .ok ((sc.lf l).map fun a => { v with x := a })
  | 'y' => .ok ((sc.lf l).map fun a => { v with y := a })
  | 'z' => .ok ((sc.lf l).map fun a => { v with z := a })
  | 's' => .ok (some v)
  | 'i' => withFloat sc l fun i => put b v (.intensity (BitVec.ofInt 16 i))
  | 'a' => withFloat sc l fun i => put b v (.scanAngleRank (BitVec.ofInt 8 i))
  | 'n' => withInt sc l fun i => put b v (.numberOfReturns (BitVec.ofInt 16 i))
  | 'r' => withInt sc l fun i => put b v (.returnNumber (BitVec.ofInt 16 i))
  | 'c' => withInt sc l fun i => put b v (.classification (BitVec.ofInt 8 i))
  | 'u' => withInt sc l fun i => put b v (.userData (BitVec.ofInt 8 i))
  | 'p' => withInt sc l fun i => put b v (.pointSourceId (BitVec.ofInt 16 i))
  | 'e' => withInt sc l fun i => put b v (.flightLineEdge (if i ≠ 0 then 1 else 0))
  | 'd' => withInt sc l fun i => put b v (.scanDirection (if i ≠ 0 then 1 else 0))
  | 't' => .ok ((sc.lf l).map fun a => { v with t := a })
  | 'R' => withInt sc l fun i => .ok (some { v with color := v.color.setRed (BitVec.ofInt 16 i) })
  | 'G' => withInt sc l fun i => .ok (some { v with color := v.color.setGreen (BitVec.ofInt 16 i) })
  | 'B' => withInt sc l fun i => .ok (some { v with color := v.color.setBlue (BitVec.ofInt 16 i) })
  | _ => .ok (some v)

/-- apps/txt2las.c:108-344: the loop over the letters, and `LASPoint_SetColor` after it. The result is the answer and the
variables; a failed scan assigns nothing. An unknown letter takes no column. -/
def letters (sc : Scan) (b : Build) : List Char → List Char → Vars → Outcome (Bool × Vars)
  | [], _, v => do
    let p ← call b v.point (.color v.color)
    pure (true, { v with point := p })
  | c :: cs, l, v =>
    if known c then
      let l := l.dropWhile isSep
      if l = [] then .ok (false, v)
      else do
        match ← store sc b c l v with
        | some v => letters sc b cs (l.dropWhile fun c => !isSep c) v
        | none => pure (false, v)
    else letters sc b cs l v

/-- apps/txt2las.c:99-347 `parse` of a line into a point. -/
def parse (sc : Scan) (b : Build) (ps line : List Char) (p : Point) (v : Vars) : Outcome (Bool × Vars) :=
  letters sc b ps line { v with point := p, color := ⟨0, 0, 0⟩ }

/-- The calls of `fgets(line, 512, file)`: up to 511 characters, or up to and with a line end. As a C string, a line ends at a
NUL. `room` is what is left of the buffer, `cur` what is in it. -/
def linesFrom (room : Nat) (cur : List Char) : List Char → List (List Char)
  | [] => if cur = [] then [] else [cur]
  | c :: t => if c = '\n' ∨ room ≤ 1 then (cur ++ [c]) :: linesFrom 511 [] t else linesFrom (room - 1) (cur ++ [c]) t

/-- The lines of a file. -/
def lines (text : List Char) : List (List Char) := (linesFrom 511 [] text).map fun l => l.takeWhile (· != '\x00')

/-- apps/txt2las.c:571-589: the letters of the first pass. Letters that are not looked at become `s`, and those at the end are cut
off; when all are cut off the loop reads before the string. -/
def parseLess (ps : List Char) : Outcome (List Char) :=
  let l := ps.map fun c => if c = 'x' ∨ c = 'y' ∨ c = 'z' ∨ c = 'r' then c else 's'
  let l := (l.reverse.dropWhile (· == 's')).reverse
  if l = [] then .ub else .ok l

/-- What the first pass finds out. -/
structure Seen where
  started : Bool
  vars : Vars
  count : BitVec 32
  min : Vec3 Fl
  max : Vec3 Fl
  byReturn : List (BitVec 32)

/-- apps/txt2las.c:85-90 `VecUpdateMinMax3dv`, one axis. -/
def minMax (mn mx v : Fl) : Fl × Fl := if Fl.lt v mn then (v, mx) else if Fl.lt mx v then (mn, v) else (mn, mx)

/-- The point of `LASPoint_Create` (src/c_api.cpp:546-548). -/
def blank : Point := Point.new (Header.new 0 0).toP

/-- apps/txt2las.c:600-662: the two loops of the first pass; `started`: a line has parsed. -/
def firstPass (sc : Scan) (b : Build) (ps : List Char) : List (List Char) → Seen → Outcome Seen
  | [], s => .ok s
  | line :: rest, s => do
    let (ok, v) ← parse sc b ps line blank s.vars
    if ok then do
      let r ← Point.getReturnNumber v.point
      let hist := s.byReturn.set r.toNat (s.byReturn.getD r.toNat 0 + 1)
      if s.started then
        let x := minMax s.min.x s.max.x v.x
        let y := minMax s.min.y s.max.y v.y
        let z := minMax s.min.z s.max.z v.z
        firstPass sc b ps rest ⟨true, v, s.count + 1, ⟨x.1, y.1, z.1⟩, ⟨x.2, y.2, z.2⟩, hist⟩
      else firstPass sc b ps rest ⟨true, v, 1, ⟨v.x, v.y, v.z⟩, ⟨v.x, v.y, v.z⟩, hist⟩
    else firstPass sc b ps rest { s with vars := v }

/-- The options: letters, scale and offset as bit patterns, minor version, identifiers, date. -/
structure Opts where
  parse : List Char
  scale : Vec3 (BitVec 64)
  offset : Vec3 (BitVec 64)
  minor : BitVec 8
  systemId : Option (List Byte)
  softwareId : Option (List Byte)
  doy : BitVec 16
  year : BitVec 16

/-- apps/txt2las.c:693-704: an extreme coordinate quantized and back. -/
def quantized (v scale offset : Fl) : Outcome Fl := do
  let q ← Fl.toInt32 (Fl.add (.fin (1 / 2)) (Fl.div (Fl.sub v offset) scale))
  pure (Fl.add offset (Fl.mul (Fl.ofInt32 q) scale))

/-- apps/txt2las.c:489-507: an identifier is copied into 31 bytes. -/
def copied : Option (List Byte) → Outcome (Option (List Byte))
  | none => .ok none
  | some t => if (cstr t).length < 31 then .ok (some (cstr t)) else .ub

/-- apps/txt2las.c:747-767: point format and minor version by the letters. -/
def formatFor (ps : List Char) (h : Header) : Header :=
  let rgb := ps.contains 'R' || ps.contains 'G' || ps.contains 'B'
  if ps.contains 't' && rgb then (((h.setDataFormatId .f3).1).setVersionMinor 2).1
  else if rgb then (((h.setDataFormatId .f2).1).setVersionMinor 2).1
  else if ps.contains 't' then (h.setDataFormatId .f1).1
  else (h.setDataFormatId .f0).1

/-- apps/txt2las.c:731-734: a new header with the identifiers of the options. -/
def named (today : BitVec 16 × BitVec 16) (sys soft : Option (List Byte)) : Header :=
  let h := Header.new today.1 today.2
  let h := match sys with
    | some t => (h.setSystemId t).1
    | none => h
  match soft with
  | some t => (h.setSoftwareId t).1
  | none => h

/-- apps/txt2las.c:735-745: date and minor version. -/
def dated (o : Opts) (h : Header) : Header :=
  ({ h with doy := o.doy, year := o.year }.setVersionMinor o.minor).1

/-- apps/txt2las.c:693-778: the header. Codes returned by the C functions are not looked at. -/
def makeHeader (today : BitVec 16 × BitVec 16) (o : Opts) (s : Seen) : Outcome Header := do
  let q := fun (m : Vec3 Fl) => do
    let x ← quantized m.x (Fl.ofBits o.scale.x) (Fl.ofBits o.offset.x)
    let y ← quantized m.y (Fl.ofBits o.scale.y) (Fl.ofBits o.offset.y)
    let z ← quantized m.z (Fl.ofBits o.scale.z) (Fl.ofBits o.offset.z)
    pure (⟨x.toBits, y.toBits, z.toBits⟩ : Vec3 (BitVec 64))
  let mn ← q s.min
  let mx ← q s.max
  let sys ← copied o.systemId
  let soft ← copied o.softwareId
  let h := formatFor o.parse (dated o (named today sys soft))
  let h := { h with pointCount := s.count, scale := o.scale, offset := o.offset, min := mn, max := mx }
  let h := (h.setByReturn 0 (s.byReturn.getD 1 0)).1
  let h := (h.setByReturn 1 (s.byReturn.getD 2 0)).1
  let h := (h.setByReturn 2 (s.byReturn.getD 3 0)).1
  let h := (h.setByReturn 3 (s.byReturn.getD 4 0)).1
  pure (h.setByReturn 4 (s.byReturn.getD 5 0)).1

/-- apps/txt2las.c:815-907: the second pass: the records written. -/
def secondPass (sc : Scan) (b : Build) (ps : List Char) (h : PHeader) : List (List Char) → Vars → Outcome (List (List Byte))
  | [], _ => .ok []
  | line :: rest, v => do
    let p ← Point.setHeader b blank h
    let (ok, v) ← parse sc b ps line p v
    if ok then do
      let p ← call b v.point (.x v.x)
      let p ← call b p (.y v.y)
      let p ← call b p (.z v.z)
      let p ← call b p (.time v.t.toBits)
      let ds ← secondPass sc b ps h rest v
      pure (p.data :: ds)
    else secondPass sc b ps h rest v

/-- apps/txt2las.c:350-920 `main`: the file written. `junk` is what the variables hold at the start. The records are
collected here and written afterwards; the C program writes each at once. When no line can be parsed the program ends
with `exit(1)`; in the second pass that is tested by a count that the first pass has left behind. -/
def main (env : Env) (today : BitVec 16 × BitVec 16) (sc : Scan) (b : Build) (junk : Vars) (o : Opts) (text : List Char) :
    Outcome (List Byte) := do
  let less ← parseLess o.parse
  let ls := lines text
  let s ← firstPass sc b less ls ⟨false, junk, 0, ⟨.fin 0, .fin 0, .fin 0⟩, ⟨.fin 0, .fin 0, .fin 0⟩, List.replicate 8 0⟩
  if s.started = false then .throw .runtimeError
  else do
    let h ← makeHeader today o s
    let w ← Writer.make env (OStream.onFile []) h
    let ds ← secondPass sc b o.parse h.toP ls s.vars
    if ds = [] ∧ s.count ≠ 1 then .throw .runtimeError
    else do
      let w ← w.writePoints ds
      pure w.close.buf

end LibLAS.Txt2las
