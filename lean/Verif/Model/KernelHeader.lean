import Verif.Model.Las2las
/-
apps/laskernel.cpp: the part of `GetTransforms` that changes the header of the output. The options on spatial references
(`a_srs`, `a_vertcs`, `add-wkt-srs`, `t_srs`) and colour sources need GDAL or libgeotiff and are not modelled.
-/
namespace LibLAS.Kernel

/-- A word of the command line, with what `atoi` and `atof` make of it. -/
structure Word where
  text : List Byte
  int : BitVec 32
  real : BitVec 64

/-- The header options given, already cut into words (apps/laskernel.cpp:381-404, with the tokenizers of :874-878 and
:933-935). `padHeader` is the result of `atoi`. -/
structure HeaderOpts where
  offset : Option (List Word) := none
  scale : Option (List (BitVec 64)) := none
  fileFormat : Option (List Word) := none
  pointFormat : Option (BitVec 32) := none
  padHeader : Option (BitVec 32) := none
  fileCreation : Option (List Word) := none
  addSchema : Bool := false
  deleteVlr : Option (List Word) := none
  addVlr : Option (List Word) := none
  software : Option (List Byte) := none
  system : Option (List Byte) := none

/-- apps/laskernel.cpp:868-895. The words `min` are skipped. -/
def editOffset (ws : Option (List Word)) (h : Header) : Outcome Header :=
  match ws with
  | none => .ok h
  | some ws =>
    match ws.filter fun w => decide (w.text ≠ lit "min") with
    | [a, b, c] => .ok { h with offset := ⟨a.real, b.real, c.real⟩ }
    | _ => .throw .runtimeError

/-- apps/laskernel.cpp:898-925. -/
def editScale (xs : Option (List (BitVec 64))) (h : Header) : Outcome Header :=
  match xs with
  | none => .ok h
  | some [a, b, c] => .ok { h with scale := ⟨a, b, c⟩ }
  | some _ => .throw .runtimeError

/-- apps/laskernel.cpp:927-955. The first number is not looked at; `minor > 2` is a signed comparison, the setter gets the low
eight bits. -/
def editVersion (ws : Option (List Word)) (h : Header) : Outcome Header :=
  match ws with
  | none => .ok h
  | some (_ :: m :: _) =>
    if 2 < m.int.toInt then .throw .runtimeError else HeaderReader.set (h.setVersionMinor (m.int.setWidth 8))
  | some _ => .throw .runtimeError

/-- apps/laskernel.cpp:957-969. -/
def editFormat (f : Option (BitVec 32)) (h : Header) : Outcome Header :=
  match f with
  | none => .ok h
  | some f =>
    if 3 < f.toNat then .throw .runtimeError
    else
      let f := if f = 0 then PointFormat.f0 else if f = 1 then .f1 else if f = 2 then .f2 else .f3
      HeaderReader.set (h.setDataFormatId f)

/-- apps/laskernel.cpp:970-984. -/
def editPad (n : Option (BitVec 32)) (h : Header) : Outcome Header :=
  match n with
  | none => .ok h
  | some n => if n = 0 then .throw .runtimeError else .ok { h with dataOffset := n }

/-- apps/laskernel.cpp:986-1045. -/
def editCreation (today : BitVec 16 × BitVec 16) (ws : Option (List Word)) (h : Header) : Outcome Header :=
  match ws with
  | none => .ok h
  | some [d, y] =>
    if d.int.toInt < 0 ∨ 366 < d.int.toInt then .throw .runtimeError
    else if y.int.toInt < 0 then .throw .runtimeError
    else .ok { h with
      doy := d.int.setWidth 16
      year := y.int.setWidth 16 }
  | some ws =>
    if ws.map Word.text = [lit "now"] then .ok { h with
      doy := today.1
      year := today.2 }
    else .ok { h with
      doy := 0
      year := 0 }

/-- apps/laskernel.cpp:1047-1051. -/
def editSchema (env : Env) (b : Bool) (h : Header) : Outcome Header :=
  if b then do
    let v ← h.schema.getVLR env
    pure (h.addVLR v)
  else .ok h

/-- apps/laskernel.cpp:1079-1089, :1116-1125: the id of a record. -/
def recordIdOf (w : Word) : Outcome (BitVec 16) :=
  if w.int.toInt < 0 then .throw .runtimeError
  else if 65535 < w.int.toInt then .throw .runtimeError
  else .ok (w.int.setWidth 16)

/-- The loop of apps/laskernel.cpp:1077-1090. -/
def deletePairs : List Word → Header → Outcome Header
  | n :: i :: ws, h => do
    let id ← recordIdOf i
    deletePairs ws (h.deleteVLRs n.text id)
  | _, h => .ok h

/-- apps/laskernel.cpp:1053-1091. -/
def editDelete (ws : Option (List Word)) (h : Header) : Outcome Header :=
  match ws with
  | none => .ok h
  | some ws => if ws.length % 2 ≠ 0 then .throw .runtimeError else deletePairs ws h

/-- apps/laskernel.cpp:1143-1157 with :65-88 `TryReadRawFileData`: the content of the file of that name, or the text itself if there
is no such file. `data.front()` on an empty vector is undefined. -/
def recordData (files : List Byte → Option (List Byte)) (t : List Byte) : Outcome (List Byte) :=
  match files t with
  | none => .ok t
  | some [] => .ub
  | some d => .ok d

/-- A setter of a local record that throws ends the function. -/
def changed (x : VLR × Outcome Unit) : Outcome VLR :=
  match x with
  | (v, .ok ()) => .ok v
  | (_, .throw e) => .throw e
  | (_, .ub) => .ub

/-- apps/laskernel.cpp:1114-1176: the record, from its name, id, description (if given) and data. -/
def buildRecord (files : List Byte → Option (List Byte)) (name : List Byte) (id : Word) (description : Option (List Byte))
    (data : List Byte) : Outcome VLR := do
  let v ← changed (VLR.new.setUserId name)
  let i ← recordIdOf id
  let v := { v with recordId := i }
  let v ← match description with
    | none => .ok v
    | some d => changed (v.setDescription d)
  let d ← recordData files data
  if 65535 < d.length then .throw .runtimeError
  else pure { v with
    data := d
    recordSize := BitVec.ofNat 16 d.length }

/-- apps/laskernel.cpp:1093-1177. -/
def editAdd (files : List Byte → Option (List Byte)) (ws : Option (List Word)) (h : Header) : Outcome Header :=
  match ws with
  | none => .ok h
  | some [n, i, d] => do
    let v ← buildRecord files n.text i none d.text
    pure (h.addVLR v)
  | some [n, i, t, d] => do
    let v ← buildRecord files n.text i (some t.text) d.text
    pure (h.addVLR v)
  | some _ => .throw .runtimeError

/-- apps/laskernel.cpp:1179-1188. -/
def editSoftware (t : Option (List Byte)) (h : Header) : Outcome Header :=
  match t with
  | none => .ok h
  | some t => HeaderReader.set (h.setSoftwareId t)

/-- apps/laskernel.cpp:1190-1203. -/
def editSystem (t : Option (List Byte)) (h : Header) : Outcome Header :=
  match t with
  | none => .ok h
  | some t => HeaderReader.set (h.setSystemId t)

/-- apps/laskernel.cpp:864-1203, in the order of the code. -/
def editHeader (env : Env) (today : BitVec 16 × BitVec 16) (files : List Byte → Option (List Byte)) (o : HeaderOpts)
    (h : Header) : Outcome Header := do
  let h ← editOffset o.offset h
  let h ← editScale o.scale h
  let h ← editVersion o.fileFormat h
  let h ← editFormat o.pointFormat h
  let h ← editPad o.padHeader h
  let h ← editCreation today o.fileCreation h
  let h ← editSchema env o.addSchema h
  let h ← editDelete o.deleteVlr h
  let h ← editAdd files o.addVlr h
  let h ← editSoftware o.software h
  editSystem o.system h

end LibLAS.Kernel
