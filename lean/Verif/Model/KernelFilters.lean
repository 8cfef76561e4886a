import Verif.Model.Kernel
import Verif.Model.Filter
/-
apps/laskernel.cpp:254-862: the filters the command-line options of las2las and las2ogr stand for. The option texts
arrive parsed by boost::program_options; `--thin` (a filter with a state) is not part of this function, see
`Filters.Thin`. Verbose messages are left out.
-/
namespace LibLAS.Kernel

/-- `boost::lexical_cast` to the three value types of the continuous filters. -/
structure Lexical where
  u16 : List Char → Option (BitVec 16)
  i32 : List Char → Option (BitVec 32)
  dbl : List Char → Option Fl

/-- A constructed filter: `FilterI::filter`. -/
abbrev PFilter := Point → Outcome Bool

/-- The colour option, cut at `-` and then at `,` by `boost::tokenizer` (empty tokens are dropped), each token through
`atoi`. -/
abbrev ColorTokens := List (List Int)

/-- `po::variables_map`, the filtering options (apps/laskernel.cpp:331-362); `none` and `false`: not given. `extent` is
the option cut at `,`, `|` and blanks, each token through `atof`. -/
structure FilterOpts where
  keepClasses : Option (List (BitVec 32)) := none
  dropClasses : Option (List (BitVec 32)) := none
  keepReturns : Option (List (BitVec 16)) := none
  dropReturns : Option (List (BitVec 16)) := none
  minX : Option Fl := none
  maxX : Option Fl := none
  minY : Option Fl := none
  maxY : Option Fl := none
  minZ : Option Fl := none
  maxZ : Option Fl := none
  extent : Option (List Fl) := none
  keepIntensity : Option (List Char) := none
  dropIntensity : Option (List Char) := none
  keepScanAngle : Option (List Char) := none
  dropScanAngle : Option (List Char) := none
  keepTime : Option (List Char) := none
  dropTime : Option (List Char) := none
  keepColor : Option ColorTokens := none
  dropColor : Option ColorTokens := none
  firstOnly : Bool := false
  lastOnly : Bool := false
  validOnly : Bool := false

/-- apps/laskernel.cpp:413-424 and :440-451: the classifications listed; the constructor throws for a class over 31. -/
def klasses : List (BitVec 32) → Outcome (List Classification)
  | [] => .ok []
  | c :: cs => do
    let k ← Classification.make c false false false
    let ks ← klasses cs
    pure (k :: ks)

/-- apps/laskernel.cpp:411-461 with :274-281 `MakeClassFilter`. -/
def classFilters (ty : FilterType) : Option (List (BitVec 32)) → Outcome (List PFilter)
  | none => .ok []
  | some cs => do
    let ks ← klasses cs
    pure [Filters.classification ty ks]

/-- apps/laskernel.cpp:463-483 with :265-272 `MakeReturnFilter`. -/
def keepReturnFilters : Option (List (BitVec 16)) → Outcome (List PFilter)
  | none => .ok []
  | some rs => .ok [Filters.returns .inclusion false rs]

/-- apps/laskernel.cpp:485-504. `--drop-returns` reads the value of `--keep-returns`; when that is not given,
`vm["keep-returns"].as<...>()` throws `boost::bad_any_cast` (a `std::bad_cast`, shown as `domainError`). -/
def dropReturnFilters (drop keep : Option (List (BitVec 16))) : Outcome (List PFilter) :=
  match drop with
  | none => .ok []
  | some _ =>
    match keep with
    | none => .throw .domainError
    | some rs => .ok [Filters.returns .exclusion false rs]

/-- `if (vm.count(...)) (extent.min)(i, v)`. -/
def limit (set : Bounds → Fl → Bounds) (v : Option Fl) (e : Bounds) : Bounds :=
  match v with
  | none => e
  | some v => set e v

/-- apps/laskernel.cpp:506-558: the box made of the six limits, in the order of the code. -/
def limits (o : FilterOpts) : Bounds :=
  limit (·.setMax 2) o.maxZ <| limit (·.setMin 2) o.minZ <| limit (·.setMax 1) o.maxY <|
    limit (·.setMin 1) o.minY <| limit (·.setMax 0) o.maxX <| limit (·.setMin 0) o.minX ⟨[]⟩

/-- `bSetExtent` before the extent option, apps/laskernel.cpp:409, :506-558. -/
def limitGiven (o : FilterOpts) : Bool :=
  o.minX.isSome || o.maxX.isSome || o.minY.isSome || o.maxY.isSome || o.minZ.isSome || o.maxZ.isSome

/-- apps/laskernel.cpp:572-590. -/
def extentBox : List Fl → Outcome Bounds
  | [a, b, c, d] => .ok (Bounds.make2 a b c d)
  | [a, b, c, d, e, f] => .ok (Bounds.make3 a b c d e f)
  | _ => .throw .runtimeError

/-- apps/laskernel.cpp:560-630 with :283-290. -/
def extentFilters (b : Build) (o : FilterOpts) : Outcome (List PFilter) :=
  match o.extent with
  | none => .ok []
  | some l => do
    let box ← extentBox l
    let box ← if limitGiven o then box.growBounds (limits o) else .ok box
    pure [Filters.bounds b .inclusion box]

/-- apps/laskernel.cpp:254-263 `IsDualRangeFilter`. -/
def isDualRange (s : List Char) : Bool := s.contains '-'

/-- apps/laskernel.cpp:292-320 `MakeIntensityFilter`, `MakeTimeFilter`, `MakeScanAngleFilter`. -/
def valueFilter {T : Type} (cast : List Char → Option T) (o : Filters.Order T) (get : Point → Outcome T)
    (ty : FilterType) (s : List Char) : Outcome PFilter := do
  let f ← Filters.Continuous.ofText cast get s
  pure (f.filter o ty)

/-- apps/laskernel.cpp:631-652, :666-687, :702-723: the three keep-options by value. -/
def keepValue {T : Type} (cast : List Char → Option T) (o : Filters.Order T) (get : Point → Outcome T) :
    Option (List Char) → Outcome (List PFilter)
  | none => .ok []
  | some s =>
    if isDualRange s then do
      let f ← valueFilter cast o get .inclusion (['>', '='] ++ s.takeWhile (· ≠ '-'))
      let g ← valueFilter cast o get .inclusion (['<', '='] ++ (s.dropWhile (· ≠ '-')).drop 1)
      pure [f, g]
    else do
      let f ← valueFilter cast o get .inclusion s
      pure [f]

/-- apps/laskernel.cpp:653-665, :688-700, :724-736: the three drop-options by value. -/
def dropValue {T : Type} (cast : List Char → Option T) (o : Filters.Order T) (get : Point → Outcome T) :
    Option (List Char) → Outcome (List PFilter)
  | none => .ok []
  | some s =>
    if isDualRange s then .throw .runtimeError
    else do
      let f ← valueFilter cast o get .exclusion s
      pure [f]

/-- `int32_t`. -/
def i32Order : Filters.Order (BitVec 32) where
  le a b := decide (a.toInt ≤ b.toInt)
  lt a b := decide (a.toInt < b.toInt)
  eq a b := decide (a.toInt = b.toInt)

/-- `&Point::GetScanAngleRank` called through a `boost::function` returning `int32_t`. -/
def scanAngle (p : Point) : Outcome (BitVec 32) := do
  let a ← p.getScanAngleRank
  pure (a.signExtend 32)

/-- `&Point::GetTime`. -/
def gpsTime (b : Build) (p : Point) : Outcome Fl := do
  let t ← p.getTime b
  pure (Fl.ofBits t)

/-- apps/laskernel.cpp:751-767 (:786-802): the channels of one colour; `rgb[0]`, `rgb[1]`, `rgb[2]` are not checked. -/
def colorOf (vs : List Int) : Outcome Color :=
  if vs.any fun v => decide (v < 0 ∨ 65535 < v) then .throw .runtimeError
  else match vs with
    | r :: g :: bl :: _ => .ok ⟨BitVec.ofInt 16 r, BitVec.ofInt 16 g, BitVec.ofInt 16 bl⟩
    | _ => .ub

/-- The colours of one option. -/
def colorsOf : ColorTokens → Outcome (List Color)
  | [] => .ok []
  | t :: ts => do
    let c ← colorOf t
    let cs ← colorsOf ts
    pure (c :: cs)

/-- apps/laskernel.cpp:738-772 and :773-807; `colors[0]` and `colors[1]` are not checked. -/
def colorFilters (b : Build) (ty : FilterType) : Option ColorTokens → Outcome (List PFilter)
  | none => .ok []
  | some t => do
    let cs ← colorsOf t
    match cs with
    | lo :: hi :: _ => .ok [Filters.color b ty ⟨lo, hi⟩]
    | _ => .ub

/-- apps/laskernel.cpp:822-843. -/
def returnOnlyFilters (o : FilterOpts) : Outcome (List PFilter) :=
  if o.firstOnly ∧ o.lastOnly then .throw .runtimeError
  else .ok ((if o.lastOnly then [Filters.returns .inclusion true []] else []) ++
    (if o.firstOnly then [Filters.returns .inclusion false [1]] else []))

/-- apps/laskernel.cpp:405-862 `GetFilters`, in the order in which the filters are pushed. -/
def getFilters (b : Build) (lx : Lexical) (o : FilterOpts) : Outcome (List PFilter) := do
  let f1 ← classFilters .inclusion o.keepClasses
  let f2 ← classFilters .exclusion o.dropClasses
  let f3 ← keepReturnFilters o.keepReturns
  let f4 ← dropReturnFilters o.dropReturns o.keepReturns
  let f5 ← extentFilters b o
  let f6 ← keepValue lx.u16 Filters.u16Order (·.getIntensity b) o.keepIntensity
  let f7 ← dropValue lx.u16 Filters.u16Order (·.getIntensity b) o.dropIntensity
  let f8 ← keepValue lx.i32 i32Order scanAngle o.keepScanAngle
  let f9 ← dropValue lx.i32 i32Order scanAngle o.dropScanAngle
  let f10 ← keepValue lx.dbl Filters.flOrder (gpsTime b) o.keepTime
  let f11 ← dropValue lx.dbl Filters.flOrder (gpsTime b) o.dropTime
  let f12 ← colorFilters b .inclusion o.keepColor
  let f13 ← colorFilters b .exclusion o.dropColor
  let f14 ← returnOnlyFilters o
  let f15 := if o.validOnly then [Filters.validation .inclusion] else []
  let f16 := if limitGiven o && o.extent.isNone then [Filters.bounds b .inclusion (limits o)] else []
  pure (f1 ++ f2 ++ f3 ++ f4 ++ f5 ++ f6 ++ f7 ++ f8 ++ f9 ++ f10 ++ f11 ++ f12 ++ f13 ++ f14 ++ f15 ++ f16)

/-- What the reader does with such a filter (src/detail/reader/reader.cpp, `FilterPoint`): a record is accepted or not.
`src` is the header of the input. A filter that throws ends the program; the theorems show that none does. -/
def asReaderFilter (src : PHeader) (f : PFilter) (d : List Byte) : Bool := decide (f ⟨d, src⟩ = .ok true)

end LibLAS.Kernel
