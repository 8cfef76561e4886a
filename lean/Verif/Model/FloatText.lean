import Verif.Model.Float
/-
Doubles written as text and read back (the property trees of src/utility.cpp:686-735 and src/point.cpp:294-345, with
include/liblas/external/property_tree/stream_translator.hpp), and doubles as bit patterns.
-/
namespace LibLAS
namespace Fl

/-- Exponent of the 16th significant decimal digit. -/
def decExp (q : ℚ) : ℤ := Int.log 10 |q| - 15

/-- The nearest number with 16 significant decimal digits (ties to even). -/
def round16 (q : ℚ) : ℚ := rne (q / 10 ^ decExp q) * 10 ^ decExp q

/-- include/liblas/external/property_tree/stream_translator.hpp:94-107, :166-186: a number is printed with
`digits10 + 1 = 16` significant digits and parsed back. What does not parse back (infinities, NaN, a decimal beyond the
largest double) gives `ptree_bad_data`. `operator<<` and `operator>>` of `double` are taken to round correctly
(platform). -/
def viaText : Fl → Outcome Fl
  | fin q =>
    match ofRat (round16 q) with
    | fin r => .ok (fin r)
    | _ => .throw .runtimeError
  | _ => .throw .runtimeError

/-- The magnitude bits of a number in units of its last place. -/
def mant (q : ℚ) : Nat := ⌊|q| / 2 ^ ulpExp q⌋.toNat

/-- The biased exponent. -/
def biased (q : ℚ) : Nat := if mant q < 2 ^ 52 then 0 else (ulpExp q + 1075).toNat

/-- The bit pattern of a double (0 for either zero; one NaN). Platform. -/
def toBits : Fl → BitVec 64
  | nan => 0x7FF8000000000000#64
  | inf n => if n then 0xFFF0000000000000#64 else 0x7FF0000000000000#64
  | fin q => BitVec.ofNat 64 ((if q < 0 then 2 ^ 63 else 0) + biased q * 2 ^ 52 + mant q % 2 ^ 52)

end Fl
end LibLAS
