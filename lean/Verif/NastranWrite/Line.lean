import Verif.Nastran.Lines
import Verif.Num
import Mathlib.Data.Int.Log
import Mathlib.Data.Rat.Floor

/-! # Writing cards: `Nastran/NastranWriter.cpp` 32-152, `Nastran/NastranWriter.h` 27-45

A text is the list of its lines, as for the reader. -/
namespace Vega
namespace NastranWrite

abbrev Text := Nastran.Line

/-- `to_string` of a non-negative integer, also `ostream << int`. -/
def showNat (n : Nat) : Text :=
  if n < 10 then [Char.ofNat (48 + n)] else showNat (n / 10) ++ [Char.ofNat (48 + n % 10)]
termination_by n
decreasing_by omega

/-- `out << internal << setw(w)` of a string, of length at most `w` or not: anything but `left` fills before the
text. -/
def fillBefore (w : Nat) (s : Text) : Text := List.replicate (w - s.length) ' ' ++ s

/-- `out << left << setw(w)` of a string. -/
def fillAfter (w : Nat) (s : Text) : Text := s ++ List.replicate (w - s.length) ' '

/-- `out << internal << setw(w)` of an `int` (NastranWriter.cpp 109-114): the blanks come after the sign. -/
def fillInt (w : Nat) (n : Int) : Text :=
  if n < 0 then
    '-' :: (List.replicate (w - (1 + (showNat n.natAbs).length)) ' ' ++ showNat n.natAbs)
  else fillBefore w (showNat n.natAbs)

/-- Rounding of the exact value to the nearest integer, ties to even, as `printf` does. -/
def roundEven (x : Dbl) : Int :=
  if x - ⌊x⌋ < 1 / 2 then ⌊x⌋
  else if 1 / 2 < x - ⌊x⌋ then ⌊x⌋ + 1
  else if ⌊x⌋ % 2 = 0 then ⌊x⌋ else ⌊x⌋ + 1

/-- The mantissa times 10^11 and the exponent of `%.11e` for a positive value: when the mantissa rounds to ten,
the exponent is one more. -/
def scientific (x : Dbl) : Int × Int :=
  let e := Int.log 10 x
  let m := roundEven (x / 10 ^ e * 10 ^ 11)
  if m = 10 ^ 12 then (10 ^ 11, e + 1) else (m, e)

/-- The last `n` digits of a number. -/
def lastDigits : Nat → Nat → Text
  | 0, _ => []
  | n + 1, v => lastDigits n (v / 10) ++ [Char.ofNat (48 + v % 10)]

/-- `%1.nf` of the number `v / 10^n`, without its sign. -/
def fixed (n v : Nat) : Text := showNat (v / 10 ^ n) ++ '.' :: lastDigits n v

/-- `boost::trim_if(.., is_any_of("0"))`. -/
def trimZeros (l : Text) : Text :=
  ((l.dropWhile (· = '0')).reverse.dropWhile (· = '0')).reverse

/-- The text `gnum` of a value that is not zero (NastranWriter.cpp 71-84). `mant` is read back from the text with
eleven decimals; it is taken to be exactly the number written. The exponent loses its sign, which is decided by
`abs(value) < 1`. `trim_if` is applied to the text with the sign of the mantissa, which hides leading zeros. -/
def realText (x : Dbl) : Text :=
  let s := scientific |x|
  let exp2 := showNat s.2.natAbs
  let sign := if |x| < 1 then '-' else '+'
  let leftover := 5 - exp2.length - if x < 0 then 1 else 0
  let v := (roundEven ((s.1 : Dbl) / 10 ^ 11 * 10 ^ leftover)).toNat
  let svalue3 := if x < 0 then trimZeros ('-' :: fixed leftover v) else trimZeros (fixed leftover v)
  svalue3 ++ sign :: exp2

/-- What the members `add` take (NastranWriter.cpp 61-152). -/
inductive Arg where
  | blank
  | real (x : Dbl)
  | text (s : Text)
  | int (n : Int)

/-- The text `gnum` of `Line::add(double)`; `%8s` fills texts that are too short on the left. -/
def gnum (x : Dbl) : Text := if isZero x then ['0', '.'] else fillBefore 8 (realText x)

/-- The field that `Line::add` appends (NastranWriter.cpp 61-114). `none`: the text of a real does not fit, and
`%4.2e` is used; see `field_spec`, which shows that this does not happen. -/
def field (w : Nat) : Arg → Option Text
  | .blank => some (fillBefore w [])
  | .real x => if (gnum x).length ≤ w then some (fillBefore w (gnum x)) else none
  | .text s => some (fillBefore w s)
  | .int n => some (fillInt w n)

/-- `Line::fieldLength` (NastranWriter.cpp 52-60). -/
def fieldLength (keyword : Text) : Nat := if keyword.getLast? = some '*' then 16 else 8

/-- `Line::fieldNum` (NastranWriter.cpp 52-60). -/
def fieldNum (keyword : Text) : Nat := if keyword.getLast? = some '*' then 5 else 9

/-- `newlinesep` for the new value of `Line::newlineCounter` (an `int` of the class: its overflow is not
represented). -/
def separator (counter : Nat) : Text := '+' :: showNat counter

/-- The loop of `operator<<` (NastranWriter.cpp 37-47) from the field count, the counter and the line written so
far: the lines, and the counter at the end. -/
def emitLoop (len num : Nat) : List Text → Nat → Nat → Text → List Text × Nat
  | [], _, counter, cur => ([cur], counter)
  | f :: fs, count, counter, cur =>
    if (count + 1) % num = 0 then
      let r := emitLoop len num fs (count + 2) (counter + 1) (fillAfter len (separator (counter + 1)) ++ f)
      ((cur ++ separator (counter + 1)) :: r.1, r.2)
    else emitLoop len num fs (count + 1) counter (cur ++ f)

/-- `operator<<` (NastranWriter.cpp 34-49). -/
def emit (counter : Nat) (keyword : Text) (fields : List Text) : List Text × Nat :=
  emitLoop (fieldLength keyword) (fieldNum keyword) fields 0 counter (fillAfter 8 keyword)

/-- The fields of a `Line` after its `add`s. -/
def fieldsOf (w : Nat) : List Arg → Option (List Text)
  | [] => some []
  | a :: as => do
    let f ← field w a
    let fs ← fieldsOf w as
    some (f :: fs)

/-- `out << Line(keyword).add(..)...`. -/
def writeCard (counter : Nat) (keyword : Text) (args : List Arg) : Option (List Text × Nat) := do
  let fs ← fieldsOf (fieldLength keyword) args
  some (emit counter keyword fs)

end NastranWrite
end Vega
