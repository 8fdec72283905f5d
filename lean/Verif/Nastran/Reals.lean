import Verif.Nastran.Fields
import Verif.Num

/-! # Reading reals: `Nastran/NastranTokenizer.cpp` 250-257, 492-529 -/
namespace Vega
namespace Nastran

/-- Value of a sequence of digits. -/
def natOf (l : Line) : Nat := l.foldl (fun a c => 10 * a + (c.toNat - 48)) 0

/-- The exponent of a number, after its letter: an optional sign, then at least one digit. -/
def exponent? (l : Line) : Option Int :=
  let r := match l with
    | '-' :: t => (true, t)
    | '+' :: t => (false, t)
    | _ => (false, l)
  if r.2.isEmpty || !r.2.all Char.isDigit then none
  else some (if r.1 then -(natOf r.2 : Int) else natOf r.2)

/-- Sign of a number and what follows. -/
def signed (l : Line) : Bool × Line :=
  match l with
  | '-' :: t => (true, t)
  | '+' :: t => (false, t)
  | _ => (false, l)

/-- The digits after the point, if there is one, and what follows. -/
def fraction (l : Line) : Line × Line :=
  match l with
  | '.' :: t => (t.takeWhile Char.isDigit, t.dropWhile Char.isDigit)
  | _ => ([], l)

/-- `lexical_cast<double>`: the whole text must be a number in standard notation. Numbers out of the range of
`double`, `inf` and `nan` are not represented, nor is rounding. -/
def lexicalDouble (l : Line) : Option Dbl :=
  let s := signed l
  let ip := s.2.takeWhile Char.isDigit
  let f := fraction (s.2.dropWhile Char.isDigit)
  if ip.isEmpty && f.1.isEmpty then none
  else
    let m : Dbl := (natOf (ip ++ f.1) : Dbl) / 10 ^ f.1.length
    let m := if s.1 then -m else m
    match f.2 with
    | [] => some m
    | c :: t => if c = 'e' || c = 'E' then (exponent? t).map fun e => m * 10 ^ e else none

/-- `nextDouble` (NastranTokenizer.cpp 501-529). -/
def nextDouble (dflt : Option Dbl) (c : Cursor) : Outcome (Dbl × Cursor) :=
  let r := nextSymbolString c
  let value := trim r.1
  if value.isEmpty then
    match dflt with
    | some d => .ok (d, r.2)
    | none => .throw
  else match lexicalDouble (normReal value) with
    | some x => .ok (x, r.2)
    | none => .throw

/-- Characters of a real (NastranTokenizer.cpp 256). -/
def realChar (c : Char) : Bool :=
  c.isDigit || c = '-' || c = '+' || c = '.' || c = 'e' || c = 'E' || c = 'd' || c = 'D'

/-- `isNextDouble` (NastranTokenizer.cpp 250-257). -/
def isNextDouble (c : Cursor) : Outcome Bool :=
  if c.sym ≠ .field then .ok false
  else do
    let f ← fieldAt c 0
    .ok (!(f.filter (· ≠ ' ')).isEmpty && (f.filter (· ≠ ' ')).all realChar)

end Nastran
end Vega
