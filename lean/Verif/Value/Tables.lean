import Verif.Basic
import Verif.Num

/-! # Tables: `TABLED1`, `TABLES1` and `TABDMP1` (`Nastran/NastranParser.cpp` 3591-3775), their names
(`Abstract/Model.h` 546-583) and `DEFI_FONCTION` (`Aster/AsterWriter.cpp` 886-923, `Aster/AsterModel.cpp` 35-57) -/
namespace Vega
namespace Table

/-! ## Reading -/

/-- The words that the commands compare with; `other` is any other text that is not a number. -/
inductive Word where
  | skip | endt | linear | log | crit | g | q | other
deriving DecidableEq

/-- A field of the card, as `isNextEmpty`, `isNextInt`, `isNextDouble`, `nextInt`, `nextDouble` and `nextString` see it
(NastranTokenizer.cpp 224-270, 402-529). `num true` is a number without point or exponent, `bad` has the characters of a real
but does not denote one. How the texts denote numbers is the subject of C26. -/
inductive Field where
  | blank
  | num (int : Bool) (x : Dbl)
  | bad
  | word (w : Word)
deriving DecidableEq

/-- The loop of `parseTABLED1` (NastranParser.cpp 3691-3723), of `parseTABLES1` (3742-3774) and of `parseTABDMP1` (3610-3639):
the three differ only in the warnings. A missing or empty field where a text is read is an error (`nextString`, 402-414), which
ends the command. -/
def readPairs : List Field → Outcome (List (Dbl × Dbl))
  | [] => .throw
  | .blank :: _ => .throw
  | .bad :: _ => .throw
  | [.word .skip] => .throw
  | .word .skip :: _ :: r => readPairs r
  | .word _ :: _ => .ok []
  | [.num _ _] => .throw
  | .num _ x :: .num _ y :: r => (readPairs r).bind fun l => .ok ((x, y) :: l)
  | .num _ _ :: .bad :: _ => .throw
  | .num _ _ :: .blank :: _ => .throw
  | .num _ _ :: .word .skip :: r => readPairs r
  | .num _ _ :: .word _ :: _ => .ok []

/-- `Function::Interpolation` (Value.h 282-287). -/
inductive Interp where
  | linear | logarithmic | constant | none
deriving DecidableEq

/-- `Function::ParaName` (Value.h 272-281). -/
inductive Para where
  | freq | stress | strain | inst | amor | parax | absc
deriving DecidableEq

/-- The names of the two axes; `none` is `NO_PARA_NAME`. -/
structure Names where
  x : Option Para
  y : Option Para
deriving DecidableEq

/-- `FunctionTable` (Value.h 341-361). -/
structure FunctionTable where
  parameter : Interp
  value : Interp
  left : Interp
  right : Interp
  names : Names
  points : List (Dbl × Dbl)
deriving DecidableEq

/-- `nextString(true, "LINEAR")` compared with `"LINEAR"` (NastranParser.cpp 3663-3668). -/
def axis : List Field → Interp × List Field
  | [] => (.linear, [])
  | .blank :: r => (.linear, r)
  | .word .linear :: r => (.linear, r)
  | _ :: r => (.logarithmic, r)

/-- `skipToNotEmpty` (NastranTokenizer.cpp 431-434). -/
def skipBlanks (fs : List Field) : List Field := fs.dropWhile fun f => f == .blank

/-- The field `FLAT` of Optistruct (NastranParser.cpp 3671-3673); the value -1 stands for a missing field. -/
def flat : List Field → Option Dbl × List Field
  | .num true x :: r => (if x = -1 then Option.none else some x, r)
  | fs => (Option.none, fs)

/-- The value of `right` (NastranParser.cpp 3680-3684). -/
def rightOf : Option Dbl → Interp
  | Option.none => .linear
  | some x => if x ≠ 0 then .constant else .none

/-- `parseTABLED1` (NastranParser.cpp 3661-3728), from the field after the number. -/
def parseTABLED1 (fs : List Field) : Outcome FunctionTable :=
  let a := axis fs
  let b := axis a.2
  let f := flat b.2
  (readPairs (skipBlanks f.2)).bind fun l => .ok ⟨a.1, b.1, .linear, rightOf f.1, ⟨Option.none, Option.none⟩, l⟩

/-- `parseTABLES1` (NastranParser.cpp 3730-3780), from the field after the number. -/
def parseTABLES1 (fs : List Field) : Outcome FunctionTable :=
  (readPairs (fs.drop 7)).bind fun l => .ok ⟨.linear, .linear, .linear, .linear, ⟨some .strain, some .stress⟩, l⟩

/-- `ModalDamping::DampingType` (Objective.h). -/
inductive Damping where
  | crit | g | q
deriving DecidableEq

/-- The type of damping: `nextString(true, "G")` (NastranParser.cpp 3594, 3643-3652). -/
def dampingType : List Field → Option Damping × List Field
  | [] => (some .g, [])
  | .blank :: r => (some .g, r)
  | .word .g :: r => (some .g, r)
  | .word .crit :: r => (some .crit, r)
  | .word .q :: r => (some .q, r)
  | _ :: r => (Option.none, r)

/-- The integer that Optistruct allows is dismissed (NastranParser.cpp 3602-3605). -/
def dropInt : List Field → List Field
  | .num true _ :: r => r
  | fs => fs

/-- The empty fields (NastranParser.cpp 3598-3607). -/
def dampingBlanks : List Field → List Field
  | .blank :: r => skipBlanks (dropInt r)
  | fs => fs

/-- `parseTABDMP1` (NastranParser.cpp 3591-3659), from the field after the number. -/
def parseTABDMP1 (fs : List Field) : Outcome (Damping × FunctionTable) :=
  let t := dampingType fs
  (readPairs (dampingBlanks t.2)).bind fun l =>
    match t.1 with
    | Option.none => .throw
    | some d => .ok (d, ⟨.linear, .linear, .none, .constant, ⟨some .freq, some .amor⟩, l⟩)

/-! ## Names of the axes -/

/-- What is added to the container of the model under one number: a table, or the place holder that a load adds for the table it
refers to. -/
inductive Add where
  | table (t : FunctionTable)
  | use (n : Names)

/-- What the container holds under that number. -/
inductive Slot where
  | empty
  | holder (n : Names)
  | table (t : FunctionTable)

/-- `setParaX` and `setParaY` if the other one has a name (Model.h 556-559, 564-567). -/
def Names.override (old new : Names) : Names := ⟨new.x.or old.x, new.y.or old.y⟩

/-- `Container<NamedValue>::add` (Model.h 549-583). -/
def Slot.add : Slot → Add → Outcome Slot
  | .empty, .use n => .ok (.holder n)
  | .empty, .table t => .ok (.table t)
  | .holder o, .use n => .ok (.holder (o.override n))
  | .table t, .use n => .ok (.table { t with names := t.names.override n })
  | .holder o, .table t => .ok (.table { t with names := t.names.override o })
  | .table _, .table _ => .throw

def Slot.run : Slot → List Add → Outcome Slot
  | s, [] => .ok s
  | s, a :: as => (s.add a).bind fun s' => s'.run as

/-! ## Writing -/

/-- `INTERPOL` (AsterModel.cpp 45-50). -/
inductive AsterInterp where
  | lin | log | empty | non
deriving DecidableEq

def interpol : Interp → AsterInterp
  | .linear => .lin
  | .logarithmic => .log
  | .constant => .empty
  | .none => .non

/-- `PROL_GAUCHE` and `PROL_DROITE` (AsterModel.cpp 52-57). -/
inductive Prol where
  | lineaire | empty | constant | exclu
deriving DecidableEq

def prolongement : Interp → Prol
  | .linear => .lineaire
  | .logarithmic => .empty
  | .constant => .constant
  | .none => .exclu

/-- The names that Code_Aster knows (AsterModel.cpp 35-43). `INST` is missing in the map: the iterator at its end is read. -/
inductive AsterName where
  | freq | amor | sigm | epsi | x | absc
deriving DecidableEq

def nomPara : Para → Outcome AsterName
  | .freq => .ok .freq
  | .amor => .ok .amor
  | .stress => .ok .sigm
  | .strain => .ok .epsi
  | .parax => .ok .x
  | .absc => .ok .absc
  | .inst => .ub

/-- The keyword of a name, if there is a name (AsterWriter.cpp 892-900). -/
def nomOpt : Option Para → Outcome (Option AsterName)
  | Option.none => .ok Option.none
  | some p => (nomPara p).bind fun n => .ok (some n)

/-- `DEFI_FONCTION`. -/
structure DefiFonction where
  nomPara : Option AsterName
  nomResu : Option AsterName
  vale : List (Dbl × Dbl)
  interpolX : AsterInterp
  interpolY : AsterInterp
  prolGauche : Prol
  prolDroite : Prol
deriving DecidableEq

/-- `writeValue` of a table (AsterWriter.cpp 886-923). -/
def write (t : FunctionTable) : Outcome DefiFonction :=
  (nomOpt t.names.x).bind fun nx => (nomOpt t.names.y).bind fun ny =>
    .ok ⟨nx, ny, t.points, interpol t.parameter, interpol t.value, prolongement t.left, prolongement t.right⟩

end Table
end Vega
