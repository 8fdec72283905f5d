import Verif.Basic

/-! # Degrees of freedom: `Abstract/Dof.h`, `Abstract/Dof.cpp` -/
namespace Vega

/-- The six `DOF` constants (Dof.cpp 43-48). `DOF` has no public constructor. -/
inductive Dof where
  | DX | DY | DZ | RX | RY | RZ
  deriving DecidableEq, Repr

namespace Dof

/-- `DOF::code` (Dof.h 28-34). `dof_int` and `char` are 8 bits wide. -/
def code : Dof → BitVec 8
  | DX => 1 | DY => 2 | DZ => 4 | RX => 8 | RY => 16 | RZ => 32

/-- `DOF::position` (Dof.cpp 43-48). -/
def position : Dof → Nat
  | DX => 0 | DY => 1 | DZ => 2 | RX => 3 | RY => 4 | RZ => 5

/-- `DOF::isTranslation` (Dof.cpp 43-48). -/
def isTranslation : Dof → Bool
  | DX | DY | DZ => true
  | _ => false

/-- `DOF::isRotation` (Dof.cpp 43-48). -/
def isRotation : Dof → Bool
  | RX | RY | RZ => true
  | _ => false

/-- `DOF::findByPosition` (Dof.cpp 50-59). The `dofByPosition` map is filled by
the six constants. -/
def findByPosition : Nat → Outcome Dof
  | 0 => .ok DX | 1 => .ok DY | 2 => .ok DZ | 3 => .ok RX | 4 => .ok RY | 5 => .ok RZ
  | _ => .throw

/-- `DOF::operator<` (Dof.cpp 31-33): comparison of the codes. -/
def lt (a b : Dof) : Bool := a.code.ult b.code

/-- Right view of the bimap `DOF_BY_NASTRANCODE` (Dof.cpp 72-79). -/
def nastranDigit : Dof → Int
  | DX => 1 | DY => 2 | DZ => 3 | RX => 4 | RY => 5 | RZ => 6

/-- Left view of the bimap `DOF_BY_NASTRANCODE` (Dof.cpp 72-79). -/
def ofNastranDigit (d : Int) : Option Dof :=
  if d = 1 then some DX else if d = 2 then some DY else if d = 3 then some DZ
  else if d = 4 then some RX else if d = 5 then some RY else if d = 6 then some RZ else none

end Dof

/-- `DOFS`: one byte (Dof.h 75). The constructor `DOFS(char)` accepts any byte. -/
structure Dofs where
  dofsCode : BitVec 8
  deriving DecidableEq, Repr

namespace Dofs

/-- `DOFS(const DOF)` (Dof.cpp 90-92). -/
def ofDof (d : Dof) : Dofs := ⟨d.code⟩

/-- `DOFS::NO_DOFS` (Dof.cpp 81). -/
def NO_DOFS : Dofs := ⟨0⟩

/-- `operator+=(DOF)` (Dof.cpp 144-147) and `operator+(DOFS, DOF)` (201-203). -/
def addDof (s : Dofs) (d : Dof) : Dofs := ⟨s.dofsCode ||| d.code⟩

/-- `operator-(DOFS, DOF)` (Dof.cpp 205-207). The complement is taken on `int`
and truncated by the cast, which is the complement of the byte. -/
def subDof (s : Dofs) (d : Dof) : Dofs := ⟨s.dofsCode &&& ~~~ d.code⟩

/-- `operator+(DOFS, DOFS)` (Dof.cpp 209-211), `operator+=(DOFS)` (154-157). -/
def union (s t : Dofs) : Dofs := ⟨s.dofsCode ||| t.dofsCode⟩

/-- `operator-(DOFS, DOFS)` (Dof.cpp 212-214). -/
def diff (s t : Dofs) : Dofs := ⟨s.dofsCode &&& ~~~ t.dofsCode⟩

/-- `operator&` (Dof.cpp 216-218) and `DOFS::intersection` (124-126). -/
def inter (s t : Dofs) : Dofs := ⟨s.dofsCode &&& t.dofsCode⟩

/-- `DOFS::combineCodes` (Dof.cpp 220-241), used by the six-bool constructor (108-110). -/
def combineCodes (dx dy dz rx ry rz : Bool) : Dofs :=
  let c := NO_DOFS
  let c := if dx then c.addDof .DX else c
  let c := if dy then c.addDof .DY else c
  let c := if dz then c.addDof .DZ else c
  let c := if rx then c.addDof .RX else c
  let c := if ry then c.addDof .RY else c
  let c := if rz then c.addDof .RZ else c
  c

/-- `DOFS::TRANSLATIONS` (Dof.cpp 82). -/
def TRANSLATIONS : Dofs := ⟨Dof.DX.code ||| Dof.DY.code ||| Dof.DZ.code⟩
/-- `DOFS::ROTATIONS` (Dof.cpp 83). -/
def ROTATIONS : Dofs := ⟨Dof.RX.code ||| Dof.RY.code ||| Dof.RZ.code⟩
/-- `DOFS::ALL_DOFS` (Dof.cpp 84). -/
def ALL_DOFS : Dofs := TRANSLATIONS.union ROTATIONS

/-- `DOFS::containsAll` (Dof.cpp 112-114). -/
def containsAll (s t : Dofs) : Bool := (t.dofsCode ||| s.dofsCode) == s.dofsCode

/-- `DOFS::containsAnyOf` (Dof.cpp 116-118). -/
def containsAnyOf (s t : Dofs) : Bool := (s.dofsCode &&& t.dofsCode) != 0

/-- `DOFS::contains` (Dof.cpp 120-122). -/
def contains (s : Dofs) (d : Dof) : Bool := (s.dofsCode &&& d.code) != 0

/-- `DOFS::empty` (Dof.h 108-110). -/
def empty (s : Dofs) : Bool := s.dofsCode == 0

/-- `DOFS::size` (Dof.cpp 159-167). -/
def size (s : Dofs) : Nat :=
  (if s.contains .DX then 1 else 0) + (if s.contains .DY then 1 else 0)
  + (if s.contains .DZ then 1 else 0) + (if s.contains .RX then 1 else 0)
  + (if s.contains .RY then 1 else 0) + (if s.contains .RZ then 1 else 0)

/-- `DOFS::iterator::next_available_dof` (Dof.cpp 253-259). `findByPosition` is only
called with a position below 6; its throw would end the `noexcept` function. -/
def nextAvailable (s : Dofs) (pos : Nat) : Nat :=
  if pos < 6 then
    match Dof.findByPosition pos with
    | .ok d => if s.contains d then pos else nextAvailable s (pos + 1)
    | _ => pos
  else pos
termination_by 6 - pos

theorem le_nextAvailable (s : Dofs) (pos : Nat) : pos ≤ s.nextAvailable pos := by
  fun_induction nextAvailable s pos <;> omega

/-- The elements visited from an iterator at `pos` until `end()` (Dof.h 115-147,
Dof.cpp 248-267): dereference, then `operator++`. -/
def iterFrom (s : Dofs) (pos : Nat) : List Dof :=
  if pos < 6 then
    match Dof.findByPosition pos with
    | .ok d => d :: iterFrom s (s.nextAvailable (pos + 1))
    | _ => []
  else []
termination_by 6 - pos
decreasing_by have := le_nextAvailable s (pos + 1); omega

/-- `for (DOF dof : dofs)`. -/
def toList (s : Dofs) : List Dof := s.iterFrom (s.nextAvailable 0)

/-- `DOFS::nastranCode` (Dof.cpp 169-176): the digits are concatenated as text and the
text is read as an `int`; appending a decimal digit is `10 * n + digit`. -/
def nastranCode (s : Dofs) : Int := s.toList.foldl (fun n d => 10 * n + d.nastranDigit) 0

/-- What happens on an unknown digit (Dof.cpp 191-193): the message is
`"Invalid Nastran code: " + nastranCode`, i.e. pointer arithmetic on a literal of 22
characters. For 0..22 a (shortened) message is built and thrown, otherwise the read is
out of bounds. -/
def rejectCode (nastranCode : Int) : Outcome Dofs :=
  if 0 ≤ nastranCode ∧ nastranCode ≤ 22 then .throw else .ub

/-- The loop of `DOFS::nastranCodeToDOFS` (Dof.cpp 187-197). `%` and `/` truncate
towards zero as in C++. -/
def nastranLoop (orig : Int) (number : Int) (dofs : Dofs) : Outcome Dofs :=
  if _h : number = 0 then .ok dofs
  else
    match Dof.ofNastranDigit (Int.tmod number 10) with
    | none => rejectCode orig
    | some d => nastranLoop orig (Int.tdiv number 10) (dofs.union (ofDof d))
termination_by number.natAbs
decreasing_by
  rw [Int.natAbs_tdiv]
  have : number.natAbs ≠ 0 := by omega
  exact Nat.div_lt_self (by omega) (by decide)

/-- `DOFS::nastranCodeToDOFS` (Dof.cpp 180-199). -/
def nastranCodeToDOFS (nastranCode : Int) : Outcome Dofs :=
  let number := if nastranCode = 0 then 1 else nastranCode
  nastranLoop nastranCode number NO_DOFS

end Dofs
end Vega
