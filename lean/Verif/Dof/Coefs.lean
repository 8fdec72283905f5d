import Verif.Dof.Lemmas
import Verif.Num

/-! # `DOFCoefs`: `Abstract/Dof.h` 196-215, `Abstract/Dof.cpp` 467-560 -/
namespace Vega

/-- `DOFCoefs`: an array of six doubles, indexed here by the degree of freedom whose
`position` is the index. -/
structure DofCoefs where
  coefs : Dof → Dbl

namespace DofCoefs

/-- Constructor from six values (Dof.cpp 467-474). -/
def ofValues (dx dy dz rx ry rz : Dbl) : DofCoefs :=
  ⟨fun d => match d with
    | .DX => dx | .DY => dy | .DZ => dz | .RX => rx | .RY => ry | .RZ => rz⟩

/-- Constructor from a set of dofs and a value (Dof.cpp 476-483). -/
def ofDofs (dofs : Dofs) (val : Dbl) : DofCoefs :=
  ⟨fun d => if dofs.contains d then val else unavailable⟩

/-- Constructor from one dof and a value (Dof.cpp 485-492). -/
def ofDof (dof : Dof) (val : Dbl) : DofCoefs :=
  ⟨fun d => if d = dof then val else unavailable⟩

/-- `DOFCoefs::getDOFS` (Dof.cpp 494-501). -/
def getDOFS (c : DofCoefs) : Dofs :=
  Dofs.ALL_DOFS.toList.foldl
    (fun s d => if isEqual (c.coefs d) unavailable = false then s.addDof d else s) Dofs.NO_DOFS

/-- `DOFCoefs::isEmpty` (Dof.cpp 503-509). -/
def isEmpty (c : DofCoefs) : Bool :=
  Dofs.ALL_DOFS.toList.all fun d => isEqual (c.coefs d) unavailable

/-- `DOFCoefs::getValue` (Dof.cpp 511-513). -/
def getValue (c : DofCoefs) (d : Dof) : Dbl := c.coefs d

/-- `DOFCoefs::setValue` (Dof.cpp 515-517). -/
def setValue (c : DofCoefs) (d : Dof) (v : Dbl) : DofCoefs :=
  ⟨fun e => if e = d then v else c.coefs e⟩

/-- `DOFCoefs::operator+=` (Dof.cpp 519-528). The six iterations are independent. -/
def add (c rv : DofCoefs) : DofCoefs :=
  ⟨fun d => if isEqual (c.coefs d) unavailable = false then c.coefs d + rv.coefs d
    else rv.coefs d⟩

/-- `DOFCoefs::operator*=` (Dof.cpp 530-537). -/
def scale (c : DofCoefs) (factor : Dbl) : DofCoefs :=
  ⟨fun d => if isEqual (c.coefs d) unavailable = false then c.coefs d * factor else c.coefs d⟩

/-- `DOFCoefs::operator[]` (Dof.cpp 539-543): index 6 is read past the end of the array. -/
def index (c : DofCoefs) (i : Nat) : Outcome Dbl :=
  if i > 6 then .ok 0
  else match Dof.findByPosition i with
    | .ok d => .ok (c.coefs d)
    | _ => .ub

/-- The loop of `operator<` (Dof.cpp 545-552). -/
def ltLoop (a b : DofCoefs) : List Dof → Bool
  | [] => false
  | d :: rest =>
    if isEqual (a.coefs d) (b.coefs d) then ltLoop a b rest
    else decide (a.coefs d < b.coefs d)

/-- `DOFCoefs::operator<` (Dof.cpp 545-552). -/
def lt (a b : DofCoefs) : Bool := ltLoop a b Dof.all

/-- `DOFCoefs::operator==` (Dof.cpp 554-560). -/
def eq (a b : DofCoefs) : Bool := Dof.all.all fun d => isEqual (a.coefs d) (b.coefs d)

end DofCoefs
end Vega
