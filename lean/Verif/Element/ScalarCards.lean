import Verif.Element.Discrete
import Verif.Map

/-! # Scalar springs and dampers: the cards CELAS1, CELAS2, CELAS4, CDAMP1 (`Nastran/NastranParser_geometry.cpp` 290-422),
PELAS and PDAMP (`Nastran/NastranParser.cpp` 2621-2648, 2692-2729)

A card is given by its fields, `none` where a field is blank. -/
namespace Vega
namespace ScalarCards

/-- A `ScalarSpring` (Element.h 661-702): stiffness, damping, and the cells with the two degrees of freedom each of them
connects, in the order of `addSpring` (Element.cpp 1285-1287). -/
structure Spring where
  k : Dbl
  b : Dbl
  cells : List (Int × Dof × Dof)

/-- What the cards change. `sets` are the scalar springs by their original id; `before` and `after` the original ids of
the other element sets, whose types come before and after that of springs (Element.h 44-68); `cells` the id and the two
nodes of every cell; `nextNode` the next automatic node id; `fixed` the nodes of the constraints that were made (all
degrees of freedom, zero), which are in the model; `inSets` those of them that were put into a constraint set. -/
structure State where
  sets : Map Int Spring
  before : List Int
  after : List Int
  cells : List (Int × Int × Int)
  nextNode : Int
  fixed : List Int
  inSets : List Int

/-- What `elementSets.find(original_id)` finds. -/
inductive Found where
  | nothing
  | other
  | spring (s : Spring)

/-- `find(int)` (Model.h 617-627): the last type that has the id. -/
def State.find (st : State) (id : Int) : Found :=
  if id ∈ st.after then .other
  else match st.sets.find id with
    | some s => .spring s
    | none => if id ∈ st.before then .other else .nothing

/-- `model.add` of a new set of springs (Model.h 582-592): an id that is in use is refused. -/
def State.add (st : State) (id : Int) (s : Spring) : Outcome State :=
  match st.sets.find id with
  | some _ => .throw
  | none => .ok { st with sets := st.sets.set id s }

/-- `parseDOF` (NastranParser.cpp 3810-3825); `required` when there is no default. A number out of range brings a warning
only; it is cast to `unsigned char` (Dof.h 22). The default is 255 (NastranParser.h 886), so that 254 is returned. -/
def parseDOF (required : Bool) : Option Int → Outcome Nat
  | none => if required then .throw else .ok 254
  | some n =>
    if n = 0 then .ok 0
    else if n = -2147483648 then .ub
    else .ok ((n - 1) % 256).toNat

/-- The second node of the cell: a new one when the field is blank or 0 (NastranParser_geometry.cpp 301-309, 344-352). -/
def secondNode (st : State) : Option Int → Int
  | none => st.nextNode
  | some n => if n = 0 then st.nextNode else n

/-- CELAS1 and CDAMP1 once the fields are read (NastranParser_geometry.cpp 299-329, 341-371, the same). -/
def connect (st : State) (eid pid g1 : Int) (c1 : Nat) (g2 : Option Int) (c2 : Nat) : Outcome State :=
  let ground := g2 = none ∨ g2 = some 0
  let c2 := if ground then c1 else c2
  let node := secondNode st g2
  let st := if ground then { st with nextNode := st.nextNode + 1, fixed := st.fixed ++ [st.nextNode] } else st
  let st := { st with cells := st.cells ++ [(eid, g1, node)] }
  match st.find pid with
  | .nothing => do
    let d1 ← Dof.findByPosition c1
    let d2 ← Dof.findByPosition c2
    st.add pid ⟨0, 0, [(eid, d1, d2)]⟩
  | .spring s => do
    let d1 ← Dof.findByPosition c1
    let d2 ← Dof.findByPosition c2
    .ok { st with sets := st.sets.set pid { s with cells := s.cells ++ [(eid, d1, d2)] } }
  | .other => .throw

/-- `parseCELAS1` (NastranParser_geometry.cpp 332-372). -/
def celas1 (st : State) (eid pid g1 : Int) (c1 g2 c2 : Option Int) : Outcome State := do
  let c1 ← parseDOF true c1
  let c2 ← parseDOF false c2
  connect st eid pid g1 c1 g2 c2

/-- `parseCDAMP1` (NastranParser_geometry.cpp 290-330): the second node may not be blank. -/
def cdamp1 (st : State) (eid pid g1 : Int) (c1 g2 c2 : Option Int) : Outcome State := do
  let c1 ← parseDOF true c1
  match g2 with
  | none => .throw
  | some g2 =>
    let c2 ← parseDOF false c2
    connect st eid pid g1 c1 (some g2) c2

/-- `parseCELAS2` (NastranParser_geometry.cpp 374-402): the second node and both components are required; the set is
numbered as the element. -/
def celas2 (st : State) (eid : Int) (k : Dbl) (g1 : Int) (c1 g2 c2 : Option Int) (ge : Dbl) : Outcome State := do
  let c1 ← parseDOF true c1
  match g2 with
  | none => .throw
  | some g2 =>
    let c2 ← parseDOF true c2
    let st := { st with cells := st.cells ++ [(eid, g1, g2)] }
    let d1 ← Dof.findByPosition c1
    let d2 ← Dof.findByPosition c2
    st.add eid ⟨k, ge, [(eid, d1, d2)]⟩

/-- `parseCELAS4` (NastranParser_geometry.cpp 404-422). -/
def celas4 (st : State) (eid : Int) (k : Dbl) (s1 s2 : Int) : Outcome State :=
  { st with cells := st.cells ++ [(eid, s1, s2)] }.add eid ⟨k, 0, [(eid, .DX, .DX)]⟩

/-- One property of `parsePELAS` (NastranParser.cpp 2698-2727). -/
def pelas (st : State) (pid : Int) (k ge : Dbl) : Outcome State :=
  match st.find pid with
  | .nothing => st.add pid ⟨k, ge, []⟩
  | .spring s => .ok { st with sets := st.sets.set pid { s with k := k, b := ge } }
  | .other => .throw

/-- One property of `parsePDAMP` (NastranParser.cpp 2627-2646). -/
def pdamp (st : State) (pid : Int) (b : Dbl) : Outcome State :=
  match st.find pid with
  | .nothing => st.add pid ⟨unavailable, b, []⟩
  | .spring s => .ok { st with sets := st.sets.set pid { s with b := b } }
  | .other => .throw

/-- The cards; a card PELAS or PDAMP with several properties counts as several. -/
inductive Card where
  | celas1 (eid pid g1 : Int) (c1 g2 c2 : Option Int)
  | cdamp1 (eid pid g1 : Int) (c1 g2 c2 : Option Int)
  | celas2 (eid : Int) (k : Dbl) (g1 : Int) (c1 g2 c2 : Option Int) (ge : Dbl)
  | celas4 (eid : Int) (k : Dbl) (s1 s2 : Int)
  | pelas (pid : Int) (k ge : Dbl)
  | pdamp (pid : Int) (b : Dbl)

/-- One card. -/
def step (st : State) : Card → Outcome State
  | .celas1 eid pid g1 c1 g2 c2 => ScalarCards.celas1 st eid pid g1 c1 g2 c2
  | .cdamp1 eid pid g1 c1 g2 c2 => ScalarCards.cdamp1 st eid pid g1 c1 g2 c2
  | .celas2 eid k g1 c1 g2 c2 ge => ScalarCards.celas2 st eid k g1 c1 g2 c2 ge
  | .celas4 eid k s1 s2 => ScalarCards.celas4 st eid k s1 s2
  | .pelas pid k ge => ScalarCards.pelas st pid k ge
  | .pdamp pid b => ScalarCards.pdamp st pid b

/-- The cards of a file, one after the other; an error ends the reading (strict mode). -/
def run (st : State) (l : List Card) : Outcome State := l.foldlM step st

/-- The springs as they are written for Code_Aster and Systus: `getStiffness` and `getDamping` (Element.cpp 1241-1247) are
the two values, whatever `hasStiffness` says. -/
def Spring.written (s : Spring) : ScalarSpring :=
  ⟨fun q => match q with | .stiffness => s.k | .damping => s.b | .mass => 0, s.cells.map fun c => c.2⟩

end ScalarCards
end Vega
