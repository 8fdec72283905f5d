import Verif.Basic
import Verif.Dof.Model

/-! # The orientation of the skins in contact: `AsterWriter::writeLireMaillage` (`Aster/AsterWriter.cpp` 693-748) -/
namespace Vega
namespace Skins

/-- A surface of a body: what `writeCellContainer` writes for it, and the positions of the nodes of its cells
(`getNodePositionsIncludingGroups`, MeshComponents.cpp 826-832). That the bodies and their surfaces are found is the subject of
`Verif.Constraint.Contacts`. -/
structure Surface where
  cells : List Int
  nodes : List Nat
  deriving DecidableEq

/-- `ZoneContact` (Constraint.cpp 859-861), with the surfaces of its two bodies. -/
structure Zone where
  master : Surface
  slave : Surface
  deriving DecidableEq

/-- `SurfaceSlide` (Constraint.cpp 919-921): the names of the groups of cells of its two surfaces. -/
structure Slide where
  master : List Char
  slave : List Char
  deriving DecidableEq

/-- A set of constraints: its zones of contact and its sliding surfaces, in the order of `getConstraintsByType` (Constraint.cpp 87-96). -/
structure Constraints where
  zones : List Zone
  slides : List Slide
  deriving DecidableEq

/-- The keywords of MODI_MAILLAGE: skins of plane domains and of solids. -/
inductive Keyword where
  | skin2D | skin3D
  deriving DecidableEq

/-- What an occurrence of the keyword names: the cells of a surface, or two groups. -/
inductive Named where
  | cells (l : List Int)
  | groups (a b : List Char)
  deriving DecidableEq

/-- A command MODI_MAILLAGE. -/
structure Command where
  keyword : Keyword
  occurrences : List Named
  deriving DecidableEq

/-- `nodePositions` (Constraint.cpp 864-887), and its first element; the set is sorted. -/
def firstNode (z : Zone) : Option Nat := (z.master.nodes ++ z.slave.nodes).min?

/-- The keyword for the zones of a set (AsterWriter.cpp 704-709): the first node of the first zone decides. The first element of
an empty set is not defined. -/
def keyword (dofs : Nat → Dofs) : List Zone → Outcome Keyword
  | [] => .ub
  | z :: _ =>
    match firstNode z with
    | none => .ub
    | some p => .ok (if dofs p = Dofs.ALL_DOFS then .skin2D else .skin3D)

/-- The occurrences for the zones (AsterWriter.cpp 710-723). -/
def zoneOccurrences : List Zone → List Named
  | [] => []
  | z :: zs => .cells z.master.cells :: .cells z.slave.cells :: zoneOccurrences zs

/-- The occurrences for the sliding surfaces (AsterWriter.cpp 737-747). -/
def slideOccurrences : List Slide → List Named
  | [] => []
  | s :: ss => .groups s.master s.slave :: slideOccurrences ss

/-- The loop over the sets of constraints for the zones (AsterWriter.cpp 693-726). -/
def zoneCommands (dofs : Nat → Dofs) : List Constraints → Outcome (List Command)
  | [] => .ok []
  | c :: cs =>
    if c.zones.isEmpty then zoneCommands dofs cs
    else do
      let k ← keyword dofs c.zones
      let rest ← zoneCommands dofs cs
      .ok (⟨k, zoneOccurrences c.zones⟩ :: rest)

/-- The loop over the sets of constraints for the sliding surfaces (AsterWriter.cpp 728-750). -/
def slideCommands : List Constraints → List Command
  | [] => []
  | c :: cs => if c.slides.isEmpty then slideCommands cs else ⟨.skin3D, slideOccurrences c.slides⟩ :: slideCommands cs

/-- The commands MODI_MAILLAGE after the mesh is read (AsterWriter.cpp 693-750). -/
def commands (dofs : Nat → Dofs) (cs : List Constraints) : Outcome (List Command) := do
  let a ← zoneCommands dofs cs
  .ok (a ++ slideCommands cs)

end Skins
end Vega
