import Verif.Systus.Cells
import Verif.Results.F06
import Mathlib.Data.List.Dedup

/-! # The data file of Systus: `Systus/SystusWriter.cpp` 237-262, 417-569, 2721-2980, 3027-3064 -/
namespace Vega
namespace SystusData
open Systus

/-- `ElementSet::Type` (Element.h 44-68), with what the writer asks of the element sets: whether a beam is a truss, the
analysis of a linear relation, the pairs of degrees of freedom of a spring, and `hasRotations`. -/
inductive Kind where
  | discrete0 | discrete1 | mass
  | circular (truss : Bool) | rectangular (truss : Bool) | iSection (truss : Bool) | generic (truss : Bool) | tube (truss : Bool)
  | segment (rotations : Bool)
  | shell | continuum | skin | composite
  | stiffness | massMatrix | damping
  | rigidset | rbar | rbe3
  | lmpc (analysis : Int) (rotations : Bool)
  | spring (dofs : List (Nat × Nat)) (rotations : Bool)
  | slide | unknown
  deriving DecidableEq

/-- An element set: its number, type, cells (`cellPositions`) and groups of cells. -/
structure ESet where
  id : Nat
  kind : Kind
  cells : List Nat
  groups : List Nat

/-- What is written of a cell. -/
structure Cell where
  id : Int
  type : CellType
  nodes : List Int

/-! ## Elements -/

/-- Whether the cells of a set are written: the sets for which the `switch` does not `continue` (SystusWriter.cpp 2792-2798,
2813-2824). `analyses`: those of the file. -/
def Kind.written (analyses : List Int) : Kind → Bool
  | .mass | .discrete0 | .discrete1 => false
  | .lmpc a _ => analyses.contains a
  | _ => true

/-- `dim` and `typecell` (SystusWriter.cpp 2737-2831), a dimension of `none` being found from the number of nodes
(2858-2860). `dofsSpring[0]` (2766) does not exist for a spring without directions. -/
def Kind.code : Kind → Outcome (Option Nat × Nat)
  | .circular _ | .generic _ | .iSection _ | .rectangular _ => .ok (some 1, 0)
  | .segment _ => .ok (none, 6)
  | .spring [] _ => .ub
  | .spring (p :: _) _ => .ok (some 1, if p.1 = p.2 then 6 else 9)
  | .skin => .ok (some 2, 0)
  | .shell => .ok (some 2, 4)
  | .slide | .continuum => .ok (some 3, 0)
  | .stiffness | .massMatrix | .damping => .ok (some 3, 9)
  | .rbar | .rbe3 => .ok (some 1, 9)
  | .lmpc _ _ => .ok (some 1, 9)
  | _ => .ok (some 3, 0)

/-- The beginning of the line of an element: dimension and type (SystusWriter.cpp 2862), then what `ElementLine` holds. -/
structure Line where
  dim : Nat
  type : Nat
  element : ElementLine
  deriving DecidableEq

/-- The dimension (SystusWriter.cpp 2858-2860). -/
def dimension (d : Option Nat) (n : Nat) : Nat :=
  match d with
  | some d => d
  | none => if n = 2 then 1 else 0

/-- The line of a cell, if it is written (SystusWriter.cpp 2839-2889). -/
def cellLine (code : Option Nat × Nat) (c : Cell) : Outcome (Option Line) := do
  let e ← elementLine c.id c.type c.nodes
  .ok (e.map fun e => ⟨dimension code.1 c.nodes.length, code.2, e⟩)

/-- The loop over the cells of a set (SystusWriter.cpp 2839-2890). `findCell` of a position that does not exist is not
described further than by `ub`. -/
def cellLines (mesh : List Cell) (code : Option Nat × Nat) : List Nat → Outcome (List Line)
  | [] => .ok []
  | p :: ps =>
    match mesh[p]? with
    | none => .ub
    | some c => do
      let l ← cellLine code c
      let r ← cellLines mesh code ps
      .ok (l.toList ++ r)

/-- The loop over the sets (SystusWriter.cpp 2724-2891). -/
def elementLines (mesh : List Cell) (analyses : List Int) : List ESet → Outcome (List Line)
  | [] => .ok []
  | s :: r =>
    if s.kind.written analyses then do
      let code ← s.kind.code
      let l ← cellLines mesh code s.cells
      let t ← elementLines mesh analyses r
      .ok (l ++ t)
    else elementLines mesh analyses r

/-- `countCells` (Mesh.cpp 667-669): the number of entries by number. -/
def countCells (mesh : List Cell) : Nat := (mesh.map (·.id)).dedup.length

/-- `writeElements` (SystusWriter.cpp 2721-2894): the number announced, and the lines. -/
def writeElements (mesh : List Cell) (analyses : List Int) (sets : List ESet) : Outcome (Nat × List Line) := do
  let l ← elementLines mesh analyses sets
  .ok (countCells mesh, l)

/-! ## Groups -/

/-- `isUseful` of a group after `writeElements` (SystusWriter.cpp 2730-2735, 2834-2838): true if the last set that has the
group is written, false if there is none (MeshComponents.cpp 238) or if it is not written. (What an earlier file left is
overwritten for the groups of sets and always false for others.) -/
def useful (analyses : List Int) (sets : List ESet) (g : Nat) : Bool :=
  match (sets.filter (·.groups.contains g)).getLast? with
  | some s => s.kind.written analyses
  | none => false

/-- The text after the last underscore (`rfind` and `substr`, SystusWriter.cpp 244-247). -/
def suffix (name : List Char) : Option (List Char) :=
  if '_' ∈ name then some ((name.reverse.takeWhile (· ≠ '_')).reverse) else none

/-- The number found from the name (SystusWriter.cpp 244-252); `none`: one is taken from the counter. -/
def fromName (name : List Char) : Option Int := (suffix name).bind F06.stoi

/-- `while (usedPartId.find(partId) != usedPartId.end()) partId = auto_part_id--;` (SystusWriter.cpp 255-257). The state is the
counter. `fuel` bounds the number of rounds, `diverges` without it; `partId` never runs out of it (`C115_parts`). That the counter
would overflow after two milliard groups is left out. -/
def free (used : List Int) : Nat → Int → Int → Outcome (Int × Int)
  | 0, _, _ => .diverges
  | fuel + 1, p, counter => if p ∈ used then free used fuel counter (counter - 1) else .ok (p, counter)

/-- `getPartId` (SystusWriter.cpp 239-262): the number, and the counter afterwards. -/
def partId (name : List Char) (used : List Int) (counter : Int) : Outcome (Int × Int) :=
  match fromName name with
  | some n => free used (used.length + 2) n counter
  | none => free used (used.length + 2) counter (counter - 1)

/-- `replace(.., ' ', '_')` (SystusWriter.cpp 2917, 2932). -/
def underscores (name : List Char) : List Char := name.map fun c => if c = ' ' then '_' else c

/-- A group of the mesh: its name and the numbers of its cells or nodes. -/
structure Group where
  key : Nat
  name : List Char
  members : List Int

/-- A line of the section of groups (SystusWriter.cpp 2918-2923, 2933-2938); `part`: for groups of cells. -/
structure GroupLine where
  number : Nat
  name : List Char
  part : Option Int
  members : List Int
  deriving DecidableEq

/-- The loop over the groups of cells (SystusWriter.cpp 2910-2925). State: the number of groups, the used numbers of parts and
the counter. -/
def cellGroupLines (isUseful : Nat → Bool) : List Group → Nat → List Int → Int → Outcome (List GroupLine × Nat × Int)
  | [], n, _, counter => .ok ([], n, counter)
  | g :: r, n, used, counter =>
    if isUseful g.key = true ∧ g.members ≠ [] then do
      let p ← partId g.name used counter
      let t ← cellGroupLines isUseful r (n + 1) (p.1 :: used) p.2
      .ok (⟨n + 1, underscores g.name, some p.1, g.members⟩ :: t.1, t.2)
    else cellGroupLines isUseful r n used counter

/-- The loop over the groups of nodes (SystusWriter.cpp 2927-2939). -/
def nodeGroupLines : List Group → Nat → List GroupLine × Nat
  | [], n => ([], n)
  | g :: r, n =>
    if g.members = [] then nodeGroupLines r n
    else
      let t := nodeGroupLines r (n + 1)
      (⟨n + 1, underscores g.name, none, g.members⟩ :: t.1, t.2)

/-- `writeGroups` (SystusWriter.cpp 2897-2945): the number announced, the lines, and the counter. -/
def writeGroups (isUseful : Nat → Bool) (cellGroups nodeGroups : List Group) (counter : Int) : Outcome (Nat × List GroupLine × Int) := do
  let c ← cellGroupLines isUseful cellGroups 0 [] counter
  let n := nodeGroupLines nodeGroups c.2.1
  .ok (n.2, c.1 ++ n.1, c.2.2)

/-! ## Masses and materials -/

/-- `writeMasses` (SystusWriter.cpp 3027-3064): the number announced and the number of lines, for the masses of the model, each of
which is effective or not. The values: C92. -/
def writeMasses (effective : List Bool) : Nat × Nat := (effective.length, (effective.filter id).length)

/-- `removeIneffectives` on the element sets (Model.cpp 1057-1067). -/
def removeIneffectives (effective : List Bool) : List Bool := effective.filter id

/-- `writeMaterial` (SystusWriter.cpp 2948-2980) for materials given as their fields (key, text) without `ID`: what is announced,
and the lines. -/
def writeMaterial (materials : List (Nat × List (Nat × List Char))) : (Nat × Nat) × List (Nat × List (Nat × List Char)) :=
  ((materials.length, materials.foldl (fun n m => m.2.foldl (fun n _ => n + 1) n) 0), materials)

/-! ## The option -/

/-- `SystusOption` with `SystusSubOption` (SystusAsc.h 125-132). -/
inductive Option3 where
  | continuous | shell | shellMulti
  deriving DecidableEq

/-- Both flags after a set (SystusWriter.cpp 427-499): six degrees of freedom, three degrees of freedom. -/
def flags (k : Kind) (f : Bool × Bool) : Bool × Bool :=
  match k with
  | .circular t | .generic t | .iSection t | .rectangular t => (f.1 || !t, f.2)
  | .shell => (true, f.2)
  | .stiffness | .massMatrix | .damping => (true, f.2)
  | .lmpc _ r => (f.1 || r, f.2 || !r)
  | .spring _ r => (f.1 || r, f.2 || !r)
  | .skin | .continuum => (f.1, true)
  | _ => f

/-- The loop, that ends when both flags are set (SystusWriter.cpp 426-503). (After `continue` the flags are as before, and not both
set.) -/
def flagLoop : List Kind → Bool × Bool → Bool × Bool
  | [], f => f
  | k :: r, f =>
    let g := flags k f
    if g.1 && g.2 then g else flagLoop r g

/-- `getSystusAutomaticOption` (SystusWriter.cpp 417-513). -/
def automatic (ks : List Kind) : Option3 :=
  let f := flagLoop ks (false, false)
  if f.1 then (if f.2 then .shellMulti else .shell) else .continuous

/-- `nbDOFS` (SystusWriter.cpp 551-563). -/
def nbDOFS : Option3 → Nat
  | .continuous => 3
  | _ => 6

end SystusData
end Vega
