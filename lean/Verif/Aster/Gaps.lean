import Verif.Map
import Verif.Dof.Model
import Verif.Num
import Verif.Med.Families
import Verif.NastranWrite.Loads

/-! # Gaps between nodes, from the cards CGAP and PGAP (`Nastran/NastranParser_geometry.cpp` 460-483,
`Nastran/NastranParser.cpp` 2728-2766) to the contact of Code_Aster (`Aster/AsterWriter.cpp` 1532-1632) -/
namespace Vega
namespace Aster
open Med
open NastranWrite (V3)

/-- `GapTwoNodes` (Constraint.h 236-263): the opening, and the node that gives the direction by constrained node, as
positions. -/
structure Gap where
  opening : Dbl
  nodes : Map Nat Nat

/-- The gaps of the model by the number of their property: all of them are in the common set of constraints. -/
abbrev Gaps := Map Int Gap

/-- The cards on gaps with the fields used: `pid`, `ga`, `gb` of CGAP and `pid`, `u0` of PGAP. -/
inductive GapCard where
  | cgap (pid : Int) (ga gb : Nat)
  | pgap (pid : Int) (u0 : Dbl)

/-- `parseCGAP` once the fields are read and the positions found (NastranParser_geometry.cpp 472-482), and `parsePGAP`
(NastranParser.cpp 2755-2765). -/
def addGapCard (g : Gaps) : GapCard → Gaps
  | .cgap pid ga gb =>
    match g.find pid with
    | none => g.set pid ⟨0, Map.set [] ga gb⟩
    | some x => g.set pid { x with nodes := x.nodes.set ga gb }
  | .pgap pid u0 =>
    match g.find pid with
    | none => g.set pid ⟨u0, []⟩
    | some x => g.set pid { x with opening := u0 }

/-- The gaps after some cards. -/
def readGaps (cards : List GapCard) : Gaps := cards.foldl addGapCard []

/-- `getGaps` (Constraint.cpp 616-629): the constrained nodes with the normalized direction, which is given. -/
def getGaps (dir : Nat → Nat → V3) (g : Gap) : List (Nat × V3) := g.nodes.map fun ab => (ab.1, dir ab.1 ab.2)

/-- The name of a constant of the set `s` (AsterWriter.cpp 1553-1569). -/
def constName (s : Nat) (tag : Text) (k : Nat) : Text := 'C' :: decimal s ++ (tag ++ decimal k)

/-- The constants of a gap with number `k` (AsterWriter.cpp 1552-1570), in the order of the assignments. -/
def gapConsts (s : Nat) (opening : Dbl) (k : Nat) (v : V3) : List (Text × Dbl) :=
  [(constName s ['I'] k, opening)] ++
  (if !isZero v.x then [(constName s ['M', 'X'] k, v.x)] else []) ++
  (if !isZero v.y then [(constName s ['M', 'Y'] k, v.y)] else []) ++
  (if !isZero v.y then [(constName s ['M', 'Z'] k, v.z)] else [])

/-- The loop over the gaps of a constraint (AsterWriter.cpp 1550-1571) from the value of `gapCount`. -/
def constsFrom (s : Nat) (opening : Dbl) : Nat → List (Nat × V3) → List (Text × Dbl)
  | _, [] => []
  | k, p :: ps => gapConsts s opening (k + 1) p.2 ++ constsFrom s opening (k + 1) ps

/-- An occurrence of `ZONE` (AsterWriter.cpp 1593-1629). -/
structure Zone where
  noeud : Text
  coefImpo : Text
  coefMult : List Text
  nomCmp : List String

/-- The zone of a gap with number `k` (AsterWriter.cpp 1592-1630). -/
def gapZone (s : Nat) (k : Nat) (p : Nat × V3) : Zone where
  noeud := medName 'N' p.1
  coefImpo := constName s ['I'] k
  coefMult :=
    (if !isZero p.2.x then [constName s ['M', 'X'] k] else []) ++
    (if !isZero p.2.y then [constName s ['M', 'Y'] k] else []) ++
    (if !isZero p.2.z then [constName s ['M', 'Z'] k] else [])
  nomCmp :=
    (if !isZero p.2.x then ["DX"] else []) ++
    (if !isZero p.2.y then ["DY"] else []) ++
    (if !isZero p.2.z then ["DZ"] else [])

/-- The second loop (AsterWriter.cpp 1590-1631) from the value of `gapCount`. -/
def zonesFrom (s : Nat) : Nat → List (Nat × V3) → List Zone
  | _, [] => []
  | k, p :: ps => gapZone s (k + 1) p :: zonesFrom s (k + 1) ps

/-- The definitions of constants and the zones of the contact of a set (AsterWriter.cpp 1548-1632). Contacts other than
gaps are left out. -/
def writeGaps (dir : Nat → Nat → V3) (s : Nat) (gaps : Gaps) : List (Text × Dbl) × List Zone :=
  (gaps.flatMap fun g => constsFrom s g.2.opening 0 (getGaps dir g.2),
   gaps.flatMap fun g => zonesFrom s 0 (getGaps dir g.2))

end Aster
end Vega
