import Verif.Mesh.Bars
import Verif.Optistruct.Cards
import Verif.Map

/-!
# Contacts entered on Nastran cards: `Nastran/NastranParser.cpp` 1014-1154

What the cards BCBODY, BLSEG, BSSEG, BSURF, BFRIC, BCTABLE, BCONP and BSCONP say, how the lines, the surfaces and the
bodies that they name are found again (`Abstract/Model.cpp` 371-380), and the zones of `DEFI_CONTACT` that come out of them
(`Aster/AsterWriter.cpp` 1532-1690). The elements named on BSURF are kept by number: that they are looked up when the card is
read is the subject of `Verif.Mesh.Named`.
-/
namespace Vega
namespace Contacts
open Nastran

/-- The values of `Target::Type` that these cards use (Target.h 46-53). -/
inductive Kind where
  | line | facets | surface | body
  deriving DecidableEq

/-- The subclasses of `Target` that these cards make (Target.cpp 67-85): a list of nodes, the elements of a surface, the
number of the surface of a body. -/
inductive Target where
  | line (nodes : List Int)
  | facets (nodes : List Int)
  | surface (cells : List Int)
  | body (boundary : Int)
  deriving DecidableEq

/-- `Target::type` (Target.cpp 67-85). -/
def Target.kind : Target → Kind
  | .line _ => .line
  | .facets _ => .facets
  | .surface _ => .surface
  | .body _ => .body

/-- `ZoneContact` (NastranParser.cpp 1086, 1106): numbers of bodies. -/
structure Zone where
  slave : Int
  master : Int
  deriving DecidableEq

/-- `SlideContact` (NastranParser.cpp 1132-1134): numbers of lines and of a friction. -/
structure Slide where
  id : Int
  slave : Int
  master : Int
  friction : Int
  deriving DecidableEq

/-- `SurfaceContact` (NastranParser.cpp 1148-1150): numbers of surfaces of nodes. -/
structure Facing where
  id : Int
  slave : Int
  master : Int
  deriving DecidableEq

/-- What a card adds to the model. -/
inductive Entry where
  | target (id : Int) (t : Target)
  | friction (id : Int) (x : Dbl)
  | slide (s : Slide)
  | facing (s : Facing)
  | zones (set : Int) (zs : List Zone)
  deriving DecidableEq

/-- The keywords (NastranParser.cpp 47-54); `parseBCGRID` is the command of none. -/
inductive Keyword where
  | bcbody | blseg | bsseg | bsurf | bfric | bctable | bconp | bsconp
  deriving DecidableEq

/-- The fields have all been read, or the card is refused (NastranParser.cpp 1023-1025, 1067-1069, 1111-1113, 1129-1131,
1145-1147). -/
def finished {α : Type} (x : α) (c : Cursor) : Outcome (α × Cursor) :=
  if isEmptyUntilNextKeyword c then .ok (x, c) else .throw

/-- `parseBCBODY` (NastranParser.cpp 1014-1029). -/
def parseBCBODY (c : Cursor) : Outcome (Entry × Cursor) := do
  let (bid, c) ← nextInt none c
  let (dim, c) ← nextString (some "3D".toList) c
  if dim ≠ "3D".toList then .throw
  else do
    let (behav, c) ← nextString (some "DEFORM".toList) c
    if behav ≠ "DEFORM".toList then .throw
    else do
      let (bsid, c) ← nextInt none c
      finished (.target bid (.body bsid)) c

/-- `parseBLSEG` (NastranParser.cpp 1038-1043), `parseBSSEG` (1045-1050), `parseBSURF` (1052-1061). -/
def parseList (make : List Int → Target) (c : Cursor) : Outcome (Entry × Cursor) := do
  let (id, c) ← nextInt none c
  let (ids, c) ← nextInts c
  .ok (.target id (make ids), c)

/-- `parseBFRIC` (NastranParser.cpp 1063-1073). -/
def parseBFRIC (c : Cursor) : Outcome (Entry × Cursor) := do
  let (fid, c) ← nextInt none c
  let c ← skip 2 c
  let (fstif, c) ← nextDouble none c
  finished (.friction fid fstif) c

/-- The loop over the groups of `parseBCTABLE` (NastranParser.cpp 1092-1110). -/
def groups : Nat → Cursor → Outcome (List Zone × Cursor)
  | 0, c => .ok ([], c)
  | n + 1, c => do
    let c ← Optistruct.toNotEmpty c
    let (word, c) ← nextString none c
    if word ≠ "SLAVE".toList then .throw
    else do
      let (slave, c) ← nextInt (some 0) c
      let c ← Optistruct.toNotEmpty c
      let (word, c) ← nextString none c
      if word ≠ "MASTERS".toList then .throw
      else do
        let (master, c) ← nextInt (some 0) c
        let e ← isNextEmpty 1 c
        if !(e || isEmptyUntilNextKeyword c) then .throw
        else do
          let (zs, c) ← groups n c
          .ok (⟨slave, master⟩ :: zs, c)

/-- `parseBCTABLE` (NastranParser.cpp 1075-1114). -/
def parseBCTABLE (c : Cursor) : Outcome (Entry × Cursor) := do
  let (set, c) ← nextInt none c
  let (slave, c) ← nextInt (some 0) c
  let (master, c) ← nextInt (some 0) c
  let first : List Zone := if slave ≠ 0 && master ≠ 0 then [⟨slave, master⟩] else []
  let (ngroup, c) ← nextInt (some 0) c
  let (zs, c) ← groups ngroup.toNat c
  finished (.zones set (first ++ zs)) c

/-- `parseBCONP` (NastranParser.cpp 1116-1138). -/
def parseBCONP (c : Cursor) : Outcome (Entry × Cursor) := do
  let (id, c) ← nextInt none c
  let (slave, c) ← nextInt none c
  let (master, c) ← nextInt none c
  let c ← skip 1 c
  let (_, c) ← nextDouble (some 1) c
  let (fricid, c) ← nextInt none c
  let (_, c) ← nextInt (some 1) c
  let (_, c) ← nextInt none c
  finished (.slide ⟨id, slave, master, fricid⟩) c

/-- `parseBSCONP` (NastranParser.cpp 1140-1154). -/
def parseBSCONP (c : Cursor) : Outcome (Entry × Cursor) := do
  let (id, c) ← nextInt none c
  let (slave, c) ← nextInt none c
  let (master, c) ← nextInt none c
  finished (.facing ⟨id, slave, master⟩) c

/-- The command of a keyword (NastranParser.cpp 47-54). -/
def command : Keyword → Cursor → Outcome (Entry × Cursor)
  | .bcbody => parseBCBODY
  | .blseg => parseList .line
  | .bsseg => parseList .facets
  | .bsurf => parseList .surface
  | .bfric => parseBFRIC
  | .bctable => parseBCTABLE
  | .bconp => parseBCONP
  | .bsconp => parseBSCONP

structure Card where
  keyword : Keyword
  fields : List Line

/-- A card of the bulk section, in strict mode. -/
def read (c : Card) : Outcome Entry := Bars.runCard (command c.keyword) c.fields

/-- The part of the model that these cards fill: `targets` and `values` by type and original id, the constraints. The group of
elements that BSURF makes has a name made of its number and does not exist before for the same reason as the surface. -/
structure State where
  targets : Map (Kind × Int) Target
  frictions : Map Int Dbl
  slides : List Slide
  facings : List Facing
  zones : List (Int × Zone)
  deriving DecidableEq

def State.empty : State := ⟨[], [], [], [], []⟩

/-- `model.add` of what the card makes (Model.h 549-592: an object of the same type and number is an error; the
number that stands for none is left aside). -/
def State.add (s : State) : Entry → Outcome State
  | .target id t =>
    if (s.targets.find (t.kind, id)).isSome then .throw else .ok { s with targets := s.targets.set (t.kind, id) t }
  | .friction id x =>
    if (s.frictions.find id).isSome then .throw else .ok { s with frictions := s.frictions.set id x }
  | .slide k =>
    if s.slides.any (fun x => x.id = k.id) then .throw else .ok { s with slides := s.slides ++ [k] }
  | .facing k =>
    if s.facings.any (fun x => x.id = k.id) then .throw else .ok { s with facings := s.facings ++ [k] }
  | .zones set zs => .ok { s with zones := s.zones ++ zs.map fun z => (set, z) }

/-- The cards one after the other. -/
def run (s : State) : List Card → Outcome State
  | [] => .ok s
  | c :: cs => do
    let e ← read c
    let s ← s.add e
    run s cs

/-- `Model::find(Reference<Target>)` for a reference without id (Model.cpp 371-380): the type is not looked at, the last object
with the number is returned (Model.h 617-627). The order of the types is that of a `std::unordered_map` (Model.h 214-215), about
which nothing is known. -/
def find (order : List Kind) (s : State) (id : Int) : Option Target :=
  (order.filterMap fun k => s.targets.find (k, id)).getLast?

/-- The elements of the boundary of a body (Constraint.cpp 895-910; again AsterWriter.cpp 1665-1668). -/
def boundary (order : List Kind) (s : State) (id : Int) : Outcome (List Int) :=
  match find order s id with
  | some (.body b) => match find order s b with
    | some (.surface cells) => .ok cells
    | _ => .throw
  | _ => .throw

/-- A zone of `DEFI_CONTACT`: the nodes or the elements of `GROUP_MA_MAIT` and `GROUP_MA_ESCL`, `COULOMB`. -/
structure Written (α : Type) where
  master : α
  slave : α
  coulomb : Option Dbl
  deriving DecidableEq

/-- A zone between two bodies: `none` when it is removed because a surface is empty (Constraint.cpp 894-912, Model.cpp
1032-1042), or what is written (AsterWriter.cpp 1663-1687). -/
def zone (order : List Kind) (s : State) (z : Zone) : Outcome (Option (Written (List Int))) := do
  let master ← boundary order s z.master
  let slave ← boundary order s z.slave
  .ok (if master.isEmpty || slave.isEmpty then none else some ⟨master, slave, none⟩)

/-- The nodes of a line (Constraint.cpp 738-755). -/
def lineNodes (order : List Kind) (s : State) (id : Int) : Outcome (List Int) :=
  match find order s id with
  | some (.line ns) => .ok ns
  | _ => .throw

/-- `for (unsigned int i = 0; i < size() - 1; ++i)` (Model.cpp 1973-1979): for an empty list the bound is the largest number and
the iterator goes beyond the end. -/
def segments : List Int → Outcome (List (List Int))
  | [] => .ub
  | [_] => .ok []
  | a :: b :: rest => do
    let r ← segments (b :: rest)
    .ok ([a, b] :: r)

/-- A sliding line as it is written: `nodePositions` (Constraint.cpp 738-755), `makeBoundarySegments` (Model.cpp 1965-1995),
`getFriction` (Constraint.cpp 724-736: a null pointer when there is no such friction), AsterWriter.cpp 1624-1636. -/
def slide (order : List Kind) (s : State) (k : Slide) : Outcome (Written (List (List Int))) := do
  let masterNodes ← lineNodes order s k.master
  let slaveNodes ← lineNodes order s k.slave
  let master ← segments masterNodes
  let slave ← segments slaveNodes
  match s.frictions.find k.friction with
  | none => .ub
  | some x => .ok ⟨master, slave, some x⟩

/-- The nodes of a surface (Constraint.cpp 777-794). -/
def facetNodes (order : List Kind) (s : State) (id : Int) : Outcome (List Int) :=
  match find order s id with
  | some (.facets ns) => .ok ns
  | _ => .throw

/-- The loop of `makeBoundarySurfaces` (Constraint.cpp 820-834): four nodes at a time, whatever remains. -/
def facets : List Int → Outcome (List (List Int))
  | [] => .ok []
  | a :: b :: c :: d :: rest => do
    let r ← facets rest
    .ok ((if d ≠ 0 then [a, b, c, d] else [a, b, c]) :: r)
  | _ => .ub

/-- A contact between surfaces of nodes as it is written (Constraint.cpp 777-794, 812-857, AsterWriter.cpp 1651-1662). A surface
without nodes is removed with the contact (Constraint.cpp 801-805). -/
def facing (order : List Kind) (s : State) (k : Facing) : Outcome (Option (Written (List (List Int)))) := do
  let masterNodes ← facetNodes order s k.master
  let slaveNodes ← facetNodes order s k.slave
  let slave ← facets slaveNodes
  let master ← facets masterNodes
  .ok (if masterNodes.isEmpty || slaveNodes.isEmpty then none else some ⟨master, slave, none⟩)

end Contacts
end Vega
