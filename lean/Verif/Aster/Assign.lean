import Verif.Num
import Verif.Basic
import Verif.Element.Discrete

/-!
# What Code_Aster is told of the element sets: AFFE_MODELE and AFFE_CARA_ELEM
(`Aster/AsterModel.cpp` 113-217, `Aster/AsterWriter.cpp` 772-795, 1086-1375)

The cells of a set are named by the number of the set. Sets are in the order of the container. The values of discrete elements
and of sections are elsewhere (`Element/Discrete.lean`, `Element/Section.lean`): here the keywords are followed.
-/
namespace Vega
namespace Assign

/-- `ElementSet::Type` (Element.h 44-68). -/
inductive SetType where
  | discrete0d | discrete1d | nodalMass | circular | tube | rectangular | iSection | generic | structuralSegment | shell
  | continuum | skin | stiffnessMatrix | massMatrix | dampingMatrix | rigidSet | rbar | rbe3 | lmpc | scalarSpring
  | composite | surfaceSlide | unknown
  deriving DecidableEq

/-- `ModelType` (Element.cpp 24-30). -/
inductive ModelType where
  | planeStress | planeStrain | axisymmetric | tridimensional | tridimensionalSI
  deriving DecidableEq

/-- `Beam::BeamModel` (Element.h 150-154). -/
inductive BeamModel where
  | euler | timoshenko | truss
  deriving DecidableEq

/-- What is used of an element set: its number, its type, `effective()`, the model type, the model of a beam, the methods
`hasRotations`, `isDiagonal`, `isSymmetric`, `hasDamping`, `hasMass` of a discrete, the thickness and the offset of a shell or a
composite and the number of full layers. Those that are meaningless for a type are not looked at. -/
structure Elems where
  id : Nat
  type : SetType
  effective : Bool
  modelType : ModelType
  beamModel : BeamModel
  rotations : Bool
  diagonal : Bool
  symmetric : Bool
  damping : Bool
  mass : Bool
  thickness : Dbl
  offset : Dbl
  layers : Nat
  deriving DecidableEq

/-- What is used of the model: `analyses.contains(NONLINEAR_MECA_STAT)` and `needsLargeDisplacements` (Model.cpp 826-833). -/
structure Env where
  nonlinear : Bool
  large : Bool

/-- The types of beams (AsterModel.cpp 163-167). -/
def SetType.section (t : SetType) : Bool := t ∈ [.circular, .tube, .rectangular, .iSection, .generic]

/-- `isBeam` (Element.h 93-95, 169-171). -/
def Elems.isBeam (e : Elems) : Bool := e.type.section && e.beamModel ≠ .truss

/-- `isTruss` (Element.h 96-98, 175-177). -/
def Elems.isTruss (e : Elems) : Bool := e.type.section && e.beamModel = .truss

/-- `AsterModel::getModelisations` (AsterModel.cpp 113-217). -/
def modelisations (env : Env) (e : Elems) : Outcome (List String) :=
  match e.type with
  | .skin | .continuum =>
    if e.modelType = .tridimensionalSI ∧ ¬ env.nonlinear then .ok ["3D", "3D_SI"]
    else if e.modelType = .tridimensionalSI ∧ env.nonlinear then .ok ["3D"]
    else if e.modelType = .planeStress then .ok ["C_PLAN"]
    else if e.modelType = .planeStrain then .ok ["D_PLAN"]
    else .ok ["3D"]
  | .shell | .composite => .ok ["DKT"]
  | .circular | .tube | .rectangular | .iSection | .generic =>
    if ¬ env.large then
      match e.beamModel with
      | .euler => .ok ["POU_D_E"]
      | .timoshenko => .ok ["POU_D_T"]
      | .truss => .ok ["BARRE"]
    else .ok ["POU_D_T_GD"]
  | .structuralSegment | .scalarSpring | .discrete0d | .discrete1d =>
    if e.rotations then .ok ["DIS_TR"] else .ok ["DIS_T"]
  | .nodalMass => if e.rotations then .ok ["DIS_TR"] else .ok ["DIS_T"]
  | _ => .throw

/-- `writeAffeModele` (AsterWriter.cpp 772-795): the sets and their models. All element sets are `CellElementSet`s. -/
def affeModele (env : Env) : List Elems → Outcome (List (Nat × List String))
  | [] => .ok []
  | e :: es =>
    if e.effective then do
      let m ← modelisations env e
      let rest ← affeModele env es
      .ok ((e.id, m) :: rest)
    else affeModele env es

/-- A block of AFFE_CARA_ELEM. -/
inductive Block where
  /-- `DISCRET`: `K`, `A` or `M`, the markers `R`, `D_`, `SYME='NON'` and `L` instead of `N`. -/
  | discret (letter : Char) (rotations diagonal nonSymmetric line : Bool)
  | poutre
  | barre
  /-- `COQUE`: `EPAIS`, `EXCENTREMENT` and `COQUE_NCOU`. -/
  | coque (thickness : Dbl) (offset : Option Dbl) (layers : Option Nat)
  | massif
  deriving DecidableEq

/-- The sets of a type (`elementSets.filter`). -/
def filter (es : List Elems) (t : SetType) : List Elems := es.filter fun e => e.type = t

/-- The blocks of a discrete (AsterWriter.cpp 1104-1154 for points, 1155-1205 for segments). -/
def discretBlocks (line : Bool) (e : Elems) : List (Nat × Block) :=
  if e.effective then
    let d := if line then e.diagonal else false
    (e.id, .discret 'K' e.rotations d (!e.symmetric) line) ::
      ((if e.damping then [(e.id, .discret 'A' e.rotations d (!e.symmetric) line)] else []) ++
        (if e.mass then [(e.id, .discret 'M' e.rotations d (!e.symmetric) line)] else []))
  else []

/-- The block of a nodal mass (AsterWriter.cpp 1206-1229). -/
def massBlocks (e : Elems) : List (Nat × Block) :=
  if e.effective then [(e.id, .discret 'M' e.rotations true false false)] else []

/-- The block of a shell (AsterWriter.cpp 1264-1284). -/
def shellBlocks (e : Elems) : List (Nat × Block) :=
  if e.effective then [(e.id, .coque e.thickness (if isZero e.offset then none else some e.offset) none)] else []

/-- The block of a composite (AsterWriter.cpp 1285-1307). -/
def compositeBlocks (e : Elems) : List (Nat × Block) :=
  if e.effective then [(e.id, .coque e.thickness (if isZero e.offset then none else some e.offset) (some e.layers))] else []

/-- The block of a solid or a skin (AsterWriter.cpp 1318-1330, 1331-1343). -/
def solidBlocks (e : Elems) : List (Nat × Block) := if e.effective then [(e.id, .massif)] else []

/-- The blocks of `writeAffeCaraElem` (AsterWriter.cpp 1086-1346), in the order in which they are written; the beams are written
whether or not they have cells (1238-1254, 1376-1379). -/
def affeCara (env : Env) (es : List Elems) : List (Nat × Block) :=
  let points := filter es .discrete0d
  let segments := filter es .discrete1d ++ filter es .scalarSpring ++ filter es .structuralSegment
  let masses := filter es .nodalMass
  let beams := es.filter Elems.isBeam
  let trusses := es.filter Elems.isTruss
  let solids := filter es .continuum
  points.flatMap (discretBlocks false) ++ segments.flatMap (discretBlocks true) ++ masses.flatMap massBlocks ++
    beams.map (fun e => (e.id, .poutre)) ++ trusses.map (fun e => (e.id, if env.large then .poutre else .barre)) ++
    (filter es .shell).flatMap shellBlocks ++ (filter es .composite).flatMap compositeBlocks ++
    (if solids.isEmpty then [] else solids.flatMap solidBlocks ++ (filter es .skin).flatMap solidBlocks)

/-- The lines that open and close the order (AsterWriter.cpp 1088-1089, 1374). -/
def brackets (es : List Elems) : Nat × Nat := (if es.isEmpty then 0 else 1, 1)

/-- A coordinate system used by cells: its place, whether it is an orientation (`RELATIVE`), its vector `V`, and the name of the
group of its cells (`cellGroupNameByCspos`). -/
structure Oriented where
  position : Nat
  relative : Bool
  v : Dbl × Dbl × Dbl
  group : String

/-- The orientations (AsterWriter.cpp 1348-1373): the vectors `VECT_Y` and their groups. -/
def orientations (es : List Elems) (os : List Oriented) : List ((Dbl × Dbl × Dbl) × String) :=
  os.flatMap fun o =>
    if (filter es .continuum).length = es.length then []
    else if ¬ o.relative then []
    else [(o.v, o.group)]

end Assign
end Vega
