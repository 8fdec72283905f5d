import Verif.Container.Model

/-!
# What a case asks for and the file does not contain

From the cards to the analyses that the writers find: `Model::finish` (Model.cpp 2217-2360), `Model::validate` (2362-2401) and
`convertStudy` (VegaCommandLine.cpp 102-120), as far as sets of loads, sets of constraints, modal methods and coordinate systems
of forces are concerned. The nodes, materials and elements are taken to be valid. Sets that combine others (`LOAD`, `SPCADD`) are
not in this model.
-/
namespace Vega
namespace Missing

/-- The output formats (ConfigurationParameters.cpp 47-89). -/
inductive Target where
  | ASTER | SYSTUS | NASTRAN
  deriving DecidableEq

/-- A case with its selections `LOAD`, `SPC` and, in modal analyses, `METHOD`. -/
structure Case where
  id : Int
  load : Option Int
  spc : Option Int
  method : Option Int
  deriving DecidableEq

/-- Cards: a `FORCE` by its set, its coordinate system (0 for the global one) and whether it is zero; an `SPC`; an `EIGRL`; a
`CORD2R`. -/
inductive Card where
  | force (set system : Int) (zero : Bool)
  | spc (set : Int)
  | eigrl (id : Int)
  | cord (id : Int)
  deriving DecidableEq

/-- A file with at least one case: without a case an analysis is made up (Model.cpp 2233-2235), which is not in this model. -/
structure File where
  first : Case
  rest : List Case
  cards : List Card

/-- The cases of a file. -/
def File.cases (f : File) : List Case := f.first :: f.rest

/-- A `NodalForce`; `id` is the number that it gets when it is created (Object.h 108-110). -/
structure Load where
  id : Nat
  set : Int
  system : Int
  zero : Bool
  deriving DecidableEq

/-- An analysis with the sets that it refers to (Analysis.h, `loadSet_references`, `constraintSet_references`,
`frequencySearchRef`). -/
structure Analysis where
  id : Int
  loads : List Int
  spcs : List Int
  method : Option Int
  deriving DecidableEq

/-- The model: `loads` is the container of loadings, `members` the references from sets of loads to loadings
(`loadingReferences_by_loadSet_ids`), `supports` the set of each constraint. -/
structure State where
  systems : List Int
  loads : List Load
  members : List (Int × Nat)
  loadSets : List Int
  supports : List Int
  constraintSets : List Int
  searches : List Int
  analyses : List Analysis

/-- The empty model. -/
def State.init : State := ⟨[], [], [], [], [], [], [], []⟩

/-- A set is added if it is not in the model (NastranParser.cpp 853-857, 877-881; Model.cpp 412-422). -/
def addSet (n : Int) (l : List Int) : List Int := if n ∈ l then l else l ++ [n]

/-- The same for a selection that may be absent. -/
def addSelected : Option Int → List Int → List Int
  | none, l => l
  | some n, l => addSet n l

/-- A case of the case control section (NastranParser.cpp 836-881, 766-772): the selected sets of loads and constraints are created,
the method is not. -/
def readCase (s : State) (c : Case) : State :=
  { s with
    loadSets := addSelected c.load s.loadSets
    constraintSets := addSelected c.spc s.constraintSets
    analyses := s.analyses ++ [⟨c.id, c.load.toList, c.spc.toList, c.method⟩] }

/-- A card: `parseFORCE` (NastranParser.cpp 1675-1691, Loading.cpp 20-26, Model.cpp 382-395), a constraint, a search, a coordinate
system. -/
def readCard (s : State) : Card → State
  | .force set system zero =>
    { s with
      loads := s.loads ++ [⟨s.loads.length, set, system, zero⟩]
      members := s.members ++ [(set, s.loads.length)]
      loadSets := addSet set s.loadSets }
  | .spc set => { s with supports := s.supports ++ [set], constraintSets := addSet set s.constraintSets }
  | .eigrl id => { s with searches := s.searches ++ [id] }
  | .cord id => { s with systems := s.systems ++ [id] }

/-- The file: the case control section comes first. -/
def read (f : File) : State := f.cards.foldl readCard (f.cases.foldl readCase State.init)

/-- How a part of the program goes on: with a value, with a `logic_error` that `process` catches (VegaCommandLine.cpp 658-663), with
`std::terminate`, or undefined. -/
inductive Run (α : Type) where
  | go (a : α)
  | ended
  | terminated
  | undefined
  deriving DecidableEq

/-- Going on. -/
def Run.bind {α β : Type} : Run α → (α → Run β) → Run β
  | .go a, f => f a
  | .ended, _ => .ended
  | .terminated, _ => .terminated
  | .undefined, _ => .undefined

/-- `getLoadingsByLoadSet` (Model.cpp 436-464): `none` for the exception when a loading of the set is not in the model. -/
def loadsOf (s : State) (n : Int) : Option (List Load) :=
  ((s.members.filter fun m => m.1 = n).map (·.2)).mapM fun i => s.loads.find? fun l => l.id = i

/-- The empty ones among some sets of loads. `LoadSet::empty` is `noexcept` (Loading.h 101, Loading.cpp 89-95), so the exception of
`loadsOf` ends the program. -/
def emptySets (s : State) : List Int → Run (List Int)
  | [] => .go []
  | n :: ns =>
    match loadsOf s n with
    | none => .terminated
    | some ls => (emptySets s ns).bind fun es => .go (if ls = [] then n :: es else es)

/-- The system of a force is found (Loading.cpp 50-51, CoordinateSystem.cpp 487-498). -/
def okSystem (s : State) (l : Load) : Bool := decide (l.system = 0 ∨ l.system ∈ s.systems)

/-- The degrees of freedom of boundary conditions (Model.cpp 2241-2248; Analysis.cpp 94-105, 149-158; Loading.cpp 290-298, 319-324):
the forces of the selected sets are turned to the global system, which is an error if their own is missing. Constraints do not fail. -/
def boundary (s : State) : List Analysis → Run Unit
  | [] => .go ()
  | a :: as =>
    match ((a.loads.filter fun n => n ∈ s.loadSets).mapM (loadsOf s)) with
    | none => .terminated
    | some lss => if lss.flatten.all (okSystem s) then boundary s as else .ended

/-- `Model::remove` of loadings (Model.cpp 225-246), for the ineffective ones (1007-1017, Loading.cpp 350-352). -/
def removeZero (s : State) : State :=
  { s with
    loads := s.loads.filter fun l => !l.zero
    members := s.members.filter fun m => !((s.loads.filter fun l => l.zero).any fun l => l.id = m.2) }

/-- `Model::remove` of sets of loads (Model.cpp 249-260). -/
def removeLoadSets (s : State) (es : List Int) : State :=
  { s with
    loadSets := s.loadSets.filter fun n => n ∉ es
    analyses := s.analyses.map fun a => { a with loads := a.loads.filter fun n => n ∉ es } }

/-- `Model::remove` of the empty sets of constraints (Model.cpp 1044-1055, 263-274). -/
def removeConstraintSets (s : State) : State :=
  let es := s.constraintSets.filter fun n => n ∉ s.supports
  { s with
    constraintSets := s.constraintSets.filter fun n => n ∉ es
    analyses := s.analyses.map fun a => { a with spcs := a.spcs.filter fun n => n ∉ es } }

/-- `removeIneffectives` (Model.cpp 1006-1055), for the parts of this model. -/
def removeIneffectives (s : State) : Run State :=
  let s := removeZero s
  (emptySets s s.loadSets).bind fun es => .go (removeConstraintSets (removeLoadSets s es))

/-- `finish` (Model.cpp 2241-2248, 2295-2297) with the configuration of the output (ConfigurationParameters.cpp 43-91). -/
def finish (t : Target) (s : State) : Run State :=
  (boundary s s.analyses).bind fun _ =>
    match t with
    | .NASTRAN => .go s
    | .ASTER => removeIneffectives s
    | .SYSTUS => removeIneffectives s

/-- `Loading::validate` for all loadings (Model.cpp 2378, Model.h 503-530). -/
def validateLoads (mode : TranslationMode) (s : State) : Bool × State :=
  (s.loads.all (okSystem s),
    match mode with
    | .MODE_STRICT => s
    | _ => { s with loads := s.loads.filter (okSystem s) })

/-- `LoadSet::validate` for all sets (Model.cpp 2379, Loading.cpp 107-115). -/
def validateLoadSets (mode : TranslationMode) (s : State) : Run (Bool × State) :=
  (emptySets s s.loadSets).bind fun es => .go (es.isEmpty,
    match mode with
    | .MODE_STRICT => s
    | _ => { s with loadSets := s.loadSets.filter fun n => n ∉ es })

/-- `Analysis::validate` (Analysis.cpp 400-427), for sets of loads and constraints. -/
def validAnalysis (s : State) (a : Analysis) : Bool :=
  (a.spcs.all fun n => n ∈ s.constraintSets) && a.loads.all fun n => n ∈ s.loadSets

/-- The search of a modal analysis is used without a test (Analysis.cpp 629-644). -/
def hasSearch (s : State) (a : Analysis) : Bool :=
  match a.method with
  | none => true
  | some m => m ∈ s.searches

/-- The validation of the analyses (Model.cpp 2382). -/
def validateAnalyses (mode : TranslationMode) (s : State) : Run (Bool × State) :=
  if s.analyses.all (hasSearch s) then
    .go (s.analyses.all (validAnalysis s),
      match mode with
      | .MODE_STRICT => s
      | _ => { s with analyses := s.analyses.filter (validAnalysis s) })
  else .undefined

/-- `Model::validate` (Model.cpp 2362-2401). Sets of constraints are always valid (Object.h 112). -/
def validate (mode : TranslationMode) (s : State) : Run (Bool × State) :=
  let r := validateLoads mode s
  (validateLoadSets mode r.2).bind fun q =>
    (validateAnalyses mode q.2).bind fun p => .go (r.1 && q.1 && p.1, p.2)

/-- What a writer finds in an analysis (Analysis.cpp 94-105, 263-273). -/
def written (s : State) (a : Analysis) : Analysis :=
  { a with
    loads := a.loads.filter fun n => n ∈ s.loadSets
    spcs := a.spcs.filter fun n => n ∈ s.constraintSets }

/-- The result of a translation. -/
inductive Result where
  | refused
  | analyses (l : List Analysis)
  deriving DecidableEq

/-- `convertStudy` (VegaCommandLine.cpp 93-110). -/
def translate (t : Target) (mode : TranslationMode) (f : File) : Run Result :=
  (finish t (read f)).bind fun s =>
    (validate mode s).bind fun p =>
      if p.1 = false ∧ mode = .MODE_STRICT then .go .refused
      else .go (.analyses (p.2.analyses.map (written p.2)))

end Missing
end Vega
