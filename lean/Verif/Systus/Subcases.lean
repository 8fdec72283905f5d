import Verif.Basic

/-! # The subcases of Systus: `generateSubcases` (`Systus/SystusWriter.cpp` 885-1012), the option `systus.Subcase`
(`Commandline/VegaCommandLine.cpp` 352-386) and what a subcase takes from its first analysis -/
namespace Vega
namespace Subcases

/-- `Analysis::Type` (Analysis.h 56-66). -/
inductive Kind where
  | combination | mecaStat | buckling | modal | modalComplex | dynaDirect | dynaModal | nonLinear | unknown
deriving DecidableEq

/-- The number of the enumerator. -/
def Kind.code : Kind → Int
  | .combination => 0 | .mecaStat => 1 | .buckling => 2 | .modal => 3 | .modalComplex => 4 | .dynaDirect => 5 | .dynaModal => 6
  | .nonLinear => 7 | .unknown => 8

/-- What the writer sees of an analysis: its number, the number of the user, its type and the numbers of its sets of constraints
(`getConstraintSets`). -/
structure Analysis where
  id : Int
  original : Option Int
  kind : Kind
  constraintSets : List Int
deriving DecidableEq

/-- The vector `cAna` (SystusWriter.cpp 897-906). -/
def Analysis.characteristic (a : Analysis) : List Int := a.kind.code :: a.constraintSets.length :: a.constraintSets

/-! ## The option -/

/-- One value of `--systus.Subcase`; a list `n1,n2,n3` is given by its numbers. -/
inductive Value where
  | single | auto | list (ns : List Int)

/-- `ConfigurationParameters::systusSubcases`: a list of lists, `[[-1]]` for `single`. -/
def parse : List Value → List (List Int) → List (List Int)
  | [], acc => acc
  | .single :: _, _ => [[-1]]
  | .auto :: _, _ => []
  | .list ns :: vs, acc => parse vs (acc ++ [ns])

/-! ## Grouping -/

/-- An analysis in the default mode (SystusWriter.cpp 909-926): the first subcase with the same characteristic, for static analyses
only, or a new subcase. `characteristicAnalysis` and `systusSubcases` grow together and are one list here. The number of an analysis
stands for the analysis. -/
def place (a : Analysis) : List (List Int × List Analysis) → List (List Int × List Analysis)
  | [] => [(a.characteristic, [a])]
  | (c, g) :: r => if a.kind = .mecaStat ∧ a.characteristic = c then (c, g ++ [a]) :: r else (c, g) :: place a r

/-- The default mode (SystusWriter.cpp 890-929). -/
def groupAuto (as : List Analysis) : List (List Analysis) :=
  (as.foldl (fun gs a => place a gs) []).map Prod.snd

/-- `analysisIdByOriginalId` (SystusWriter.cpp 944-959): the first analysis with the number. -/
def byOriginal (as : List Analysis) (n : Int) : Option Analysis := as.find? fun a => a.original = some n

/-- The lists of the user (SystusWriter.cpp 962-974): numbers that are not found are left out, and lists without any analysis. -/
def groupUser (as : List Analysis) (lists : List (List Int)) : List (List Analysis) :=
  (lists.map fun ns => ns.filterMap (byOriginal as)).filter fun g => !g.isEmpty

/-- The choice of the mode (SystusWriter.cpp 892, 933-934). -/
def group (as : List Analysis) (config : List (List Int)) : Outcome (List (List Analysis)) :=
  match config with
  | [] => .ok (groupAuto as)
  | [[]] => .ub
  | [n :: ns] => .ok (if n = -1 then as.map fun a => [a] else groupUser as [n :: ns])
  | _ => .ok (groupUser as config)

/-- `generateSubcases` (SystusWriter.cpp 885-1012): without any subcase the mesh is written (1007-1010). -/
def generate (as : List Analysis) (config : List (List Int)) : Outcome (List (List Analysis)) :=
  (group as config).bind fun gs => .ok (if gs.isEmpty then [[]] else gs)

/-! ## What a subcase writes -/

/-- The sets of constraints that block the degrees of freedom of a subcase (`fillConstraintsNodes`, SystusWriter.cpp 1660-1673): those
of the first analysis. -/
def blocking : List Analysis → List Int
  | [] => []
  | a :: _ => a.constraintSets

/-- The type of the computation of a subcase (`writeDat`, SystusWriter.cpp 3117-3128). -/
def solved : List Analysis → Option Kind
  | [] => none
  | a :: _ => some a.kind

end Subcases
end Vega
