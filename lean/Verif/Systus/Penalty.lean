import Verif.Basic
import Verif.Mesh.Cells
import Mathlib.Data.Rat.Defs
import Mathlib.Data.List.Dedup
import Mathlib.Analysis.Real.Sqrt

/-! # The stiffness of rigid bars and linear relations in a translation for Systus: the largest modulus of the parts times a mean length
of the mesh (`Systus/SystusWriter.cpp` 572-598, 649-672, 828-855; `Abstract/Mesh.cpp` 865-908; `Commandline/VegaCommandLine.cpp`
262-298) -/
namespace Vega
namespace Penalty

/-- Coordinates of a node in the global frame. -/
abbrev Point := ℚ × ℚ × ℚ

/-- A cell with the places of its nodes, as many as its type has. -/
structure Cell where
  type : CellType
  nodes : List Point
  deriving DecidableEq

/-- `comparable_distance` of two nodes (Mesh.cpp 886): the square of the distance. -/
def square (p q : Point) : ℚ := (p.1 - q.1) ^ 2 + (p.2.1 - q.2.1) ^ 2 + (p.2.2 - q.2.2) ^ 2

/-- `DOUBLE_COMPARE_TOLERANCE` (Utility.h 53). -/
def tolerance : ℚ := 5 / 2 ^ 52

/-- `is_zero` (Utility.h 67-69). -/
def isZero (x : ℚ) : Bool := decide (|x| ≤ tolerance)

/-- The loops over two nodes of a cell (Mesh.cpp 882-889): the second begins with the node itself. -/
def squares : List Point → List ℚ
  | [] => []
  | [_] => []
  | p :: q :: t => (p :: q :: t).map (square p) ++ squares (q :: t)

/-- `cellTypes` (Mesh.cpp 157-164), without the types of fewer than two nodes (876). -/
def types (cells : List Cell) : List CellType := ((cells.map Cell.type).dedup).filter fun t => decide (2 ≤ t.numNodes)

/-- The distances for a type, without those that are zero (Mesh.cpp 878-896). -/
def distances (cells : List Cell) (t : CellType) : List ℚ :=
  ((cells.filter fun c => decide (c.type = t)).flatMap fun c => squares c.nodes).filter fun x => !isZero x

/-- The loop over the types (Mesh.cpp 875-902), for the sum and the number of distances; the smallest and the largest ones are used
by no translation and left out. When all distances of a type are zero, `min_element` of an empty list (897) is dereferenced (899). -/
def sums (cells : List Cell) : List CellType → ℚ × Nat → Outcome (ℚ × Nat)
  | [], acc => .ok acc
  | t :: ts, acc =>
    if distances cells t = [] then .ub
    else sums cells ts (acc.1 + (distances cells t).sum, acc.2 + (distances cells t).length)

/-- `calcStats` (Mesh.cpp 865-908) for the quadratic mean: its square. `none` is zero divided by zero, not a number. -/
def calcStats (cells : List Cell) : Outcome (Option ℚ) :=
  match sums cells (types cells) (0, 0) with
  | .ok (s, n) => .ok (if n = 0 then none else some (s / n))
  | .throw => .throw
  | .ub => .ub
  | .diverges => .diverges

/-- An element set, as far as it is looked at (SystusWriter.cpp 578-584): is it effective, has it materials, and what is the modulus of the
elastic nature of the first one, when it has such a nature. -/
structure Part where
  effective : Bool
  hasMaterials : Bool
  young : Option ℚ
  deriving DecidableEq

/-- The largest modulus (SystusWriter.cpp 575-586). -/
def maxYoung (parts : List Part) : ℚ :=
  parts.foldl (fun a p => if p.effective && p.hasMaterials then
    match p.young with
    | some e => max a e
    | none => a
    else a) 0

/-- The end of `generateRbarStiffness` (SystusWriter.cpp 588-597): `mean` is the square of the quadratic mean. What is not a number is not
zero for `is_zero`, and gives a result that is not a number. -/
noncomputable def rbarStiffness (parts : List Part) (mean : Option ℚ) : Option ℝ :=
  match mean with
  | none => none
  | some m =>
    let length := if |Real.sqrt m| ≤ tolerance then 1 else Real.sqrt m
    some (maxYoung parts * length)

/-- `systusRBE2TranslationMode` (VegaCommandLine.cpp 262-270). -/
inductive Mode where
  | penalty | lagrangian
  deriving DecidableEq

/-- The options of the command line for rigid elements (VegaCommandLine.cpp 521-528). -/
structure Options where
  mode : Mode
  rbeLagrangian : Option ℚ
  rbe2Rigidity : Option ℚ
  stiffness : Option ℚ
  coefficient : Option ℚ

/-- What is kept of them (VegaCommandLine.cpp 273-298): the stiffness, when there is one, and the coefficient. The number that stands for
no value is taken to be given by nobody. -/
def settings (o : Options) : Option ℚ × ℚ :=
  let s : Option ℚ × Option ℚ := match o.rbeLagrangian with
    | some v => (some 1, some v)
    | none => (none, none)
  let s := match o.rbe2Rigidity with
    | some v => if o.mode = Mode.penalty then (some v, some 1) else s
    | none => s
  let stiffness := match o.stiffness with
    | some v => some v
    | none => s.1
  let c := match s.2 with
    | some c => c
    | none => if o.mode = Mode.penalty then 10 else 1000
  let coefficient := match o.coefficient with
    | some v => v
    | none => c
  (stiffness, coefficient)

/-- What is set in the nature of a rigid set (Material.cpp 312-322). -/
inductive Setting where
  | rigidity (value : Option ℝ)
  | lagrangian (value : ℚ)

/-- The material of a set of rigid bars (SystusWriter.cpp 660-672) or of linear relations (844-855). `cache` is the mean kept by the
mesh (Mesh.cpp 866-868). The stiffness is computed in both modes. -/
noncomputable def update (o : Options) (parts : List Part) (cache : Option (Option ℚ)) (cells : List Cell) :
    Outcome (Setting × Option (Option ℚ)) := do
  let r : Option ℝ × Option (Option ℚ) ← match (settings o).1 with
    | some s => .ok (some (s : ℝ), cache)
    | none =>
      match cache with
      | some m => .ok (rbarStiffness parts m, cache)
      | none => do
        let m ← calcStats cells
        .ok (rbarStiffness parts m, some m)
  match o.mode with
  | .lagrangian => .ok (.lagrangian (settings o).2, r.2)
  | .penalty => .ok (.rigidity (r.1.map fun s => (settings o).2 * s), r.2)

/-- The loops over the sets (SystusWriter.cpp 649-672, 828-855): each with the cells that are in the mesh at that time (sets before it have
changed some of theirs). -/
noncomputable def updates (o : Options) (parts : List Part) : Option (Option ℚ) → List (List Cell) → Outcome (List Setting)
  | _, [] => .ok []
  | cache, cells :: rest => do
    let r ← update o parts cache cells
    let l ← updates o parts r.2 rest
    .ok (r.1 :: l)

end Penalty
end Vega
