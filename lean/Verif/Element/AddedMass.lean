import Verif.Basic
import Verif.Num

/-! # Additional mass: `emulateAdditionalMass` (Model.cpp 904-939) and what writers make of the materials of element sets -/
namespace Vega
namespace AddedMass

/-- A material, as far as its elastic nature is concerned. `id` is its place in the order of references (Reference.h 117-128): a material
of the data has an original number, or an automatic number smaller than those given later, and so comes before materials made here. -/
structure Mat where
  id : Nat
  e : Dbl
  rho : Dbl
  deriving DecidableEq

/-- A cell of the mesh. `place` stands for its type, nodes, orientation and element number, which a copy has in common with it. -/
structure Cell where
  id : Nat
  place : Nat
  deriving DecidableEq

/-- An element set: the materials in the order of references (Element.h 71), the cells in the order of positions including those of
groups (Element.h 123-125), and `getAdditionalRho` (Element.h 163-165, 305-307). -/
structure ESet where
  mats : List Mat
  cells : List Cell
  addRho : Dbl

/-- The copies of cells (Model.cpp 929-934); `nc` is the next number of a cell. -/
def copies (nc : Nat) : List Cell → List Cell
  | [] => []
  | c :: r => ⟨nc, c.place⟩ :: copies (nc + 1) r

/-- What the loop makes: the element sets that are in the model, the new ones, and the new cells. -/
structure Made where
  old : List ESet
  new : List ESet
  cells : List Cell

/-- The loop over element sets (Model.cpp 906-936). `nc` and `nm` are the next numbers of a cell and of a material. The new element set is
a copy, made before the new group is filled (910), to which a material is assigned besides those it has (920; Element.cpp 78-82). The new
group is added to the element set that is copied (926-927). -/
def loop (nc nm : Nat) : List ESet → Made
  | [] => ⟨[], [], []⟩
  | s :: r =>
    if isZero s.addRho then
      let q := loop nc nm r
      ⟨s :: q.old, q.new, q.cells⟩
    else
      let l := copies nc s.cells
      let q := loop (nc + s.cells.length) (nm + 1) r
      ⟨{ s with cells := s.cells ++ l } :: q.old, { s with mats := s.mats ++ [⟨nm, 0, s.addRho⟩] } :: q.new, l ++ q.cells⟩

/-- The element sets afterwards, in the order of the container, which is that of their numbers (Model.cpp 937-938, Model.h 246). -/
def emulate (nc nm : Nat) (sets : List ESet) : List ESet := (loop nc nm sets).old ++ (loop nc nm sets).new

/-- The lines of AFFE_MATERIAU (AsterWriter.cpp 1061-1074): a material and the cells it is assigned to. `getMaterials` (Element.cpp 96-104)
is a set of pointers in the order of addresses: `order` gives that order. -/
def lines (order : ESet → List Mat) (sets : List ESet) : List (Mat × List Cell) :=
  (sets.filter fun s => !s.cells.isEmpty).flatMap fun s => (order s).map fun m => (m, s.cells)

/-- The elements of Systus: the cells of every set (SystusWriter.cpp 2839-2890) with the first of its materials (SystusWriter.cpp 1974-1977;
`mainMaterial`, Element.cpp 112-117). -/
def elements (sets : List ESet) : List (Cell × Option Mat) := sets.flatMap fun s => s.cells.map fun c => (c, s.mats.head?)

end AddedMass
end Vega
