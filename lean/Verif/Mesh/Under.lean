import Verif.Mesh.Faces
import Mathlib.Data.Finset.Card

/-! # The solid under a cell of the skin: `Abstract/Mesh.cpp` 574-593 -/
namespace Vega
namespace Under

/-- A cell (MeshComponents.h 326-372); its position, its element and its orientation are left out. -/
structure Cell where
  id : Int
  type : CellType
  nodes : List Int
  deriving DecidableEq

/-- The comparison of a face with the nodes of the skin (Mesh.cpp 575, 582-586): the number of nodes of the face with repetitions, then
the two sets. -/
def same (skin face : List Int) : Bool :=
  face.length = skin.toFinset.card && face.toFinset = skin.toFinset

/-- The loop over the faces, numbered from `k` (Mesh.cpp 581-588). -/
def searchFaces (skin : List Int) : List (List Int) → Nat → Option Nat
  | [], _ => none
  | f :: fs, k => if same skin f then some k else searchFaces skin fs (k + 1)

/-- `volcellAndFaceNum_from_skincell` (Mesh.cpp 574-593) for the cells in the order of the two loops, by type and then by position. -/
def search (skin : List Int) : List Cell → Outcome (Cell × Nat)
  | [] => .throw
  | c :: cs =>
    if c.type.dim = 3 then do
      let fs ← Faces.nodeIdsByFaceNum c.type c.nodes
      match searchFaces skin fs 1 with
      | some k => .ok (c, k)
      | none => search skin cs
    else search skin cs

end Under
end Vega
