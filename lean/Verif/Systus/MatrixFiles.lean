import Verif.Systus.Matrix
import Verif.Med.Families

/-! # The files of element matrices for Systus: `Systus/SystusAsc.cpp` 122-190, `Systus/SystusWriter.cpp` 375-410, 3101-3114,
3356-3402 -/
namespace Vega
namespace MatrixFiles
open Systus

/-- A line of a file, by its numbers. How a number is printed is not modelled. -/
abbrev Line := List Dbl

/-- `operator<<` of a matrix with its id (SystusAsc.cpp 122-153). -/
def matrixLines (id : Nat) (m : Matrix) : List Line :=
  [[0], [(id : Dbl)], [(m.nbNodes : Dbl)], [(m.nbNodes : Dbl)], [(m.size : Dbl)], [0], [0]] ++
    (List.range m.nbNodes).map (fun i => [((i + 1 : Nat) : Dbl)]) ++ m.lines

/-- The matrices of a file, from the id `k` (SystusWriter.cpp 2276, 2291, 2316, 2349, 2381: `size() + 1` when the matrix is added;
SystusAsc.cpp 182-183). -/
def allLines : Nat → List Matrix → List Line
  | _, [] => []
  | k, m :: ms => matrixLines k m ++ allLines (k + 1) ms

/-- `operator<<` of the matrices (SystusAsc.cpp 173-190) and the end of line after it (SystusWriter.cpp 3368, 3383, 3398). -/
def fileLines (nbDOFS : Nat) (ms : List Matrix) : List Line :=
  List.replicate 11 [0] ++ [[(nbDOFS : Dbl)]] ++ List.replicate 9 [0] ++ allLines 1 ms ++ matrixLines 0 (Matrix.new 0 0) ++ [[], []]

/-- The access ids (SystusWriter.cpp 97-99). -/
def accessId : MatrixKind → Nat
  | .DAMPING => 41
  | .MASS => 42
  | .STIFFNESS => 43

/-- The end of the name of a file (SystusWriter.cpp 3363, 3378, 3393). -/
def suffix : MatrixKind → List Char
  | .DAMPING => "_DAMGEN".toList
  | .MASS => "_MASGEN".toList
  | .STIFFNESS => "_STIGEN".toList

/-- The name of the file of a subcase, without `.ASC` (SystusWriter.cpp 3370, 3385, 3400). -/
def fileName (model : List Char) (idSubcase : Nat) (k : MatrixKind) : List Char :=
  model ++ "_SC".toList ++ Med.decimal (idSubcase + 1) ++ suffix k

/-- The files, with their names in the order of writing, and `filebyAccessId`. -/
structure State where
  files : List (List Char × List Line)
  byAccess : Map Nat (List Char)

/-- One of the three parts of `writeMatrixFiles` (SystusWriter.cpp 3359-3371, 3374-3386, 3389-3401). The file is opened. -/
def writeKind (model : List Char) (nbDOFS idSubcase : Nat) (mats : MatrixKind → List Matrix) (s : State) (k : MatrixKind) : State :=
  if (mats k).length > 0 then
    ⟨s.files ++ [(fileName model idSubcase k ++ ".ASC".toList, fileLines nbDOFS (mats k))],
      s.byAccess.set (accessId k) (fileName model idSubcase k)⟩
  else s

/-- `writeMatrixFiles` (SystusWriter.cpp 3356-3402). -/
def writeMatrixFiles (model : List Char) (nbDOFS idSubcase : Nat) (mats : MatrixKind → List Matrix) (s : State) : State :=
  let s := writeKind model nbDOFS idSubcase mats s .DAMPING
  let s := writeKind model nbDOFS idSubcase mats s .MASS
  writeKind model nbDOFS idSubcase mats s .STIFFNESS

/-- A line `!filematrix ASC2BIN source target` with the line `ASSIGN number target BINARY` after it (SystusWriter.cpp 3108-3109). -/
structure Access where
  number : Nat
  source : List Char
  converted : List Char
  assigned : List Char
  deriving DecidableEq

/-- The part of `writeDat` for the files (SystusWriter.cpp 3094-3114): none for a subcase without analyses (3096-3098), or when
the matrices are not in files (3101). -/
def accesses (file : Bool) (analyses : List Nat) (byAccess : Map Nat (List Char)) : List Access :=
  if analyses.length = 0 then []
  else if file then
    byAccess.map fun it => ⟨it.1, it.2 ++ ".ASC".toList, it.2 ++ ".TIT".toList, it.2 ++ ".TIT".toList⟩
  else []

/-- The loop over the subcases (SystusWriter.cpp 375-410), from the subcase `i`: the matrices are filled again for each (2456-2458), from
the same element sets, and `filebyAccessId` is never emptied (2416-2452). Without the mode `file` there are no matrices (2259-2261).
The access lines of each subcase are the result. -/
def subcases (model : List Char) (nbDOFS : Nat) (file : Bool) (mats : MatrixKind → List Matrix) :
    Nat → List (List Nat) → State → State × List (List Access)
  | _, [], s => (s, [])
  | i, as :: rest, s =>
    let s := writeMatrixFiles model nbDOFS i (if file then mats else fun _ => []) s
    let (t, r) := subcases model nbDOFS file mats (i + 1) rest s
    (t, accesses file as s.byAccess :: r)

end MatrixFiles
end Vega
