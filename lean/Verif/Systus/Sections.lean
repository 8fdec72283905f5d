import Verif.Systus.Loads
import Verif.Case.Write

/-! # The file of data of Systus: header, informations, and the sections of nodes, loads, lists and vectors
(`Systus/SystusWriter.cpp` 1015-1050, 2454-2471, 2475-2642, 2982-3025)

The numbers of a line are given as numbers; of the lines of the loads, which carry text, the characters are given. Lines of nodes
are restricted to the number of the node and the two lists (C136 has the others); of the elements only the list (C115). -/
namespace Vega
namespace SystusSections
open SystusLoads
open Nastran (Line)
open NastranWrite (showNat)
open Case (showInt)

/-- What is read besides the analyses: `systusOption` is `SHELL` or else `CONTINUOUS`, `systusSubOption` is `MULTI` or else `NONE`
(SystusAsc.h 125-132); the ids of the nodes by position and of the cells; the rotational nodes; `getLabel()` of an analysis and
`bestId()` of a set of loads; the vectors that `fillCoordinatesVectors` adds (C136). -/
structure Config where
  shell : Bool
  multi : Bool
  nodes : List Int
  cells : List Int
  rot : Nat → Option Nat
  label : Int → Line
  best : Int → Int
  axes : List (List Dbl)

/-- `nbDOFS` (SystusWriter.cpp 552-561). -/
def Config.dofs (c : Config) : Nat := if c.shell then 6 else 3

/-- The number of the option (SystusAsc.h 125-128). -/
def Config.option (c : Config) : Nat := if c.shell then 3 else 4

/-- The number of the other option (SystusAsc.h 129-132). -/
def Config.subOption (c : Config) : Nat := if c.multi then 3 else 0

/-! ## Names of the load cases -/

/-- The suffix of a set of loads (SystusWriter.cpp 1037). -/
def suffix (best : Int) : Line := "_LOAD".toList ++ showInt best

/-- The name of a set of loads of an analysis (SystusWriter.cpp 1038). The suffix has at most sixteen characters, so that the
subtraction does not wrap around. -/
def name (label : Line) (best : Int) : Line := label.take (80 - (suffix best).length) ++ suffix best

/-- The names of the load cases of an analysis (SystusWriter.cpp 1032-1048). -/
def namesOf (c : Config) (a : Analysis) : List Line :=
  match a.loadSets with
  | [] => [(c.label a.id).take 80]
  | ls => ls.map fun l => name (c.label a.id) (c.best l.id)

/-- `localLoadingListName` (SystusWriter.cpp 1017, 1022-1049), a map from increasing numbers. -/
def titles (c : Config) (as : List Analysis) : List (Nat × Line) :=
  ((as.flatMap (namesOf c)).zipIdx 1).map fun e => (e.2, e.1)

/-! ## Sections -/

/-- The third line of the header (SystusWriter.cpp 2533-2540). -/
def header (c : Config) (loads : Nat) : List Nat :=
  [100000, c.option, c.nodes.length, c.cells.dedup.length, loads, c.dofs, 2 * c.dofs * max 1 loads, 0, 0]

/-- `ncode` (SystusWriter.cpp 2570-2574). -/
def ncodes (c : Config) : List Nat :=
  ((((List.replicate 20 0).set 0 c.option).set 3 2).set 11 1).set 13 c.subOption

/-- `lcode` (SystusWriter.cpp 2582-2596). -/
def lcodes (c : Config) (loads lists vectors : Nat) : List Nat :=
  (((((((((((List.replicate 40 0).set 0 loads).set 1 c.nodes.length).set 3 c.cells.dedup.length).set 6 lists).set 7 vectors).set 10
    c.dofs).set 11 c.dofs).set 12 (c.dofs * c.dofs)).set 13 3).set 17 (c.dofs * c.dofs)).set 22 (2 * c.dofs * max loads 1) |>.set 36 2

/-- The title of the informations (SystusWriter.cpp 2548-2567): `program` is the text with the version of the program, `date` has ten
characters. `sizeleft` is unsigned, of 64 bits: it wraps around. -/
def title (program input date : Line) (subcase : Nat) : Line :=
  let s := " SC".toList ++ showNat (subcase + 1) ++ " ".toList
  let used := s.length + date.length + program.length
  program ++ input.take (if used ≤ 80 then 80 - used else 2 ^ 64 + 80 - used) ++ s ++ date

/-- The number found in a map of lists, or 0 (SystusWriter.cpp 2623-2630, 2872-2875). -/
def listOf {α : Type} [DecidableEq α] (l : List (α × Nat × List Nat)) (x : α) : Nat :=
  match l.find? fun e => e.1 == x with
  | some e => e.2.1
  | none => 0

/-- A line of a load case (SystusWriter.cpp 2988-2991). -/
def loadLine (n : Nat) (title : Line) (volume : Nat) : Line :=
  showNat n ++ " \"".toList ++ title ++ "\"".toList ++ " 0 ".toList ++ showNat volume ++ " 0 0 0 0 0 7".toList

/-- The lines of the lists (SystusWriter.cpp 3002-3008): the number of the list, then its content. -/
def listLines (l : Lists) : List (List Nat) :=
  (l.node.map fun e => e.2.1 :: e.2.2) ++ (l.cell.map fun e => e.2.1 :: e.2.2) ++ l.constr.map fun e => e.2.1 :: e.2.2

/-- The numbers of a file. The first number of a pair is the one that is announced. A line of a node has the id, the list of loads
and the list of imposed values; a line of an element its id and its list. -/
structure Asc where
  header : List Nat
  ncodes : List Nat
  lcodes : List Nat
  nodes : Nat × List (Int × Nat × Nat)
  elements : List (Int × Nat)
  loads : Nat × List Line
  lists : (Nat × Nat) × List (List Nat)
  vectors : Nat × List (Nat × List Dbl)

/-- The vectors of the loads and constraints, then those of the axes (SystusWriter.cpp 1646-1652). -/
def allVectors (c : Config) (as : List Analysis) : Outcome State :=
  (fillVectors c.shell c.rot as).bind fun s => .ok (c.axes.foldl State.push s.restart)

/-- `writeNodes` (SystusWriter.cpp 2605-2642). -/
def nodeLines (c : Config) (l : Lists) : Nat × List (Int × Nat × Nat) :=
  (c.nodes.length, c.nodes.zipIdx.map fun e => (e.1, listOf l.node e.2, listOf l.constr e.2))

/-- `writeLoads` (SystusWriter.cpp 2982-2995). `operator[]` gives 0 for a load case without volume load. -/
def writeLoads (c : Config) (as : List Analysis) (s : State) : Nat × List Line :=
  ((titles c as).length, (titles c as).map fun e => loadLine e.1 e.2 (volumeOf e.1 s.volume))

/-- `writeLists` (SystusWriter.cpp 2997-3014). -/
def writeLists (l : Lists) : (Nat × Nat) × List (List Nat) :=
  (((listLines l).length, (listLines l).foldl (fun n x => n + (x.length - 1) / 2) 0), listLines l)

/-- `writeVectors` (SystusWriter.cpp 3016-3025). -/
def writeVectors (s : State) : Nat × List (Nat × List Dbl) := (s.vectors.length, s.vectors)

/-- `translate` and `writeAsc` (SystusWriter.cpp 2454-2471, 2475-2528). -/
def write (c : Config) (as : List Analysis) : Outcome Asc :=
  (allVectors c as).bind fun s =>
    let l := fillLists s
    .ok ⟨header c (titles c as).length, ncodes c, lcodes c (titles c as).length (listLines l).length s.vectors.length,
      nodeLines c l, c.cells.map fun i => (i, listOf l.cell i), writeLoads c as s, writeLists l, writeVectors s⟩

end SystusSections
end Vega
