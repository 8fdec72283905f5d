import Verif.NastranWrite.Bush
import Verif.NastranWrite.Rigid

/-! # The cards of OptiStruct: SET, SURF and CONTACT (`Optistruct/OptistructParser.cpp` 85-179), and SURF and CONTACT as they are
written (`Nastran/NastranWriter.cpp` 520-561) -/
namespace Vega
namespace Optistruct
open Nastran NastranWrite

/-! ## SET -/

/-- What a card SET adds to the model: the set value of its number, the group `SET_<number>` of nodes or of cells, or the search of
frequencies of its number. -/
inductive SetRead where
  | grid (sid : Int) (value : List Int) (nodes : List Int)
  | elem (sid : Int) (value : List Int) (cells : List Int)
  | freq (sid : Int) (values : List Dbl)

/-- `skipToNotEmpty` with as many turns as there are fields. -/
def toNotEmpty (c : Cursor) : Outcome Cursor := skipToNotEmpty (c.fields.length + 1) c

/-- The inner loop of frequencies (OptistructParser.cpp 141-143), at most `fuel` turns. -/
def reals : Nat → List Dbl → Cursor → Outcome (List Dbl × Cursor)
  | 0, _, _ => .diverges
  | fuel + 1, acc, c => do
    if ← isNextDouble c then
      let (x, c) ← nextDouble none c
      reals fuel (acc ++ [x]) c
    else .ok (acc, c)

/-- The outer loop (OptistructParser.cpp 140-145), at most `fuel` turns. -/
def frequencies : Nat → List Dbl → Cursor → Outcome (List Dbl × Cursor)
  | 0, _, _ => .diverges
  | fuel + 1, acc, c =>
    if isEmptyUntilNextKeyword c then .ok (acc, c)
    else do
      let (acc, c) ← reals (c.fields.length + 1) acc c
      let c ← toNotEmpty c
      frequencies fuel acc c

/-- `parseSET` (OptistructParser.cpp 103-159). In the branch of cells the numbers are read twice: 128, 132. -/
def parseSET (c : Cursor) : Outcome (SetRead × Cursor) := do
  let (sid, c) ← nextInt none c
  let (type, c) ← nextString none c
  let (subtype, c) ← nextString (some "LIST".toList) c
  let c ← toNotEmpty c
  if subtype ≠ "LIST".toList then .throw
  else if type = "GRID".toList then
    let (ids, c) ← nextInts c
    let c ← toNotEmpty c
    .ok (.grid sid ids ids, skipToNextKeyword c)
  else if type = "ELEM".toList then
    let (ids, c) ← nextInts c
    let (again, c) ← nextInts c
    let c ← toNotEmpty c
    .ok (.elem sid ids again, skipToNextKeyword c)
  else if type = "FREQ".toList then
    let (values, c) ← frequencies (c.fields.length + 1) [] c
    .ok (.freq sid values, skipToNextKeyword c)
  else .throw

/-! ## SURF -/

/-- `ElementFaceByTwoNodes` (Target.h 148-155). -/
structure Face where
  cell : Int
  node1 : Int
  node2 : Int
  swap : Bool
  deriving DecidableEq

/-- The loop of `parseSURF` (OptistructParser.cpp 168-176), at most `fuel` turns. -/
def surfLoop : Nat → Cursor → Outcome (List Face × Cursor)
  | 0, _ => .diverges
  | fuel + 1, c =>
    if isEmptyUntilNextKeyword c then .ok ([], c)
    else do
      let c ← toNotEmpty c
      let (cell, c) ← nextInt none c
      let (n1, c) ← nextInt (some unavailableInt) c
      let (n2, c) ← nextInt (some unavailableInt) c
      let (normal, c) ← nextInt (some 0) c
      let (fs, c) ← surfLoop fuel c
      .ok (⟨cell, n1, n2, decide (normal = 1)⟩ :: fs, c)

/-- `parseSURF` (OptistructParser.cpp 161-179): the number and the faces. Each turn of the loop reads at least one field. -/
def parseSURF (c : Cursor) : Outcome ((Int × List Face) × Cursor) := do
  let (sid, c) ← nextInt none c
  let i ← isNextInt c
  let c ← if i then .ok c else skip 1 c
  let (fs, c) ← surfLoop (c.fields.length + 1) c
  .ok ((sid, fs), c)

/-- The fields of SURF (NastranWriter.cpp 527-536, 541-550). -/
def surfArgs (number : Int) (fs : List Face) : List Arg :=
  .int number :: .text "ELFACE".toList :: List.replicate 6 .blank ++
    fs.flatMap fun f => .int f.cell :: .int f.node1 :: .int f.node2 :: List.replicate 5 .blank

/-! ## CONTACT -/

/-- A contact: the number on the card, the surfaces of the master and of the slave. -/
structure Contact where
  number : Int
  master : Int
  slave : Int
  deriving DecidableEq

/-- `parseCONTACT` (OptistructParser.cpp 85-101): the type is read and not used. -/
def parseCONTACT (c : Cursor) : Outcome (Contact × Cursor) := do
  let (ctid, c) ← nextInt none c
  let (_, c) ← nextString none c
  let (ssid, c) ← nextInt none c
  let (msid, c) ← nextInt none c
  .ok (⟨ctid, msid, ssid⟩, c)

/-- The fields of CONTACT (NastranWriter.cpp 554-558), the number being that of the set of constraints. -/
def contactArgs (k : Contact) : List Arg := [.int k.number, .text "SLIDE".toList, .int k.slave, .int k.master]

/-- A contact with its two surfaces as it is written (NastranWriter.cpp 522-561). -/
def contactCards (k : Contact) (master slave : List Face) : List (Text × List Arg) :=
  [("SURF".toList, surfArgs k.slave slave), ("SURF".toList, surfArgs k.master master), ("CONTACT".toList, contactArgs k)]

end Optistruct
end Vega
