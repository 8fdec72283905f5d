import Verif.NastranWrite.Masses

/-! # Springs and dampers: reading (`Nastran/NastranParser.cpp` 2410-2536) and writing (`Nastran/NastranWriter.cpp` 869-888)
of the card PBUSH -/
namespace Vega
namespace NastranWrite
open Nastran

/-- `skipToNotEmpty` (NastranTokenizer.cpp 431-434), at most `n` turns. -/
def skipToNotEmpty : Nat → Cursor → Outcome Cursor
  | 0, _ => .diverges
  | n + 1, c => do
    if ← isNextEmpty 1 c then
      let c ← skip 1 c
      skipToNotEmpty n c
    else .ok c

/-- A stiffness of PBUSH (NastranParser.cpp 2442-2489, the same six times); an error stops the card. -/
def bushStiffness (c : Cursor) : Outcome (Dbl × Cursor) := do
  let d ← isNextDouble c
  let e ← if d then .ok true else isNextEmpty 1 c
  if e then nextDouble (some 0) c
  else
    let (s, c) ← nextString none c
    if s = "RIGID".toList then .ok (dblMax, c) else .throw

/-- `n` values, one after the other. -/
def bushValues (read : Cursor → Outcome (Dbl × Cursor)) : Nat → Cursor → Outcome (List Dbl × Cursor)
  | 0, c => .ok ([], c)
  | n + 1, c => do
    let (v, c) ← read c
    let (vs, c) ← bushValues read n c
    .ok (v :: vs, c)

/-- The values kept while PBUSH is read: `k1` to `k6` and `b1` to `b6`. The other values have no influence
(NastranParser.cpp 2511-2520). -/
structure BushValues where
  k : List Dbl
  b : List Dbl
  deriving DecidableEq

/-- What follows a flag (NastranParser.cpp 2440-2508); a warning does not stop the card. -/
def bushFlag (flag : Nastran.Line) (v : BushValues) (c : Cursor) : Outcome (BushValues × Cursor) :=
  if flag = "K".toList then do
    let (k, c) ← bushValues bushStiffness 6 c
    .ok ({ v with k := k }, c)
  else if flag = "B".toList then do
    let (b, c) ← bushValues (nextDouble (some 0)) 6 c
    .ok ({ v with b := b }, c)
  else if flag = "GE".toList then do
    let (_, c) ← bushValues (nextDouble (some 0)) 6 c
    .ok (v, c)
  else if flag = "RCV".toList then do
    let (_, c) ← bushValues (nextDouble (some 1)) 4 c
    .ok (v, c)
  else .ok (v, c)

/-- The loop of `parsePBUSH` (NastranParser.cpp 2437-2510), at most `n` turns: every turn takes at least one field. -/
def bushLoop : Nat → BushValues → Cursor → Outcome (BushValues × Cursor)
  | 0, _, _ => .diverges
  | n + 1, v, c =>
    if isEmptyUntilNextKeyword c then .ok (v, c)
    else do
      let c ← skipToNotEmpty (c.fields.length + 1) c
      let (flag, c) ← nextString none c
      let (v, c) ← bushFlag flag v c
      bushLoop n v c

/-- The calls of `addStiffness` and `addDamping` (NastranParser.cpp 2519-2531). -/
def bushAdd (q : Quantity) : List (Dof × Dbl) → StructuralSegment → Outcome StructuralSegment
  | [], s => .ok s
  | (d, x) :: l, s => do
    let s ← s.add q d d x
    bushAdd q l s

/-- The six degrees of freedom in the order of the calls. -/
def bushDofs : List Dof := [.DX, .DY, .DZ, .RX, .RY, .RZ]

/-- What PBUSH adds. -/
structure BushRead where
  id : Int
  segment : StructuralSegment

/-- `parsePBUSH` (NastranParser.cpp 2410-2536). -/
def parsePBUSH (c : Cursor) : Outcome (BushRead × Cursor) := do
  let (pid, c) ← nextInt none c
  let (v, c) ← bushLoop (c.fields.length + 1) ⟨[0, 0, 0, 0, 0, 0], [0, 0, 0, 0, 0, 0]⟩ c
  let s ← bushAdd .stiffness (bushDofs.zip v.k) (StructuralSegment.new .DIAGONAL)
  let s ← bushAdd .damping (bushDofs.zip v.b) s
  .ok (⟨pid, s⟩, c)

/-- `StructuralSegment::hasMass` (Element.cpp 824-826). -/
def segmentHasMass (s : StructuralSegment) : Bool := !(s.matrix .mass).isEmpty && !(s.matrix .mass).isZeroMatrix

/-- The card PBUSH (NastranWriter.cpp 869-888). The field that is an empty string is blank. -/
def pbushArgs (strict : Bool) (id : Int) (s : StructuralSegment) : Outcome (List Arg) :=
  if segmentHasMass s && strict then .throw
  else .ok ([.int id, .int 0, .text "K".toList] ++
    Dofs.ALL_DOFS.toList.map (fun d => .real ((s.matrix .stiffness).findComponent d d)) ++
    [.blank, .text "B".toList] ++
    Dofs.ALL_DOFS.toList.map (fun d => .real ((s.matrix .damping).findComponent d d)))

end NastranWrite
end Vega
