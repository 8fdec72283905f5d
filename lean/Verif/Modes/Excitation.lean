import Verif.Basic
import Verif.Num

/-! # Dynamic excitations: `DAREA`, `DELAY`, `DPHASE`, `LSEQ`, `RLOAD1`, `RLOAD2` (`Nastran/NastranParser.cpp` 1337-1380,
1469-1487, 1836-1849, 3243-3433), and what is written for Code_Aster (`Aster/AsterWriter.cpp` 2597-2612, 2638-2657, 2852-2890,
2982-3000) and Systus (`Systus/SystusWriter.cpp` 1318-1367) -/
namespace Vega
namespace Excitation

/-- The value of a `DynaPhase` (Value.h 376-379). The number kept is `-2 π τ` for a delay (NastranParser.cpp 1377, 3285, 3367) and
the phase in degrees for a phase (1484, 3292, 3374). -/
inductive Phase where
  | delay (tau : Dbl)
  | degrees (theta : Dbl)
deriving DecidableEq

/-- A delay or a phase of an `RLOAD`: its own value, or the number of a card (NastranParser.cpp 3247-3261, 3331-3345); the number 0 is the
own value 0. -/
inductive PhaseRef where
  | own (p : Phase)
  | card (id : Int)
deriving DecidableEq

/-- The types of sets that an excitation may refer to. -/
inductive Kind where
  | load | excite
deriving DecidableEq

/-- `DynamicExcitationType`. -/
inductive Motion where
  | load | displacement | velocity | acceleration
deriving DecidableEq

/-- `DynamicExcitation` (Loading.cpp 802-808). A table number 0 is no table. -/
structure Excit where
  delay : PhaseRef
  phase : PhaseRef
  tableB : Int
  tableP : Int
  target : Kind × Int
  motion : Motion
deriving DecidableEq

/-- The fields of an `RLOAD1` or `RLOAD2`; `tableP` stands for `TP`, and for `TD` in an `RLOAD1`. -/
structure RLoad where
  excite : Int
  delay : PhaseRef
  phase : PhaseRef
  tableB : Int
  tableP : Int
  motion : Motion

/-- The cards, in the order of the file. `load` stands for every card that creates the set `LOAD` of that number. The tables and the
sets `DLOAD` are left out. -/
inductive Card where
  | load (id : Int)
  | darea (id : Int)
  | lseq (set darea load : Int)
  | delay (id : Int) (tau : Dbl)
  | dphase (id : Int) (theta : Dbl)
  | rload1 (r : RLoad)
  | rload2 (r : RLoad)

/-- The part of the model that the cards change: the sets `LOAD` and `EXCITEID`, the sets `LOADSET` in the order of
their creation with the loads they embed, the `DynaPhase` with a number, the excitations. -/
structure State where
  loads : List Int
  excites : List Int
  loadsets : List (Int × List Int)
  phases : List (Int × Phase)
  excits : List Excit

/-- The model when the bulk section begins: the case control section has created the sets that `LOADSET` selects, without loads
(NastranParser.cpp 866-873). -/
def init (selected : List Int) : State := ⟨[], [], selected.map fun i => (i, []), [], []⟩

/-- `parseLSEQ` (NastranParser.cpp 1836-1849). The number of the `DAREA` is not used. -/
def addLseq (set load : Int) : List (Int × List Int) → List (Int × List Int)
  | [] => [(set, [load])]
  | (i, ls) :: r => if i = set then (i, ls ++ [load]) :: r else (i, ls) :: addLseq set load r

/-- `Container::add` of a `DynaPhase` (Model.h 549-580): a second one with the number is an error that ends the program. -/
def addPhase (id : Int) (p : Phase) (s : State) : Outcome State :=
  if id ∈ s.phases.map Prod.fst then .throw else .ok { s with phases := s.phases ++ [(id, p)] }

/-- The set that an `RLOAD2` without `LSEQ` refers to (NastranParser.cpp 3385, 3395-3400). -/
def plain (s : State) (id : Int) : Kind × Int := if id ∈ s.loads then (.load, id) else (.excite, id)

/-- The set that an `RLOAD2` refers to (NastranParser.cpp 3385-3400): it depends on the cards read before. With a set `LOADSET`
the first load of the first of them is taken; it may not exist. -/
def resolve (s : State) (id : Int) : Outcome (Kind × Int) :=
  match s.loadsets with
  | [] => .ok (plain s id)
  | (_, ls) :: _ =>
    if id ∈ s.excites then .ok (plain s id)
    else match ls with
      | [] => .ub
      | l :: _ => .ok (.load, l)

/-- One card. An `RLOAD1` with a table `TD` is skipped outside of strict mode (NastranParser.cpp 3265-3266), in strict mode it is an
error; the set `EXCITEID` is created by the others (3301). -/
def step (strict : Bool) (s : State) : Card → Outcome State
  | .load id => .ok { s with loads := id :: s.loads }
  | .darea id => .ok { s with excites := id :: s.excites }
  | .lseq set _ l => .ok { s with loadsets := addLseq set l s.loadsets }
  | .delay id tau => addPhase id (.delay tau) s
  | .dphase id theta => addPhase id (.degrees theta) s
  | .rload1 r =>
    if r.tableP ≠ 0 then (if strict then .throw else .ok s)
    else .ok { s with
      excites := r.excite :: s.excites
      excits := s.excits ++ [⟨r.delay, r.phase, r.tableB, 0, (.excite, r.excite), r.motion⟩] }
  | .rload2 r => (resolve s r.excite).bind fun t => .ok { s with
      excits := s.excits ++ [⟨r.delay, r.phase, r.tableB, r.tableP, t, r.motion⟩] }

/-- All cards, in order. -/
def run (strict : Bool) : List Card → State → Outcome State
  | [], s => .ok s
  | c :: cs, s => (step strict s c).bind (run strict cs)

/-- `getDynaPhase` and `getDynaDelay` (Loading.cpp 810-816), in the finished model. -/
def phaseOf (s : State) : PhaseRef → Option Phase
  | .own p => some p
  | .card id => (s.phases.find? fun q => q.1 = id).map Prod.snd

/-- `getLoadSet` finds a set (Loading.cpp 827-829). -/
def targetExists (s : State) (e : Excit) : Bool :=
  match e.target.1 with
  | .load => e.target.2 ∈ s.loads
  | .excite => e.target.2 ∈ s.excites

/-- `validate` (Loading.cpp 856-859), for tables that exist. -/
def valid (s : State) (e : Excit) : Bool :=
  targetExists s e && (phaseOf s e.phase).isSome && (phaseOf s e.delay).isSome

/-! ## Code_Aster -/

/-- What is written for an excitation: the set in `CHARGE` (AsterWriter.cpp 2607-2608, 2819-2820), `FONC_MULT`, `PHAS_DEG`, and
`TYPE_VECT` in modal responses. -/
structure AsterExcit where
  set : Kind × Int
  foncMult : Int
  phasDeg : Phase
  typeVect : Option Motion
deriving DecidableEq

/-- `EXCIT` (AsterWriter.cpp 2640-2652 direct, 2863-2884 and 2984-2996 modal); a missing phase is a null pointer. -/
def writeAster (modal : Bool) (s : State) (e : Excit) : Outcome AsterExcit :=
  match phaseOf s e.phase with
  | none => .ub
  | some p => .ok ⟨e.target, e.tableB, p, if modal then some e.motion else none⟩

/-! ## Systus -/

/-- The nodal forces written for an excitation (SystusWriter.cpp 1318-1366): `forces` are the forces of the set, `table` the values
of the table `B`. In the direct method the first value of the table is read but not used (1344). Delay, phase and phase table are
dismissed. -/
def writeSystus (direct : Bool) (forces : List Dbl) (table : List Dbl) (e : Excit) : Outcome (List Dbl) :=
  match e.target.1 with
  | .load => .ok []
  | .excite =>
    if direct then
      match table with
      | [] => .ub
      | _ :: _ => .ok forces
    else .ok forces

end Excitation
end Vega
