import Verif.Med.Families

/-! # The commands of the analyses written for Code_Aster (`Aster/AsterWriter.cpp` 122-300, 358-642, 644-680, 1440-1580,
2234-2292, 2404-3063): which names they use, define and destroy -/
namespace Vega
namespace Aster
open Med

/-- Names without a number. `missing` is the empty text that a lookup gives for a set without a name, `freqList` a
variable of the writer that ends up in the file as it is (AsterWriter.cpp 2950). -/
inductive PlainTag where
  | MAIL | MODMECA | CHMAT | CAEL | freqList | missing
deriving DecidableEq

/-- Names of sets, with the number of the set (AsterWriter.cpp 1468-1472, 1507-1512, 1572). -/
inductive SetTag where
  | BL | BLF | CHMEC | CHMEF | CN
deriving DecidableEq

/-- Names with the number of an analysis. `bare` is the number by itself (AsterWriter.cpp 2907). -/
inductive Tag where
  | RESU | CRESU | TBLO | uloc | unit | RETB | DEP | LAUTO | RAMP | IRAMP
  | NDDL | RIEL | RIGI | RGEL | RIGE | MAEL | MASS | AMEL | AMOR | AMST
  | MO | MOD | UMO | URESU | IMO | IRESU | JMO | JRESU | pfreq | MOSTA | RESVE | modes
  | NDDLG | MASSG | RIGIG | AMORG | AMMOI | AMMOS | AMMOT | AMMO | efreq | GENE | FSIG | TBCRT | bare
deriving DecidableEq

/-- Names with a number of at least 4 or 5 digits (`setw`): values and lists of frequencies. -/
inductive PadTag where
  | LST | FCT | LSPR | LSIP
deriving DecidableEq

/-- Names with the numbers of an analysis and of something else. -/
inductive SubTag where
  | D | VE | FX | VG
deriving DecidableEq

/-- The names that the commands use. -/
inductive Name where
  | plain (t : PlainTag)
  | set (t : SetTag) (id : Nat)
  | num (t : Tag) (id : Nat)
  | pad (t : PadTag) (id : Nat)
  | two (t : SubTag) (id sub : Nat)
deriving DecidableEq

/-! ## Texts -/

/-- The letters of the names (AsterWriter.cpp 649, 767, 1057, 1089, 2950). -/
def PlainTag.text : PlainTag → Text
  | .MAIL => "MAIL".toList
  | .MODMECA => "MODMECA".toList
  | .CHMAT => "CHMAT".toList
  | .CAEL => "CAEL".toList
  | .freqList => "freqList".toList
  | .missing => "".toList

/-- The letters of the names (AsterWriter.cpp 1468, 1471, 1507, 1510, 1572). -/
def SetTag.text : SetTag → Text
  | .BL => "BL".toList
  | .BLF => "BLF".toList
  | .CHMEC => "CHMEC".toList
  | .CHMEF => "CHMEF".toList
  | .CN => "CN".toList

/-- The letters of the names (the places given at the commands below). -/
def Tag.text : Tag → Text
  | .RESU => "RESU".toList
  | .CRESU => "CRESU".toList
  | .TBLO => "TBLO".toList
  | .uloc => "uloc".toList
  | .unit => "unit".toList
  | .RETB => "RETB".toList
  | .DEP => "DEP".toList
  | .LAUTO => "LAUTO".toList
  | .RAMP => "RAMP".toList
  | .IRAMP => "IRAMP".toList
  | .NDDL => "NDDL".toList
  | .RIEL => "RIEL".toList
  | .RIGI => "RIGI".toList
  | .RGEL => "RGEL".toList
  | .RIGE => "RIGE".toList
  | .MAEL => "MAEL".toList
  | .MASS => "MASS".toList
  | .AMEL => "AMEL".toList
  | .AMOR => "AMOR".toList
  | .AMST => "AMST".toList
  | .MO => "MO".toList
  | .MOD => "MOD".toList
  | .UMO => "UMO".toList
  | .URESU => "URESU".toList
  | .IMO => "IMO".toList
  | .IRESU => "IRESU".toList
  | .JMO => "JMO".toList
  | .JRESU => "JRESU".toList
  | .pfreq => "pfreq".toList
  | .MOSTA => "MOSTA".toList
  | .RESVE => "RESVE".toList
  | .modes => "modes".toList
  | .NDDLG => "NDDLG".toList
  | .MASSG => "MASSG".toList
  | .RIGIG => "RIGIG".toList
  | .AMORG => "AMORG".toList
  | .AMMOI => "AMMOI".toList
  | .AMMOS => "AMMOS".toList
  | .AMMOT => "AMMOT".toList
  | .AMMO => "AMMO".toList
  | .efreq => "efreq".toList
  | .GENE => "GENE".toList
  | .FSIG => "FSIG".toList
  | .TBCRT => "TBCRT".toList
  | .bare => "".toList

/-- The letters of the names (AsterWriter.cpp 804, 836, 866, 881, 2930, 2946). -/
def PadTag.text : PadTag → Text
  | .LST => "LST".toList
  | .FCT => "FCT".toList
  | .LSPR => "LSPR".toList
  | .LSIP => "LSIP".toList

/-- The letters of the names (AsterWriter.cpp 2415, 2600, 2612, 2859). -/
def SubTag.text : SubTag → Text
  | .D => "D".toList
  | .VE => "VE".toList
  | .FX => "FX".toList
  | .VG => "VG".toList

/-- `setw` and `setfill('0')`: at least that many characters. -/
def padded (w n : Nat) : Text := List.replicate (w - (decimal n).length) '0' ++ decimal n

/-- `setw(5)` of lists and functions, `setw(4)` of the lists of frequencies (AsterWriter.cpp 804, 881, 2930, 2946). -/
def PadTag.width : PadTag → Nat
  | .LST => 5
  | .FCT => 5
  | .LSPR => 4
  | .LSIP => 4

/-- The text of a name in the file. -/
def Name.text : Name → Text
  | .plain t => t.text
  | .set t id => t.text ++ decimal id
  | .num t id => t.text ++ decimal id
  | .pad t id => t.text ++ padded t.width id
  | .two t id sub => t.text ++ decimal id ++ '_' :: decimal sub

/-- What a name stands for. -/
inductive Kind where
  | maillage | modele | chamMater | caraElem | charge | contact | resultat | champ | table | unite | listReel | listInst
  | fonction | numeDdl | matrElem | matrAsse | vectElem | vectAsse | numeGene | matrGene | vectGene | harmGene | python
deriving DecidableEq

/-- A command: it defines a name, it only uses names (also with `reuse`), or it destroys some (`DETRUIRE`). `invalid`: text
that is not a command (a keyword given twice, two commas). -/
inductive Cmd where
  | define (n : Name) (k : Kind) (uses : List (Name × Kind))
  | call (uses : List (Name × Kind))
  | destroy (ns : List Name)
  | invalid

/-- A set of constraints as the writer sees it (AsterWriter.cpp 1443-1460, 1535-1541; `hasContacts` Constraint.cpp
120-127). -/
structure ConstraintSet where
  id : Nat
  empty : Bool
  contactOnly : Bool
  hasContacts : Bool
  functions : Bool
deriving DecidableEq

/-- `DynamicExcitation` (Loading.h): its number, the set of the loads, the table that multiplies them. -/
structure Excitation where
  id : Nat
  loadSet : Nat
  table : Nat
deriving DecidableEq

/-- A set of loads as the writer sees it (AsterWriter.cpp 1488-1506). -/
structure LoadSet where
  id : Nat
  dload : Bool
  empty : Bool
  temperatures : Bool
  functions : Bool
  excitations : List Excitation
deriving DecidableEq

/-- What `canReuse` compares besides the constraints (Analysis.cpp 715-720): the method and the search of frequencies. -/
structure Method where
  powerIteration : Bool
  search : Nat
deriving DecidableEq

/-- `FrequencyType` (Objective.h) as far as the writer tells them apart (AsterWriter.cpp 2928-2953, 2968-2977). -/
inductive FrequencyKind where
  | spread | interpolate | other
deriving DecidableEq

/-- `DampingType` (Objective.h): `CRIT` and `G`; other types end the program. -/
inductive DampingKind where
  | crit | g
deriving DecidableEq

/-- The types of analyses with what is particular to them. -/
inductive AnalysisKind where
  /-- The numbers of the combined analyses (`coefByAnalysis`, Analysis.h 182). -/
  | combination (parts : List Nat)
  | linearStatic
  /-- The number of the list of instants; the analysis before, with its sets of loads. -/
  | nonLinear (list : Nat) (previous : Option (Nat × List LoadSet))
  /-- The number of the list of frequencies, and whether there is structural damping (AsterWriter.cpp 2585-2593). -/
  | directFreq (frequencies : Nat) (structural : Bool)
  | modal (method : Method)
  | modalComplex (method : Method)
  /-- The excitation: its number, its type and the number of its value; the damping: its type and its table. -/
  | modalFreq (method : Method) (residual : Bool) (damping : Option (DampingKind × Nat)) (excitId : Nat)
      (excitKind : FrequencyKind) (excitValue : Nat)
  /-- The analysis that gives the stresses (`getStaticSubAnalysis`, Analysis.cpp 655-661). -/
  | buckling (method : Method) (static : Nat)
deriving DecidableEq

/-- Whether an assertion of an analysis is on a frequency: in the range that is kept or not (AsterWriter.cpp 3123-3125). -/
inductive AssertionKind where
  | field | frequency (inRange : Bool)
deriving DecidableEq

/-- `Analysis` with the results of `getLoadSets` and `getConstraintSets`. -/
structure Analysis where
  id : Nat
  kind : AnalysisKind
  loadSets : List LoadSet
  constraintSets : List ConstraintSet
  assertions : List AssertionKind
  /-- There are outputs of displacements. -/
  displacements : Bool
  /-- The numbers of the lists of the outputs of frequencies. -/
  frequencies : List Nat
  /-- Stresses of von Mises are asked for, by the analysis or by the model (AsterWriter.cpp 448-470). -/
  vonMises : Bool
deriving DecidableEq

/-- What the writer asks of the model. -/
structure CommModel where
  constraintSets : List ConstraintSet
  loadSets : List LoadSet
  /-- There are materials, element sets. -/
  materials : Bool
  elements : Bool
  /-- `calc_sigm`. -/
  sigma : Bool
  /-- The local displacements of beams are written (AsterWriter.cpp 381-383). -/
  beams : Bool
  /-- The values that are given a name (AsterWriter.cpp 797-936). -/
  lists : List Nat
  tables : List Nat
  analyses : List Analysis

/-! ## Reuse -/

/-- `isModal` and not `isBuckling`, with what is compared (Analysis.h 225-240). -/
def Analysis.modalMethod (a : Analysis) : Option Method :=
  match a.kind with
  | .modal m => some m
  | .modalComplex m => some m
  | .modalFreq m _ _ _ _ _ => some m
  | _ => none

/-- `canReuse` (Analysis.h 106-108, Analysis.cpp 707-731). -/
def Analysis.canReuse (a b : Analysis) : Bool :=
  match a.kind with
  | .modalFreq m _ _ _ _ _ => decide (b.modalMethod = some m) && decide (b.constraintSets = a.constraintSets)
  | _ => false

/-- The loop of `reusableAnalysisFor` (Model.cpp 835-844). Two analyses are equal when their numbers are (Object.h 182-185;
two analyses of a model do not have the same reference). -/
def reusableIn (a : Analysis) : List Analysis → Option Analysis
  | [] => none
  | b :: bs => if b.id = a.id then none else if a.canReuse b then some b else reusableIn a bs

/-- `reusableAnalysisFor` (Model.cpp 835-844). -/
def CommModel.reusableFor (m : CommModel) (a : Analysis) : Option Analysis := reusableIn a m.analyses

/-- The loop of `canBeReused` (Model.cpp 846-868) over the rest of the analyses; `after` is `isAfter`. -/
def reusedIn (m : CommModel) (a : Analysis) : Bool → List Analysis → Bool
  | _, [] => false
  | isAfter, b :: bs =>
    if b.id = a.id then reusedIn m a true bs
    else if !isAfter then reusedIn m a isAfter bs
    else match m.reusableFor b with
      | none => reusedIn m a isAfter bs
      | some r => if r.id = a.id then true else reusedIn m a isAfter bs

/-- `canBeReused` (Model.cpp 846-868). -/
def CommModel.canBeReused (m : CommModel) (a : Analysis) : Bool := reusedIn m a false m.analyses

/-! ## Names of sets and values -/

/-- `asternameByConstraintSet[…]` once the sets are written (AsterWriter.cpp 1475, 1573): the contacts come last. -/
def ConstraintSet.name (c : ConstraintSet) : Name :=
  if c.empty then .plain .missing
  else if c.hasContacts then .set .CN c.id
  else if c.contactOnly then .plain .missing
  else if c.functions then .set .BLF c.id
  else .set .BL c.id

/-- Sets of loads that are not written (AsterWriter.cpp 1490-1502). -/
def LoadSet.skipped (l : LoadSet) : Bool := l.dload || l.empty || l.temperatures

/-- `asternameByLoadSet[…]` (AsterWriter.cpp 1517). -/
def LoadSet.name (l : LoadSet) : Name :=
  if l.skipped then .plain .missing else if l.functions then .set .CHMEF l.id else .set .CHMEC l.id

/-- `CHAM_MATER=CHMAT` where there are materials. -/
def CommModel.mat (m : CommModel) : List (Name × Kind) := if m.materials then [(.plain .CHMAT, .chamMater)] else []

/-! ## Before the analyses -/

/-- A set of constraints (AsterWriter.cpp 1441-1486). -/
def defineConstraints (c : ConstraintSet) : List Cmd :=
  if c.empty || c.contactOnly then []
  else [.define (.set (if c.functions then .BLF else .BL) c.id) .charge [(.plain .MODMECA, .modele)]]

/-- A set of loads (AsterWriter.cpp 1488-1529). -/
def defineLoads (l : LoadSet) : List Cmd :=
  if l.skipped then [] else [.define l.name .charge [(.plain .MODMECA, .modele)]]

/-- A contact (AsterWriter.cpp 1533-1692). -/
def defineContact (c : ConstraintSet) : List Cmd :=
  if c.empty || !c.hasContacts then [] else [.define (.set .CN c.id) .contact [(.plain .MODMECA, .modele)]]

/-- The commands before the analyses (`writeComm`, AsterWriter.cpp 644-676; 678-705, 767-793, 797-936, 1056-1083,
1086-1092). The materials, the constants of gaps, and the functions that loads use are left out. -/
def prelude (m : CommModel) : List Cmd :=
  [.define (.plain .MAIL) .maillage [], .define (.plain .MODMECA) .modele [(.plain .MAIL, .maillage)]] ++
  (m.lists.map fun v => .define (.pad .LST v) .listReel []) ++
  (m.tables.map fun v => .define (.pad .FCT v) .fonction []) ++
  (if m.materials then [.define (.plain .CHMAT) .chamMater [(.plain .MAIL, .maillage)]] else []) ++
  (if m.elements then [.define (.plain .CAEL) .caraElem [(.plain .MODMECA, .modele)]] else []) ++
  m.constraintSets.flatMap defineConstraints ++ m.loadSets.flatMap defineLoads ++ m.constraintSets.flatMap defineContact

/-! ## An analysis -/

/-- `MODELE`, `CHAM_MATER`, `CARA_ELEM`. -/
def CommModel.common (m : CommModel) : List (Name × Kind) :=
  (.plain .MODMECA, .modele) :: m.mat ++ [(.plain .CAEL, .caraElem)]

/-- `writeAssemblage` (AsterWriter.cpp 2234-2292): `commonparams`. -/
def assemblyUses (m : CommModel) (a : Analysis) : List (Name × Kind) :=
  m.common ++ a.constraintSets.map fun c => (.set .BL c.id, .charge)

/-- `writeAssemblage` (AsterWriter.cpp 2234-2292). -/
def assembly (m : CommModel) (a : Analysis) (buckling : Bool) : List Cmd :=
  let i := a.id
  [.define (.num .NDDL i) .numeDdl ((.plain .MODMECA, .modele) :: a.constraintSets.map fun c => (.set .BL c.id, .charge)),
   .define (.num .RIEL i) .matrElem (assemblyUses m a),
   .define (.num .RIGI i) .matrAsse [(.num .RIEL i, .matrElem), (.num .NDDL i, .numeDdl)]] ++
  if buckling then
    [.define (.num .RGEL i) .matrElem (m.common ++ [(.num .FSIG i, .champ)]),
     .define (.num .RIGE i) .matrAsse [(.num .RGEL i, .matrElem), (.num .NDDL i, .numeDdl)]]
  else
    [.define (.num .MAEL i) .matrElem (assemblyUses m a),
     .define (.num .MASS i) .matrAsse [(.num .MAEL i, .matrElem), (.num .NDDL i, .numeDdl)],
     .define (.num .AMEL i) .matrElem (assemblyUses m a ++ [(.num .RIEL i, .matrElem), (.num .MAEL i, .matrElem)]),
     .define (.num .AMOR i) .matrAsse [(.num .AMEL i, .matrElem), (.num .NDDL i, .numeDdl)]]

/-- What `writeAssemblage` makes destroyable (AsterWriter.cpp 2258-2262, 2273-2276, 2285-2290). -/
def assemblyDestroyed (m : CommModel) (a : Analysis) (buckling : Bool) : List Name :=
  if m.canBeReused a then []
  else [.num .NDDL a.id, .num .RIEL a.id, .num .RIGI a.id] ++
    if buckling then [.num .RGEL a.id, .num .RIGE a.id]
    else [.num .MAEL a.id, .num .MASS a.id, .num .AMEL a.id, .num .AMOR a.id]

/-- The dynamic excitations of an analysis: the loops at AsterWriter.cpp 2596-2597, 2636-2638, 2804-2806, 2855-2857,
2980-2982. -/
def Analysis.excitations (a : Analysis) : List Excitation := a.loadSets.flatMap (·.excitations)

/-- The vectors of an excitation (AsterWriter.cpp 2599-2614, 2808-2826); `d` is the analysis that has the numbering. -/
def excitationVectors (m : CommModel) (i d : Nat) (x : Excitation) : List Cmd :=
  [.define (.two .VE i x.id) .vectElem (m.mat ++ [(.plain .CAEL, .caraElem), (.set .CHMEC x.loadSet, .charge)]),
   .define (.two .FX i x.id) .vectAsse [(.two .VE i x.id, .vectElem), (.num .NDDL d, .numeDdl)]]

/-- What the vectors of an excitation make destroyable (AsterWriter.cpp 2611, 2614, 2823, 2826). -/
def excitationDestroyed (i : Nat) (x : Excitation) : List Name := [.two .VE i x.id, .two .FX i x.id]

/-- `COMBINATION` (AsterWriter.cpp 2412-2447). -/
def combination (i : Nat) (parts : List Nat) : List Cmd :=
  (parts.map fun p => .define (.two .D i p) .champ [(.num .RESU p, .resultat)]) ++
  [.define (.num .DEP i) .champ ((.plain .MODMECA, .modele) :: parts.map fun p => (.two .D i p, .champ)),
   .define (.num .RESU i) .resultat
     [(.num .DEP i, .champ), (.plain .MODMECA, .modele), (.plain .CHMAT, .chamMater)]]

/-- `LINEAR_MECA_STAT` (AsterWriter.cpp 2448-2473). -/
def linearStatic (m : CommModel) (a : Analysis) : List Cmd :=
  [.define (.num .RESU a.id) .resultat (m.common ++ (a.loadSets.map fun l => (l.name, .charge)) ++
    (a.constraintSets.filter fun c => !c.empty).map fun c => (c.name, .charge))]

/-- The sets with contacts of the model (AsterWriter.cpp 2522-2531). -/
def CommModel.contacts (m : CommModel) : List ConstraintSet := m.constraintSets.filter fun c => !c.empty && c.hasContacts

/-- The loads of the analysis before (AsterWriter.cpp 2501-2506, 2571-2573). -/
def previousUses (i : Nat) : Option (Nat × List LoadSet) → List (Name × Kind)
  | none => []
  | some p => (p.2.flatMap fun l => [(l.name, .charge), (.num .IRAMP i, .fonction)]) ++ [(.num .RESU p.1, .resultat)]

/-- `IRAMP` (AsterWriter.cpp 2489-2493). -/
def previousRamp (i : Nat) : Option (Nat × List LoadSet) → List Cmd
  | none => []
  | some _ => [.define (.num .IRAMP i) .fonction []]

/-- `NONLINEAR_MECA_STAT` (AsterWriter.cpp 2474-2579): `CONTACT` is written for each contact. The
number of increments is not zero (otherwise the list has no name, AsterWriter.cpp 866-869). -/
def nonLinear (m : CommModel) (a : Analysis) (list : Nat) (previous : Option (Nat × List LoadSet)) : List Cmd :=
  let i := a.id
  [.define (.pad .LST list) .listReel [], .define (.num .LAUTO i) .listInst [(.pad .LST list, .listReel)],
   .define (.num .RAMP i) .fonction []] ++ previousRamp i previous ++
  if 1 < m.contacts.length then [.invalid]
  else [.define (.num .RESU i) .resultat (m.common ++ previousUses i previous ++
    (a.loadSets.flatMap fun l => [(l.name, .charge), (.num .RAMP i, .fonction)]) ++
    ((a.constraintSets.filter fun c => !c.hasContacts && !c.empty).map fun c => (c.name, .charge)) ++
    (m.contacts.map fun c => (c.name, .contact)) ++ [(.num .LAUTO i, .listInst), (.pad .LST list, .listReel)])]

/-- `LINEAR_DYNA_DIRECT_FREQ` (AsterWriter.cpp 2580-2659). -/
def directFreq (m : CommModel) (a : Analysis) (frequencies : Nat) (structural : Bool) : List Cmd :=
  let i := a.id
  assembly m a false ++
  (if structural then [.define (.num .AMST i) .matrAsse [(.num .RIGI i, .matrAsse)]] else []) ++
  a.excitations.flatMap (excitationVectors m i i) ++
  [.define (.num .RESU i) .resultat ([(.num .MASS i, .matrAsse), (.num .RIGI i, .matrAsse),
    (.num (if structural then .AMST else .AMOR) i, .matrAsse), (.pad .LST frequencies, .listReel)] ++
    a.excitations.flatMap fun x => [(.two .FX i x.id, .vectAsse), (.pad .FCT x.table, .fonction)])]

/-- The computation of the modes (AsterWriter.cpp 2672-2716); `u`, `r`, `t`, `j`: `U…`, `…`, `I…`, `J…`. -/
def modesOf (m : CommModel) (a : Analysis) (u r t j : Tag) : List Cmd :=
  let i := a.id
  assembly m a false ++
  [.define (.num u i) .resultat [(.num .RIGI i, .matrAsse), (.num .MASS i, .matrAsse)],
   .define (.num r i) .resultat [(.num u i, .resultat)],
   .define (.num t i) .table [(.num r i, .resultat)], .call [(.num t i, .table)],
   .define (.num j i) .table [(.num r i, .resultat)], .call [(.num j i, .table)]]

/-- The name of the modes that are reused (AsterWriter.cpp 2717-2721). -/
def reusedName (r : Analysis) : Name :=
  match r.kind with
  | .modal _ => .num .RESU r.id
  | _ => .num .MOD r.id

/-- The basis of the modes (AsterWriter.cpp 2742-2802); `r`: the modes, `d`: the analysis that has the matrices. -/
def basis (i d : Nat) (r : Name) (residual : Bool) : List Cmd :=
  if residual then
    [.define (.num .MOSTA i) .resultat [(.num .RIGI d, .matrAsse), (.num .MASS d, .matrAsse)],
     .define (.num .RESVE i) .resultat
       [(r, .resultat), (.num .MOSTA i, .resultat), (.num .NDDL d, .numeDdl), (.num .RIGI d, .matrAsse)],
     .define (.num .modes i) .resultat [(.num .RESVE i, .resultat)]]
  else [.define (.num .modes i) .resultat [(r, .resultat)]]

/-- The projection (AsterWriter.cpp 2831-2889): the names given by `CO` are defined by one command, here one after the
other. -/
def projection (i d : Nat) (damped : Bool) (xs : List Excitation) : List Cmd :=
  [.call ([(.num .modes i, .resultat), (.num .MASS d, .matrAsse), (.num .RIGI d, .matrAsse)] ++
    (if damped then [] else [(.num .AMOR d, .matrAsse)]) ++ xs.map fun x => (.two .FX i x.id, .vectAsse)),
   .define (.num .NDDLG i) .numeGene [], .define (.num .MASSG i) .matrGene [], .define (.num .RIGIG i) .matrGene []] ++
  (if damped then [] else [.define (.num .AMORG i) .matrGene []]) ++
  xs.map fun x => .define (.two .VG i x.id) .vectGene []

/-- The damping (AsterWriter.cpp 2891-2925). -/
def dampingCmds (i : Nat) : Option (DampingKind × Nat) → List Cmd
  | none => []
  | some (k, t) =>
    [.define (.num .AMMOI i) .fonction [(.pad .FCT t, .fonction), (.num .pfreq i, .python)],
     .define (.num .AMMOS i) .fonction
       [((match k with | .crit => .num .AMMOI i | .g => .num .bare i), .fonction)],
     .define (.num .AMMOT i) .table [(.num .AMMOS i, .fonction)],
     .define (.num .AMMO i) .python [(.num .AMMOT i, .table)]]

/-- The list of frequencies (AsterWriter.cpp 2927-2953). -/
def frequencyCmds (i excitId : Nat) : FrequencyKind → List Cmd
  | .spread => [.define (.pad .LSPR excitId) .listReel [(.num .pfreq i, .python)]]
  | .interpolate => [.define (.num .efreq i) .python [(.plain .freqList, .python)],
      .define (.pad .LSIP excitId) .listReel [(.num .efreq i, .python)]]
  | .other => []

/-- The name of the list of frequencies (AsterWriter.cpp 2968-2977). -/
def frequencyName (value : Nat) : FrequencyKind → Name
  | .spread => .pad .LSPR value
  | .interpolate => .pad .LSIP value
  | .other => .pad .LST value

/-- The results in the physical basis (AsterWriter.cpp 3003-3019). With outputs of frequencies the keyword `LIST_FREQ` is
followed by two commas. -/
def physical (i : Nat) (outputs : List Nat) : Cmd :=
  if outputs.isEmpty then .define (.num .RESU i) .resultat [(.num .GENE i, .harmGene)] else .invalid

/-- The computation (AsterWriter.cpp 2955-3021). -/
def harmonic (a : Analysis) (damped : Bool) (frequencies : Name) : List Cmd :=
  let i := a.id
  [.define (.num .GENE i) .harmGene ([(.num .MASSG i, .matrGene), (.num .RIGIG i, .matrGene),
     (if damped then (.num .AMMO i, .python) else (.num .AMORG i, .matrGene)), (frequencies, .listReel)] ++
     a.excitations.flatMap fun x => [(.two .VG i x.id, .vectGene), (.pad .FCT x.table, .fonction)]),
   physical i a.frequencies]

/-- `LINEAR_DYNA_MODAL_FREQ` after the modes `r` of the analysis `d` (AsterWriter.cpp 2740-3023). -/
def response (m : CommModel) (a : Analysis) (d : Nat) (r : Name) (residual : Bool) (damping : Option (DampingKind × Nat))
    (excitId : Nat) (excitKind : FrequencyKind) (excitValue : Nat) : List Cmd :=
  basis a.id d r residual ++ a.excitations.flatMap (excitationVectors m a.id d) ++
  projection a.id d damping.isSome a.excitations ++ dampingCmds a.id damping ++ frequencyCmds a.id excitId excitKind ++
  harmonic a damping.isSome (frequencyName excitValue excitKind)

/-- `LINEAR_BUCKLING` (AsterWriter.cpp 3025-3056). -/
def bucklingCmds (m : CommModel) (a : Analysis) (static : Nat) : List Cmd :=
  let i := a.id
  .define (.num .FSIG i) .champ [(.num .RESU static, .resultat)] :: assembly m a true ++
  [.define (.num .RESU i) .resultat [(.num .RIGI i, .matrAsse), (.num .RIGE i, .matrAsse)],
   .call [(.num .RESU i, .resultat)],
   .define (.num .TBCRT i) .table [(.num .RESU i, .resultat)], .call [(.num .TBCRT i, .table)]]

/-- The list of the frequencies of the modes (AsterWriter.cpp 2729-2730). -/
def pfreqCmd (i : Nat) (r : Name) : Cmd := .define (.num .pfreq i) .python [(r, .resultat)]

/-- `writeAnalysis` (AsterWriter.cpp 2404-3063). Only the analyses of `LINEAR_DYNA_MODAL_FREQ` can reuse others (Analysis.h
106-108, 273). -/
def writeAnalysis (m : CommModel) (a : Analysis) : List Cmd :=
  match a.kind with
  | .combination parts => combination a.id parts
  | .linearStatic => linearStatic m a
  | .nonLinear list previous => nonLinear m a list previous
  | .directFreq frequencies structural => directFreq m a frequencies structural
  | .modal _ => modesOf m a .URESU .RESU .IRESU .JRESU ++ [pfreqCmd a.id (.num .RESU a.id)]
  | .modalComplex _ => modesOf m a .UMO .MO .IMO .JMO ++ [pfreqCmd a.id (.num .MO a.id)]
  | .modalFreq _ residual damping excitId excitKind excitValue =>
    match m.reusableFor a with
    | none => modesOf m a .UMO .MO .IMO .JMO ++ [pfreqCmd a.id (.num .MO a.id)] ++
        response m a a.id (.num .MO a.id) residual damping excitId excitKind excitValue
    | some r => [pfreqCmd a.id (reusedName r)] ++
        response m a r.id (reusedName r) residual damping excitId excitKind excitValue
  | .buckling _ static => bucklingCmds m a static

/-- What the damping makes destroyable (AsterWriter.cpp 2908, 2923-2924). -/
def dampingDestroyed (i : Nat) : Option (DampingKind × Nat) → List Name
  | none => [.num .AMORG i]
  | some (.crit, _) => [.num .AMMOI i, .num .AMMOT i]
  | some (.g, _) => [.num .AMMOS i, .num .AMMOI i, .num .AMMOT i]

/-- What the list of frequencies makes destroyable (AsterWriter.cpp 2943, 2952). -/
def frequencyDestroyed (excitId : Nat) : FrequencyKind → List Name
  | .spread => [.pad .LSPR excitId]
  | .interpolate => [.pad .LSIP excitId]
  | .other => []

/-- What the computation of the modes makes destroyable (AsterWriter.cpp 2677-2680, 2698, 2712, 2715). -/
def modesDestroyed (m : CommModel) (a : Analysis) : List Name :=
  assemblyDestroyed m a false ++ (if m.canBeReused a then [] else [.num .MO a.id]) ++
  [.num .UMO a.id, .num .IMO a.id, .num .JMO a.id]

/-- What the response makes destroyable (AsterWriter.cpp 2790, 2800, 2823, 2826, 2843-2851, 2861, 2908-2952, 3020). -/
def responseDestroyed (a : Analysis) (residual : Bool) (damping : Option (DampingKind × Nat)) (excitId : Nat)
    (excitKind : FrequencyKind) : List Name :=
  (if residual then [.num .RESVE a.id, .num .MOSTA a.id] else []) ++ a.excitations.flatMap (excitationDestroyed a.id) ++
  [.num .NDDLG a.id, .num .RIGIG a.id, .num .MASSG a.id] ++ (a.excitations.map fun x => .two .VG a.id x.id) ++
  dampingDestroyed a.id damping ++ frequencyDestroyed excitId excitKind ++ [.num .GENE a.id]

/-- What `writeAnalysis` adds to `destroyableConcepts`. -/
def analysisDestroyed (m : CommModel) (a : Analysis) : List Name :=
  match a.kind with
  | .combination _ => []
  | .linearStatic => []
  | .nonLinear _ _ => []
  | .directFreq _ _ => assemblyDestroyed m a false ++ a.excitations.flatMap (excitationDestroyed a.id)
  | .modal _ => assemblyDestroyed m a false ++ [.num .URESU a.id, .num .IRESU a.id, .num .JRESU a.id]
  | .modalComplex _ => modesDestroyed m a
  | .modalFreq _ residual damping excitId excitKind _ =>
    (match m.reusableFor a with | none => modesDestroyed m a | some _ => []) ++
    responseDestroyed a residual damping excitId excitKind
  | .buckling _ _ => assemblyDestroyed m a true ++ [.num .FSIG a.id, .num .TBCRT a.id]

/-! ## After an analysis -/

/-- `isStatic` and not a combination (AsterWriter.cpp 365, Analysis.h 183-209). -/
def Analysis.isStatic (a : Analysis) : Bool :=
  match a.kind with
  | .linearStatic => true
  | .nonLinear _ _ => true
  | _ => false

/-- The forces and displacements of static analyses (AsterWriter.cpp 365-431). -/
def staticPost (m : CommModel) (a : Analysis) : List Cmd :=
  let i := a.id
  if a.isStatic then
    [.call ((.num .RESU i, .resultat) :: m.common), .define (.num .CRESU i) .table [(.num .RESU i, .resultat)],
     .call [(.num .CRESU i, .table)]] ++
    if m.beams then
      [.define (.num .TBLO i) .table [(.num .RESU i, .resultat)], .define (.num .uloc i) .unite [],
       .call [(.num .TBLO i, .table), (.num .uloc i, .unite)], .call [(.num .uloc i, .unite)]]
    else []
  else []

/-- The destroyable names of the same lines (379, 425, 428). -/
def staticDestroyed (m : CommModel) (a : Analysis) : List Name :=
  if a.isStatic then .num .CRESU a.id :: if m.beams then [.num .TBLO a.id, .num .uloc a.id] else [] else []

/-- The stresses (AsterWriter.cpp 433-471). -/
def stressPost (m : CommModel) (a : Analysis) : List Cmd :=
  (if m.sigma then [.call ((.num .RESU a.id, .resultat) :: m.common)] else []) ++
  if a.vonMises then [.call [(.num .RESU a.id, .resultat), (.plain .MODMECA, .modele)]] else []

/-- The result of an assertion on a frequency (AsterWriter.cpp 3126-3132). -/
def frequencyResult (m : CommModel) (a : Analysis) : Name :=
  let b := match m.reusableFor a with | none => a | some r => r
  match b.kind with
  | .modal _ => .num .RESU b.id
  | .buckling _ _ => .num .RESU b.id
  | _ => .num .UMO b.id

/-- The assertions (AsterWriter.cpp 562-599). -/
def assertionUses (m : CommModel) (a : Analysis) : List (Name × Kind) :=
  a.assertions.flatMap fun
    | .field => [(.num .RESU a.id, .resultat)]
    | .frequency inRange => if inRange then [(frequencyResult m a, .resultat)] else []

/-- The results printed (`writeImprResultats`, AsterWriter.cpp 122-213). -/
def printed (m : CommModel) (a : Analysis) : List (Name × Kind) :=
  match a.kind with
  | .modalComplex _ => []
  | .modalFreq _ _ _ _ _ _ =>
    (match m.reusableFor a with | none => [(.num .MO a.id, .resultat)] | some _ => []) ++ [(.num .RESU a.id, .resultat)]
  | _ => [(.num .RESU a.id, .resultat)]

/-- The results in the table without outputs (AsterWriter.cpp 243-270). -/
def tabulated (m : CommModel) (a : Analysis) : List (Name × Kind) :=
  match a.kind with
  | .modalComplex _ => []
  | .directFreq _ _ => []
  | .modalFreq _ _ _ _ _ _ => match m.reusableFor a with | none => [(.num .MO a.id, .resultat)] | some _ => []
  | _ => [(.num .RESU a.id, .resultat)]

/-- The table of the displacements asked for (AsterWriter.cpp 218-241). With outputs of frequencies the keyword
`LIST_FREQ` is followed by two commas. -/
def displacementTable (i : Nat) (outputs : List Nat) : List Cmd :=
  if outputs.isEmpty then
    [.define (.num .RETB i) .table [(.num .RESU i, .resultat)], .call [(.num .RETB i, .table)]]
  else [.invalid]

/-- The table of the results (AsterWriter.cpp 215-283). -/
def printPost (m : CommModel) (a : Analysis) : List Cmd :=
  let i := a.id
  [.call (printed m a)] ++
  (if a.displacements then displacementTable i a.frequencies
   else [.define (.num .RETB i) .table (tabulated m a)]) ++
  [.define (.num .unit i) .unite [], .call [(.num .RETB i, .table), (.num .unit i, .unite)], .call [(.num .unit i, .unite)]]

/-- `usedInNext` (AsterWriter.cpp 606-625). -/
def CommModel.usedInNext (m : CommModel) (a : Analysis) : Bool :=
  m.analyses.any fun b =>
    match b.kind with
    | .nonLinear _ (some p) => p.1 == a.id
    | .buckling _ static => static == a.id
    | .combination parts => parts.contains a.id
    | _ => false

/-- The commands of an analysis without the last one. -/
def analysisBody (m : CommModel) (a : Analysis) : List Cmd :=
  writeAnalysis m a ++ staticPost m a ++ stressPost m a ++ [.call (assertionUses m a)] ++ printPost m a

/-- `destroyableConcepts` at the end of an analysis (AsterWriter.cpp 626-637). -/
def destroyed (m : CommModel) (a : Analysis) : List Name :=
  analysisDestroyed m a ++ staticDestroyed m a ++ [.num .RETB a.id, .num .unit a.id] ++
  if !m.usedInNext a && !m.canBeReused a then [.num .RESU a.id] else []

/-- A turn of the loop of `writeAnalyses` (AsterWriter.cpp 360-641). The layers of composites are left out. -/
def analysisCmds (m : CommModel) (a : Analysis) : List Cmd := analysisBody m a ++ [.destroy (destroyed m a)]

/-- The commands of the file. -/
def commFile (m : CommModel) : List Cmd := prelude m ++ m.analyses.flatMap (analysisCmds m)

end Aster
end Vega
