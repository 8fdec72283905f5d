# Formal model of Alneos/vega — design

Vega translates finite-element decks (Nastran, Optistruct) into other solvers'
formats (Code_Aster, Systus, Nastran) through an abstract in-memory model.
This directory holds a Lean 4 model of parts of that program and kernel-checked
theorems about the model. The list of properties is `properties.jsonl`, their
status is `MANIFEST.json`.

## How the model relates to the code

* Source read: `/repo` at the pinned commit, as text. Nothing was compiled or run.
* Each Lean definition carries a comment with the file and lines it models and
  any simplification made.
* C++ `throw` and undefined behaviour are separate outcomes
  (`Verif.Outcome`: `ok`, `throw`, `ub`, and where a loop may not end, `diverges`).
* `int` is modelled as `Int`, positions and sizes as `Nat`, unless the property
  is about overflow. `std::map`/`set` are modelled as association lists or
  functions with the lookup behaviour of the container; `double` is modelled by
  exact arithmetic (a commutative ring, a field or the reals). Floating point
  rounding is out of scope, so numeric theorems are about the formulas.
* Logging (`TRACE`/`DEBUG` output) is left out.

## Layout

`lean/Verif/<Area>/Model.lean` — transcription of the code.
`lean/Verif/<Area>/Lemmas.lean` — helper lemmas (when needed).
`lean/Verif/<Area>/Props.lean` — specification and property theorems, with the
satisfiability examples beside them. Names of property theorems start with the
property id (`C07_...`). Suffix `_partial`: weaker than the English property, the
comment says what is missing. Suffix `_false`: proof that the code violates the
property at a concrete point.

## Trusted base

* Lean 4.33.0's kernel, and the faithfulness of the transcription.
* The specifications that say what the keywords of Nastran, Code_Aster and Systus mean: they were written from general
  knowledge of these programs, without their manuals.
* Axioms: at most `propext`, `Classical.choice`, `Quot.sound` for every theorem.
* No `sorry`, no own axioms, no `native_decide`, no `bv_decide`.


## Per-property plan

| id | property | modelled | proof |
|---|---|---|---|
| C01 | DOFS objects behave as sets of the six degrees of freedom | DOFS as Nat code < 64 with the C++ bit operations; spec = predicate on the six-element DOF type | finite table lifted by decide +kernel plus bit lemmas |
| C02 | Nastran component codes round-trip | nastranCode / nastranCodeToDOFS on Int with the %10 loop (fuel-free, well-founded on natAbs); throw is a distinct outcome | induction on the decimal digits; table over the 64 sets. NO_DOFS -> 0 -> DX is proved as a counterexample |
| C03 | A nodal 6x6 matrix returns what was stored in it | DOFMatrix as association list keyed by (dof,dof), the three MatrixTypes, throw outcome | refinement to `entry -> value` by induction over the history |
| C04 | Matrix exports have the documented layout | asColumnsVector etc. as the nested loops; isEqual with UB outcome | index lemma on flatMap/range; involution by extensionality |
| C05 | Per-DOF coefficients combine component-wise | DOFCoefs as six Option values over an abstract commutative additive group (UNAVAILABLE = none only where the code tests it) | component-wise; asymmetry of += with an unavailable right operand shown |
| C06 | References are usable as map keys | Reference with NO_ID sentinel, == and < as written, hash as a function of the hashed fields | case analysis with omega; hash claim refuted by witness, partial theorem without it |
| C07 | The object container is a map keyed by (type, original id) and by id | Container with its two maps, state machine over add/erase/find | refinement to an abstract list of live objects by induction on the history |
| C08 | Container validation follows the translation mode | validate loop as collect-then-erase as in the code | list induction |
| C09 | Automatic object ids are never reused | auto_id counter state machine | invariant over histories |
| C10 | Node ids and node positions stay in bijection | NodeStorage: nodeDatas list + id map; ops addNode/findOrReserve/auto | invariant by induction over the op list |
| C11 | A node keeps its last definition whatever the order of references | same state machine | refinement to `id -> last definition` |
| C12 | Automatic node and cell ids never collide | auto id search loop with explicit fuel = number of ids + 1 (termination proved) | pigeonhole invariant |
| C13 | Cell connectivity is returned as it was given | CellStorage: per type flat connectivity list, cellTypePosition, slices | invariant: flat list = concatenation of chunks, by induction over the history |
| C14 | Cell ids, positions and per-type counts agree | same | invariant |
| C15 | Updating a cell preserves its id and its group memberships | updateCell with the missing additional-data push; UB outcome on out-of-range | proved for 0D/3D, counterexample for 1D/2D |
| C16 | Mesh groups are uniquely identified by name and by original id | name and id registries | invariant by induction; rename/remove defects refuted by witness |
| C17 | Containers of cells and nodes report the union of direct members and groups | containers as three sets + group lookup | induction over additions |
| C18 | The faces of every solid cell form a closed surface of its nodes | face tables transcribed | decide +kernel over the whole tables; HEXA20 defect as negation |
| C19 | Naming a face by two nodes round-trips | the two functions, parameterised by an injective id assignment | table case analysis, lifted over all numberings |
| C20 | Polygonal cell types have the requested number of nodes | table | decide over 0..20 plus general branch |
| C21 | Tab expansion keeps Nastran columns | replaceTabs on List Char | induction on the line |
| C22 | Fixed-format lines are cut into fields without loss | splitFixedFormat on List Char | round trip by induction on the fields |
| C23 | Free-format lines are cut at commas | splitFreeFormat on List Char | round trip by induction |
| C24 | The reading format of a line is decided by its first field | getLineType | decision logic |
| C25 | THRU lists denote their ranges | nextInts token loop; infinite loop / UB outcomes distinct | induction; BY defect as negation, theorem for lists without BY |
| C26 | Nastran real numbers are normalised to standard notation | nextDouble string rewriting | case analysis on mantissa/exponent grammar; numeric semantics of the text |
| C27 | Comments and blank lines never influence the data | readLineSkipComment on List of lines | induction |
| C28 | Load set membership reflects what was put in | the two maps by id / original id as written | invariant by induction over histories |
| C29 | Constraint set membership reflects what was put in | same | same |
| C30 | Sets used by every analysis are told apart from the others | getCommon*/getUncommon* | set lemmas; DLOAD inversion as negation |
| C31 | Flattening combined load sets preserves the load | replaceCombinedLoadSets over abstract loadings with scale factors in a commutative ring | induction over the embedded list |
| C32 | Removing redundant single point constraints changes no boundary condition | removeRedundantSpcs over analyses/sets/SPCs | induction over constraints |
| C33 | Splitting a direct matrix keeps every coefficient and bounds the blocks | splitDirectMatrices stack loop | loop invariant |
| C34 | Preparing a model twice is the same as once | finished flag | idempotence |
| C35 | Analysis parameters override model parameters | two maps | refinement |
| C36 | Multi point constraints emulating a rigid body are exactly rigid-body kinematics | the generated coefficient rows over a commutative ring | ring identities, both directions |
| C37 | Participations of a linear relation accumulate independently of order | LMPC map node->coefs | induction, permutation invariance |
| C38 | A single point constraint reports the last value set for each dof | SPC array | induction over setters |
| C39 | Releasing dofs in one analysis leaves the other analyses constrained | analyses / sets / SPC model | case analysis with set reasoning |
| C40 | A static pressure applies pressure times area | formula over an ordered field with norm as parameter; degenerate = distinct outcome | ring |
| C41 | Scaling a loading scales its effect linearly | scale functions over a commutative ring | ring; ImposedDisplacement defect as negation |
| C42 | Only loadings without effect are discarded as ineffective | ineffective predicates | case analysis; FORCE1 defect as negation |
| C43 | Coordinate systems are orthonormal and preserve lengths | Gram-Schmidt over the reals | nlinarith/field_simp |
| C44 | Nested coordinate systems compose | chain of systems as a list | induction on the chain; Orientation defect as negation |
| C45 | A coordinate system referenced before its definition is the one defined later | CoordinateSystemStorage state machine | invariant; re-definition allocating a second position recorded |
| C46 | Step ranges are consistent | three constructors over the rationals | field_simp |
| C47 | Beam section properties follow the geometry | section formulas over the reals | ring |
| C48 | Elastic constants are completed consistently | ElasticNature with Option constants over a field | field_simp |
| C49 | Symmetric laminates are mirrored | getFullLayers | list induction |
| C50 | Segment matrices are exported as the upper triangle by columns | nested loops with early break | index lemma |
| C51 | Coefficients of a nodal matrix are found whichever way round they are given | submatrixByNodes map | refinement by induction |
| C52 | Solver names round-trip | fromString on List Char | table + case analysis |
| C53 | Errors stop a translation exactly in strict mode | decision functions and a fold over error events | induction |
| C54 | Solver exit codes are classified totally | convertExecResult on BitVec 32 / Int | bit arithmetic |
| C55 | Node parts reflect the element parts using the node | node store with parts | invariant over histories |
| C56 | Only nodes used by nothing are dropped from node groups | reservedButUnused set of the node store | induction over the histories: exactly which nodes are in the set; concrete witness of the defect |
| C57 | A command reads each field of its card once and in order | cursor over the fields of a card | refinement to the list of remaining fields, induction over operations |
| C58 | Objective set membership reflects what was put in | the two maps of objectives as written | invariant over histories; the wrong test as concrete witnesses |
| C59 | A degree of freedom with an imposed displacement is not also fixed | SpcModel and the loops of removeConstrainedImposed as written | loop invariant over analyses, sets, SPCs and nodes |
| C60 | A coordinate system given by three points passes through them | the body of the three commands, the points read | Vec identities; composition by C44; refutation for a cylindrical reference |
| C61 | Euler angles reproduce the axes of a coordinate system | the angles by atan2 (argument of a complex number), the vectors they are computed from | product of elementary rotations; error bound near the vertical; refutations for nested systems |
| C62 | A nodal force is applied in the directions of its coordinate system at its node | localToGlobal with the update of the stored system as a change of the environment | composition of C43 and C44; uniqueness of the base; refutations for nested systems and at the origin |
| C63 | Torsional constants | the torsional constants of Element.cpp over the reals | polar moment as an integral over the region; polynomial inequalities; a counterexample for high rectangles |
| C64 | Bar sections written for Code_Aster | addSection and the POUTRE keywords written by AsterWriter as functions from cards to written sections | the written section denotes a region of the plane; equality of regions, refutation for tubes |
| C65 | Ply defaults of PCOMP cards | parsePCOMP from the fields to the composite | recursive specification of the meaning of blanks; refutations by small cards, and for every card in the case of Z0 |
| C66 | Splitting shells by the offsets of their cells | the loop with its map from rounded offsets to the clones made so far | invariants by induction over parts and cells: permutation of the cells; suitability of each part when keys separate; refutations |
| C67 | Isotropic plies made orthotropic | the loop over layers with the materials of the model and the map of replaced ones | invariant by induction over layers relating each ply before and after |
| C68 | Discrete elements as written for Code_Aster | DiscretePoint, DiscreteSegment, StructuralSegment over the nodal matrices of C03, and the keyword and values of the writer (Verif/Element/Discrete.lean) | a relation between a characteristic (keyword markers and values) and the matrix it denotes; refinement of any history of stores to the denoted matrix, length arguments for the refutations |
| C69 | Scalar springs as written for Code_Aster | ScalarSpring and its export (Verif/Element/Discrete.lean) | the same relation, against the matrix of the energy of one spring |
| C70 | Splitting springs by dofs | splitElementsByDOFS with the group registry of the mesh (Verif/Element/Springs.lean) | induction over sets and pairs; springs of a model as a list up to permutation |
| C71 | Direct matrices are written whole for Systus matrix files | SystusMatrix, its places and lines, the loop of fillMatrices | injective places, loop invariant on what has been written |
| C72 | Direct matrices are written whole in Systus tables | SystusTable::fill and table references | codes of four digits decoded; collisions by witnesses |
| C73 | Direct matrices replaced by discrete elements keep their coefficients | The loop over the node pairs of a direct matrix, the points and segments it creates and fills, with the division by the number of segments of the first node. | The sum of the contributions of the elements is compared with the last given coefficient; each pair contributes a share, and with no shared node only one pair contributes. |
| C74 | Virtual constraints of replaced matrices block only unused degrees of freedom | The degrees of freedom added by each element, and the difference that becomes the virtual constraint; the rest of the model is a parameter. | Induction over the pairs: every node of the matrix has at least its translations added. |
| C75 | The result of a solver run is reported faithfully | The ends of the two runners as functions of the status of system and of the lines of the files left. | Loops over lines are shown equal to an existence of a line; cases on the classification C54. |
| C76 | Contradictory translation modes are refused | The reading of the three options. | The eight combinations, all of them. |
| C77 | The exit status of the program tells the kind of failure | process, its handlers, and the parent process, over an abstract study. | Cases on where the first error is met. |
| C78 | Written Nastran cards are read back | Line::add, operator<< with its counter, against the tokenizer of C22 | induction over the fields with the state of the line; refutations for wide or negative integers and long cards |
| C79 | Written Nastran reals keep the precision of the field | the text made from the mantissa and the exponent, and the rewriting and value of reals by the reader | rounding bounds over the rationals; the text as a number in Nastran notation, C26 |
| C80 | Cells written to Nastran are read back | the cards of cells, the permutation tables and the element cards of the reader | the permutation of a table without repetition is undone; table checks by kernel evaluation over all types; composition with C78 |
| C81 | Elements written to Systus have the nodes of their cell | the table of node orders and the node part of the element line | permutation of the table; edges by kernel evaluation over all types, polyhedra by arithmetic |
| C82 | Linear relations are read and written with all their terms | the card MPC of the writer with its field counter, parseMPC with its own, the coefficients by node | induction over pairs of terms for the layout of the manual; the writer's layout compared with it; refutation for every relation of more than four terms |
| C83 | Rigid connections are written and read with all their nodes | the fields written for RIGID, QUASI_RIGID and RBE3 connections from node positions, and the readers of RBE2, RBAR, RBAR1, RBE3 | round trip through the card writer and reader by induction over the slaves; for-all refutations where the writer uses the number of the set, a missing master, or a node number as a position |
| C84 | Single point constraints are read and written with their nodes, components and values | the SPC1 cards written for each node, the readers of SPC and SPC1 | round trip through the card writer and reader, induction over the triples of the card and over the nodes; equality of the cards of two constraints that differ in their value |
| C85 | Nodal forces, moments and gravity are read and written as given | the cards FORCE and GRAV written, and the readers of FORCE, MOMENT and GRAV | round trip through the card writer and reader; refutations for moments, blank components and coordinate systems |
| C86 | Pressures are read and written as given | the cards PLOAD, PLOAD2 and PLOAD4 written for the four kinds of pressure, and their readers | round trip through the card writer and reader with a general lemma on the reader of PLOAD4; refutations for corners, coordinate systems and forces on whole cells |
| C87 | Distributed loads on beams are read and written as given | the card PLOAD1 written for a table of points, and its reader | round trip for loads that begin at the first end; refutations for the others, for all positions and intensities |
| C88 | Coordinate systems may be defined and used in any order | the storage of coordinate systems as a state machine with definition, lookup and reservation | invariant by induction over the operations, refinement to `last definition under that number` |
| C89 | Nodes are read and written where they are | the cards GRDSET and GRID, the card GRID written, and the place of the node found at the end | round trip through the card writer and reader on top of C88; refutations for local systems and GRDSET |
| C90 | Isotropic materials are read and written as given | the card MAT1 read and written, on top of the elastic constants of C48 | round trip through the card writer and reader; refutation for materials of other natures |
| C91 | Properties of shells, solids and beams are read and written as given | the cards PSHELL, PSOLID, PBEAM and PBAR read and written | round trip through the card writer and reader, decision table of the integration rule; refutations for masses, shear and Cosmic Nastran |
| C92 | Masses at nodes keep their mass, offset and inertia | CONM1 and CONM2 read and written, NodalMass, the values for Code_Aster and Systus | round trip through the card writer and reader against the inertia matrix of the manual; refutations for products of inertia, offsets, multipliers, rows and diagonals |
| C93 | Springs and dampers are read and written as given | the card PBUSH read and written with the loop over flags | induction over the rows; round trip; refutations for the layout and for short cards |
| C94 | Groups, cells and numbers survive in the MED mesh file | the families of nodes and cells, the buffers of group names, connectivities and numbers of the MED writer | invariant over the loops on groups and members: the family of a position has the groups seen so far that contain it; refutations for names |
| C95 | Results printed by Nastran become the tests of their subcase | F06Parser line by line: search of texts, words, numbers, the loops of the four kinds of tables, the main loop with its current subcase, load step and frequency, and the use of the analyses | specification of printed pages as texts; induction on rows and pages; concrete files for the refutations |
| C96 | The reading of a result file ends | the same model; running out of turns is a separate outcome | each turn takes lines from a finite list, except at the end of the file where the variable is shown not to hold the first line of a page |
| C97 | Subcases select what they name | the executive and case control sections command by command: words of a line, contexts as ordered maps, kinds of analyses, selections, subcases; `erase(end())` as a configuration (undefined by the standard, last element dropped by the GNU library) | a specification of files as texts; a relation between contexts and the last value given; induction over commands and subcases; an invariant of the whole section for what is never selected |
| C98 | Combinations of subcases have the coefficients given | addCombinationAnalysis with its doubly raised counter, over lists of texts | induction over the list by two |
| C99 | Lists of numbers are read as they are written | addSet: joining of lines, two sides, words, ranges | specification of list texts as a grammar; induction over entries and lines |
| C100 | Analyses written to Nastran are read back | the section as a list of lines written from analyses, groups and outputs; no analyses and null sets as undefined behaviour | the lines written are shown to be texts of the grammar of C97 and C99, so that the theorem on reading applies; every command occurs once, so the last value given is the one written |
| C101 | The reading of the case control section ends | the loops of the section with a bound on their turns, and the outcome `diverges` when the bound is reached | every turn takes a line from the file or is the last one, so that the number of lines is a bound; the texts still to come are an invariant for the lists that go on after a comma |
| C102 | Code_Aster is given the constraints of the model | the factor keywords written for each kind of constraint, and the groups and names they are applied to | a reading of the factor keywords as demands on a displacement field, compared with the demands of the constraints themselves, by induction over the set |
| C103 | Gaps between nodes reach Code_Aster | the gaps of the cards, the constants (DEFI_CONSTANTE) and the zones (LIAISON_UNIL) written for them | the constants read as an environment of names, the names decoded, an invariant for the cards read so far, and the zones evaluated in the environment |
| C104 | Code_Aster is given the loads of the model | the factor keywords written for each kind of load, the sums of the forces of a node, the choice of the command | a reading of the keywords with the rule of overload of Code_Aster (the last value counts), compared with the sums over the loads; each section of the command by itself, by induction over the set |
| C105 | The command file for Code_Aster uses names that are defined | the commands of the file with the names they use, define and destroy: model, values, sets, all types of analyses, tables, assertions, destructions | an interpreter of the commands over an environment of names (Env.step, Env.run); the file is read to its end if and only if a condition on each analysis and those before it holds; induction over the analyses with an invariant on the environment in one direction, tracing each use to its definition in the other |
| C106 | The modes that a solver computes are those asked for | the band read from EIGRL or EIGR, the option, number and bounds of CALC_MODES, the bounds of EXTR_MODE, number and bounds of the subspace method of Systus | specification on the ordered list of frequencies of a structure: what is asked, what each command computes; equality of lists, with an exact condition for the number of modes |
| C107 | Tables keep their points and Code_Aster finds in them the values that Nastran finds | the loop over the fields, the fields before it, the merging of place holders and tables, the command DEFI_FONCTION | induction over the entries for the reading; induction over the additions for the names; a specification of the look-up of both programs on the list of points, equality by induction over the points |
| C108 | A response is computed at the frequencies and with the damping that are given | the cards FREQ, FREQ1, FREQ4, the choice of the card, the list written for Code_Aster, the sweep and the damping written for Systus, the factor of the damping for Code_Aster | induction over the fields for the reading; equality of the lists by arithmetic on each step; refutations for all sets with a second card and all dampings |
| C109 | A dynamic excitation has the load, the amplitude and the phase that are given | the state that the cards change (sets of loads, sets LOADSET, phases, excitations) with one step for each card; what the two writers keep of an excitation | induction over the cards for the sets, the phases and the excitations that are kept; the position of the RLOAD2 by splitting the run; refutations for all files of a form |
| C110 | Each analysis is written to Systus once, with its own constraints | the three ways in which the analyses are put into subcases, and what a subcase takes from its first analysis | invariant of the fold over the analyses (permutation, characteristics, separation of the subcases); refutations for lists of analyses with different constraints or with unknown numbers |
| C111 | A load case of Systus has exactly the loads of its set | the numbering of the load cases, the vectors and the references to them of loads and constraints, and the lists | invariant of the numbering (vectors are numbered from 1, references are to vectors) and, for each function, what it adds at each node and cell; composition over loads, sets and analyses; refutations for all inputs of a form |
| C112 | A parameter has the value of its last PARAM card and its effect | the sixteen functions of the parameters on a store, the text of a number with fifteen decimals, and each use of a parameter | induction over the cards for each parameter (last card, or last card that is not the default); analysis of the rounding; refutations for all files |
| C113 | Sets, surfaces and contacts of OptiStruct are read as written on their cards, and surfaces and contacts survive writing | the three functions of the parser on the cursor of fields (Verif/Nastran/Fields.lean) and the two cards of the writer | inductive descriptions of how lists, faces and frequencies are written, induction over them; the round trips through C78_card_partial; refutations for all cards |
| C114 | The tests written for the solver accept the expected results and refuse all others | the rows of TEST_RESU and the tests of the Systus script written for an expected result, the choice of the criterion, the bounds of frequencies | a small specification of `equal up to a relative tolerance` and of what a row of TEST_RESU accepts as generally known; equivalence for all results; refutations for all values below the limits and for grouped analyses (C110) |
| C115 | The data file of Systus contains what it announces | the loops over element sets and cells with the codes of dimension and type, the groups with the search for numbers of parts, the counts, the choice of the option | induction over sets and groups; termination of the search by the number of used numbers below the counter; refutations for all models with masses, tubes, composites, segments |
| C116 | Elements of Systus have the material, section and stiffness of the model | the loop that makes material records with its state (list of records, numbers of sets, number of skins), the fields of all types of sets, the loops that number matrices in files | invariants of the loop (a record has its place as number, numbers of other sets are kept); induction over sets; refutations for all models with negative Poisson's ratios, rectangular trusses, coupled segments, unsupported sets, springs with both stiffness and damping |
| C117 | Relations turned into elements are the relations of the analysis | the loops over analyses, constraint sets, groups of relations with the same nodes, and slices, with the cells and element sets as state; the search in the map is any search that finds an equivalent key; the tables | invariant: an entry of the map refers to a set of the analysis that has the very coefficients of the key; sets are justified by relations; sets only grow; induction over the loops |
| C118 | Rigid bodies and averages turned into elements bind the nodes of the constraint | the three loops over constraints by type, the parts of an averaging constraint with the names of their groups, the loops that add nodes of rotations and multipliers with the next node number as state | the parts are the filters of the slaves by components and weight (induction over slaves); every set gets its nodes from an interval of numbers and the intervals do not overlap (induction over sets) |
| C119 | Additional mass adds its density and nothing else | the loop over element sets with the next numbers of cells and materials as state; the lines of AFFE_MATERIAU for an arbitrary order of the materials of a set; the elements of Systus with the first material | the sets that have a cell, or the copy of it, are found by splitting the list at the set of the cell (induction over sets for what is made before and after it) |
| C120 | Components added for loads and constraints do not leave the model free to move | the loop over nodes as a fold over a state of components, two optional element sets and constraints; components as bits | a closed form of the state after the loop by induction over nodes without repetition; bits by the lemmas on components |
| C121 | Loads along beams act in Code_Aster where the card says | the table of PLOAD1 and its change of abscissas, with all errors and the read of a second node that may not exist | a point is on the graph of the new table at the coordinate of the point of the beam if and only if it is on the old one (affine change; induction over points), then the segments of the card one by one |
| C122 | Rigid springs become rigid links, other springs and dampers stay | the segments of PBUSH and PVISC with the components they store, the cells of CBUSH, the replacement with the first node as the master | unfold the six stored components; induction over cells and segments; for dampers, the stiffness matrix is empty for every card |
| C123 | What is fixed to a point is kept when points become segments | the copy of 36 components of three matrices, the group of new cells and the set the new segment is | invariant over the list of pairs: the components copied so far are those of the point, later copies leave them so; induction over the points |
| C124 | Scalar springs and dampers have the values of their cards | the sets of springs by their numbers, the cells, the nodes made for the ground and their constraints; each card as a step that may throw | what one card does to one set as an inductive relation; invariants by induction over the list of cards |
| C125 | Bars, beams and bushes have the nodes and the orientation of their cards | the cursor over the fields of one card, the choice of the format of the orientation, the commands with their warnings, the refusal of fields left over | rewrite the chain of reads as a function of the fields by number (missing fields are blank); an equivalence for the whole card; the theorems follow from it |
| C126 | Code_Aster gets the constants of the cards of materials | the four cards over the cursor of fields, materials as lists of natures in order of creation, the blocks of DEFI_MATERIAU as lists of keywords and values, AFFE_MATERIAU as pairs | each card is characterised by its fields by number; an invariant over the sequence of cards (distinct numbers, one nature of a type, natures exactly those of the cards); the blocks of a name are those of the nature of its type; the values are read off by filtering |
| C127 | Load sets have the loads of their cards | the ten cards over the cursor of fields, the loops with a bound that is proved not to be reached, load sets as the items added to them, the order ROTATION | acceptance is characterised by an inductive specification over fields by number; loops by induction on the pairs, with a lemma that every text read as a real is seen to be one; decks by induction on the cards |
| C128 | Every element set has one model of Code_Aster and characteristics that go with it | the two orders as lists of blocks by set, over the type, model and predicates of each set | the blocks of one set are found again in the whole list (a lemma on filters of flat maps with distinct numbers), then by cases on the type against a table of which characteristics go with which model |
| C129 | Constraints in the displacement systems of nodes become relations that say the same | the loop over constraints, nodes and components with the shared coordinate systems as state; over the reals | an invariant that the systems differ from the first ones only by local bases of cylinders, and that rotations keep scalar products, so each relation is one component of the local displacement; induction over nodes and constraints |
| C130 | A strict translation that reports success has written what its analyses use | the writer as a log of entries (what stands in which order, which names each analysis calls) and marks; the check of marks; the exit | the marks of the whole file are characterised by an equivalence, then compared with the entries; the converse by checking each mark |
| C131 | Loads act on components that exist, and expected results are tested exactly there | the components of nodes from element sets, those of analyses from constraints and load sets, the removal of assertions, the replacement of combined sets and the virtual elements (model of C120) | membership in folded unions is characterised by existence of an acting item; the pipeline is then composed with the theorems of C120 |
| C132 | Matrices entered on cards have the coefficients of their cards | the selection of matrices by name, the header and the columns of DMIG cards, with the reservation of nodes and the storage of C51 | an invariant over the cards: each selected matrix is the run of the coefficients given by its name, at the positions of the nodes; the loop over the terms by induction; the last coefficient by C51 |
| C133 | Contacts entered on cards join the lines, surfaces and bodies they name | the fields of the eight cards, the container of targets searched kind by kind in an order left free, and the zones written from slides, facings and zones | an equivalence between each card and what it says; an invariant over the cards: the container holds exactly the entries said; the zone by the search theorem under numbers shared by no two kinds |
| C134 | Loads and groups have the elements their cards name | the mesh of C13 with containers of positions filled while the file is read, and the four ways in which the positions are read again | an invariant over the file read so far: a position is in a container iff a card of its owner names the element at this position and stands after it; each reader by induction over the container |
| C135 | A union of sets of supports has the supports of its sets | the fields of SPCADD, the sets created by the case control section and by the cards, and the query of the constraints of a set | an invariant over the cards: the sets, the lists and the supports are those of the cards read; the query against an inductive definition of the supports of a set |
| C136 | Nodes written to Systus are held as the model says, in their own axes | the map of codes by node, the vectors of axes and the lines of nodes, from the supports of the first analysis | invariants over the three nested loops (which components are held) and over the loop on nodes (every node so far refers to a vector with its angles); the 256 codes by computation |
| C137 | Axes of elements written to Systus are those of the model | the reference axes by dimension and type of element, the choice of the angles written | the angles are those of C61; for a bar the first axes coincide, so the first two angles are 0; for a triangle the first angle is that of the projection (real arithmetic) |
| C138 | Coordinate systems pass through Nastran cards unchanged | the fields of the four cards and the cards written | reading of written fields (C78), induction over the systems of a card; the axes by C60; an integer with a point is refused |
| C139 | Modal analyses search the modes that the cards ask for | the fields of the four cards, the search of an analysis, the words for the norm | each card is read iff it says so (specification by fields), induction over the cards; the band is C106; counterexamples for the norm of EIGB, unknown norms, EIGC and sets without a card |
| C140 | Rods keep their section | the fields of the three cards, the groups that join rods and properties, the section in Code_Aster, the lines for Nastran | each card is read iff it says so; induction over the cards for the sections; refutations for torsion, large displacements, the warning about masses and the Nastran lines |
| C141 | A file may be split into included files | the loop over the cards of a file with the recursive call for INCLUDE, on a disk that is a function from paths to texts | a tree of files as specification; induction over the tree for the cards and for the flattened text; refutations for self-inclusion, long names, continuations and ENDDATA |
| C142 | Nonlinear subcases follow each other | the two cards, the sets of objectives, the chain of analyses and what is written for each: instants, functions of loads, initial state | induction over the subcases for the instants and the factor of every load; for-all refutations for zero increments, missing strategies, mixed types and imposed displacements |
| C143 | A file without a SOL statement gets the analysis it calls for | the choice of the type, the lookup of the objectives in sets, the validation and the sets that the new analysis applies | decision logic for the type; for-all refutations for modal, nonlinear and static files |
| C144 | Displacements asked for are extracted by Code_Aster | the outputs made by DISP commands, the groups made for their lists while the tables are written, the nodes reserved, and the tables of the analyses | an invariant of the mesh kept by each request, by induction over the outputs and the analyses; the link between requests and outputs is an invariant of reading (Case/Kept.lean), for every file |
| C145 | The file of data of Systus can be read back | the numbers of the header and of the informations, the lines of the load cases with their names, the lines of lists and vectors, the lists named by nodes and elements | reading as a separate specification (AscSpec: the line that begins with the number of a list, then the vectors named in it); refinement to the loads of C111 through the numbering of lists, which has no gap and no repetition; characters of the lines of load cases by induction |
| C146 | What a case asks for and the file does not contain is refused, or left out and nothing else | the cards FORCE, SPC, EIGRL, CORD2R and the selections LOAD, SPC, METHOD, the state with containers and references apart, finish (boundary conditions, removal of ineffective objects), the validation of loads, sets and analyses, the decision of convertStudy | what the file contains as a separate specification (MissingSpec); the state that is read by induction over cases and cards; invariant that references and containers agree; the outcomes (written, refused, error, std::terminate, undefined) apart |
| C147 | Scalar points become nodes with a single degree of freedom | parseSPOINT with the cursor on the fields of the card, the node storage, the group SPC_SPOINT and the constraints of the common set | the points a card names as a separate specification (ScalarPointsSpec); the effect of one point (invariant of the node storage), composition over the points of a card by induction, over the cards of a file by induction |
| C148 | In nonlinear analyses each cell has the law its material cards ask for | the loop that writes COMPORTEMENT over the element sets and their materials, on top of the model of the material cards of C126 | the law asked for in terms of the fields of the cards (BehaviourSpec); natures of a material against its cards from C126; induction over the sets |
| C149 | The options of a translation are those of the command line, then of the configuration file, then the documented ones | the two calls that store options, with the rules of the library, then readCommandLineParameters option by option, as a partial function of the two sources | what options mean, field by field, over the value asked for (command line, file, documentation); the store is shown to hold exactly that value; equivalence of the parameters read with their meaning, in both directions |
| C150 | The failure index of every ply of a composite is that of its own stresses, angle and strengths | the loops over composites and layers with their two counters, the commands with their formulas as trees, the names to destroy, the field FT | a small interpreter of the commands at one point of the cells; the stresses asked for are u·σv in the axes of the ply, over the reals; induction over layers and composites for what is printed; for-all refutations for blank strengths, isotropic plies and names given twice |
| C151 | A table of results given with the model becomes the tests of its analyses | the grammar of the file on characters (blanks skipped, first alternative that matches), the two loops over a row, the search of the analysis, the choice of the reader by the name of the file | a table is described cell by cell as a text; induction over cells, rows and comments for what is read back; bounds on loops shown never to be reached; for-all refutations for names of columns, results without analysis, order numbers and Systus |
| C152 | The files of a translation are those that are run, and a run is judged by its own results | the names of the files written for each target, the export file, the removal of earlier results, the command and the judgement of a run, with the directory as a list of named files and the solver as any function of the command and the directory | names: the last point splits the name; runs: removal is a filter, so the run on a directory equals the run on the directory without results; for-all refutations for names, files that cannot be removed and stale data files |
| C153 | Loads on faces of solids, and surfaces made of faces, act on surface cells that are these faces, with the normal outwards | the choice of the type of a skin cell over any order of the table, the skins of loads and of surfaces on the mesh of C13, with the groups and the element sets; faces as polygons of points in space | induction over the loads and over the faces with the history of the mesh as invariant; orientation by exact computation in the frame of an affine image of each reference solid |
| C154 | Rigid elements in a Systus file are as stiff as the stiffest material times a length of the mesh, in any units and any order | the statistics of the mesh (distances between nodes of cells, type by type, zero distances left out), the largest modulus, the penalty with its cache, and the options of the command line; squares of distances are rational numbers and their root is real | the cells type by type are a permutation of all cells; sums and counts then do not depend on the order; bounds on the mean by induction; scaling by linearity |
| C155 | Each direct matrix in a Systus file is carried by one cell whose nodes are in the order in which the coefficients are numbered | the loop over the element sets, the group and the cell of each matrix, over the model of the mesh | induction over the element sets with the histories of the mesh; the numbering of nodes in the Systus table comes from the model of C71 and C72, sizes after splitting from C33 |
| C156 | Each load set and constraint set of the study has a group of nodes of its own with exactly the nodes it acts on | the names, the loop over the sets of the two containers and the creation of groups in the registry of groups of the mesh (the model of C16) | names are split at the first bar after the prefix; induction over the sets with the registry |
| C157 | A modal harmonic response in a Systus file has the amplitude that the table of its excitation gives | the load cases of the subcase, the tables made for excitations, the number kept for each load case and the line of the response that refers to it, for each method | induction over the loads of a set and over the sets; numbers of tables are consecutive |
| C158 | A sliding contact for Systus ties each slave node to the nearest master face | the search among the boxes around the master faces, with any choice among ties, the cells made for the slave nodes and their group, on top of the model of meshes (C13) and of faces (C19) | induction over the slave nodes and faces with the invariants of the mesh; the measure of boxes is shown to be the smallest distance to a point of the box |
| C159 | Each cell has the orientation it was given, in the Code_Aster file | the names given to coordinate systems, the groups by their names, and the cells added one after the other; the vectors written as in C128 | an invariant over the cells added: each system that is used has a name, that of a group with exactly its cells, and no two have the same; numbers below 10000000 give different names |
| C160 | The files of element matrices for Systus hold the matrices, and each subcase has access to its own files | the lines of the files by their numbers, the names of the files and the map from access numbers to names over the loop of subcases; the matrices are those of C71 | a separate description of the layout, with a proof that a file has one reading only; induction over the matrices, and over the subcases with the map as invariant |
| C161 | The displacements of beams are reported in their own axes | the loop over the groups of coordinate systems that C159 is about, with the nodes of the cells and the vectors of the orientations as data | induction over the loop, with the statement of C159 about the groups |
| C162 | A property applies to the elements that refer to it, whatever sets the file has | the groups of the mesh by name and by number, and what the cards of elements, properties and sets do to them | induction over the cards, with an invariant that relates the two maps and says which elements each group has |
| C163 | Rigid connections are read with all the nodes of their cards, or refused | the three readers over the cursor of C57, on fields with arbitrary texts | inversion of each step of the readers, induction over the loops of nodes and of groups |
| C164 | The surfaces in contact are turned outward | the loops of writeLireMaillage over the sets of constraints, with the surfaces, their nodes and the degrees of freedom as data | induction over the sets and zones |
| C165 | The solid under a cell of the skin is found | the loops over cells and faces, on the tables of faces of C18 | induction over the cells and over the faces |

## Status, and where the code disagrees with the property

`_false` theorems prove a violation at a concrete point; the notes name them.

* **C01** (proved) DOFS objects behave as sets of the six degrees of freedom: DOFS as 6-bit codes; every set of degrees of freedom.
* **C02** (partial) Nastran component codes round-trip: Reading and round trip proved for every digit string and every non-empty set. The clean rejection of bad codes is refuted (C02_bad_digit_clean_rejection_false): every bad code above 22 reaches undefined behaviour before the exception (C02_bad_digit_always_false); the empty set is written 0 and read back as DX.
* **C03** (proved) A nodal 6x6 matrix returns what was stored in it: All three matrix types, every history of stores; doubles are exact rationals with the real tolerance.
* **C04** (proved) Matrix exports have the documented layout: All layouts, transposed, isDiagonal and isSymmetric on every reachable matrix. DOFMatrix::isEqual has undefined behaviour on some pairs (C04_isEqual_undefined).
* **C05** (partial) Per-DOF coefficients combine component-wise: Construction, getDOFS, scaling, trichotomy of < and == proved; the sum is proved where the right operand has every degree of freedom the left one has, and refuted otherwise (C05_sum_false: coefficients are lost; C05_sum_always_false: all those up to 2^900). == is tolerant, hence not transitive (C05_eq_not_transitive). Exact arithmetic instead of floating point.
* **C06** (partial) References are usable as map keys: Strict weak order with == as its equivalence proved for all references. "Equal references have equal hashes" is refuted (C06_hash_false); C06_hash_partial keeps what is true.
* **C07** (partial) The object container is a map keyed by (type, original id) and by id: Proved for every history in which erase is called with the reference of an object of the container. For references without automatic id or of rejected duplicates the two indices come apart (the two _false theorems; after every history, C07_erase_by_original_id_always_false).
* **C08** (proved) Container validation follows the translation mode: Every container content reachable by add/erase, every validity predicate, every mode.
* **C09** (proved) Automatic object ids are never reused: Unbounded ids (overflow of the int counter not modelled).
* **C10** (proved) Node ids and node positions stay in bijection: Every history of addNode/findOrReserveNode with explicit ids or automatic ids through addNode. findOrReserveNode(AUTO_ID) breaks the bijection (C10_reserve_auto_id_false); no caller does this.
* **C11** (partial) A node keeps its last definition whatever the order of references: Last definition wins, for every history. "validate reports nodes referenced but never defined" is refuted (C11_undefined_node_reported_false; C11_never_reported_false, for every history).
* **C12** (proved) Automatic node and cell ids never collide: Unbounded ids (overflow of the int counter not modelled).
* **C13** (proved) Cell connectivity is returned as it was given: For connectivities of the length required by the cell type; other lengths corrupt the storage (C13_wrong_length_false), the length is only checked at TRACE log level.
* **C14** (proved) Cell ids, positions and per-type counts agree: Every history of addCell with unused ids.
* **C15** (partial) Updating a cell preserves its id and its group memberships: Proved for volume cells; for the others the update leaves the additional data out of step (C15_update_surface_false, C15_update_offsets_false), and in every mesh the updated cell cannot be read (C15_update_unreadable_false). Every successful update, of every mesh, leaves the replaced cell in the counts by type (C15_stale_cell_false, C15_stale_always_false).
* **C16** (partial) Mesh groups are uniquely identified by name and by original id: By-name registry proved for all histories with renames onto free names; by-id registry for histories without removal. Renaming onto a taken name and removal are refuted (three _false theorems with a witness; for every registry, C16_rename_taken_always_false, C16_removed_by_id_always_false and C16_remove_hides_always_false).
* **C17** (partial) Containers of cells and nodes report the union of direct members and groups: All histories of additions and removals; which are accepted and when a container is told empty. Refuted parts: containsCellPosition ignores groups, merging a node container drops its cell groups, removal of an absent node and a removed group are undefined behaviour (_false theorems).
* **C18** (partial) The faces of every solid cell form a closed surface of its nodes: All solid types but HEXA20, every cell. Refuted for HEXA20 (C18_hexa20_false): a duplicated node and a face turned inside out.
* **C19** (partial) Naming a face by two nodes round-trips: Round trip proved for HEXA8, HEXA20, TETRA4 and part of the faces of the others, refuted for the remaining ones (for every pentahedron and pyramid, C19_penta_always_false and C19_pyra_always_false; C19_tetra10_exactly_partial says exactly when on TETRA10, C19_tetra10_last). Pairs of nodes written as the input format prescribes give the right face on all solid types (C19_named_face).
* **C20** (proved) Polygonal cell types have the requested number of nodes: All numbers of nodes.
* **C21** (proved) Tab expansion keeps Nastran columns: Every line, both formats: relational specification of tab stops, shown to have one solution.
* **C22** (proved) Fixed-format lines are cut into fields without loss: Every line (C22_columns) and every list of values, on any number of lines (C22_round_trip). Beyond the property: a continuation marked + after a line that is not full does not start at the ninth value (C22_plus_after_short_line_false).
* **C23** (partial) Free-format lines are cut at commas: Cutting at commas proved in full. Whole cards: proved for lines of eight values whose first value has no plus sign; refuted otherwise (C23_plus_value_false: the value is lost and the next card swallowed, for every such card by C23_plus_always_false; C23_short_line_false; C23_plus_mark_false: with nine fields the continuation mark stays among the values).
* **C24** (proved) The reading format of a line is decided by its first field: Every line.
* **C25** (partial) THRU lists denote their ranges: Ids and THRU ranges in either order proved for every list. Ranges with BY are refuted, for every range and every step of at least two (C25_by_always_false; C25_by_false: 1 THRU 10 BY 3 gives 1, 2, 5, 8), a leading THRU is undefined behaviour, BY 0 does not end.
* **C26** (proved) Nastran real numbers are normalised to standard notation: Every notation, blanks anywhere. The conversion of standard notation to double is left to the library.
* **C27** (partial) Comments and blank lines never influence the data: The sequence of data lines is proved independent of comments and blank lines. At the level of cards, comment lines are proved harmless in fixed format; refuted for indented comments, comments inside free format cards and blank lines inside cards (three _false theorems).
* **C28** (proved) Load set membership reflects what was put in: Every history of creations, registrations and removals.
* **C29** (partial) Constraint set membership reflects what was put in: Every history; the two queries are proved to be views of one relation. Refuted: a constraint registered by reference and never defined is undefined behaviour in the query (C29_dangling_false); removing a constraint from one set drops it from the model, and querying another set it is in is undefined behaviour (C29_remove_from_one_set_false). The sets by constraint query does not see sets that include others (SPCADD).
* **C30** (partial) Sets used by every analysis are told apart from the others: Proved for constraint sets, every list of analyses that list no set twice. For load sets only dynamic (DLOAD) sets are ever reported common: a static set used by all analyses is in neither list (C30_static_load_set_false). A set listed twice by an analysis is miscounted, a missing set is undefined behaviour.
* **C31** (partial) Flattening combined load sets preserves the load: Any depth of combination and any factors, under the conditions of Good: combinations of combinations come after the sets they combine, no loading is taken over unscaled twice. Both conditions are necessary (C31_nested_order_false: nested loads are lost; C31_same_set_twice_false). A loading is represented by its effect at one degree of freedom, in exact arithmetic, and scaling a copy is assumed to leave the original alone: not so for loadings given by a function (C41_shared_false).
* **C32** (partial) Removing redundant single point constraints changes no boundary condition: Every model, every sharing and every iteration order of the unordered containers, in exact arithmetic; conflicting values are reported by an exception. Excluded: an SPC listed in two sets of one analysis is taken for redundant with itself and lost (C32_in_two_sets_false), and the exclusions of C39.
* **C33** (proved) Splitting a direct matrix keeps every coefficient and bounds the blocks: Every list of symmetric direct matrices over known nodes, every maximal size from 2 on (C33_one, C33_all); sizes under 2 are refused (C33_small). The proof holds for every order of the pairs of nodes.
* **C34** (partial) Preparing a model twice is the same as once: Idempotent, in fixed order, every configuration. After a failed call the passes already applied are applied again (C34_after_failure_false).
* **C35** (proved) Analysis parameters override model parameters: Every history.
* **C36** (partial) Multi point constraints emulating a rigid body are exactly rigid-body kinematics: Every position of master and slaves, every subset of dofs, with and without rotations. Exact arithmetic. C36_rigid and C36_all_rotations: each coordinate difference is zero or above the tolerance, 5/2^52, below which the code takes it for zero; without this the relations can hold for a slave that is not carried along (C36_near_false), but by no more than the rotation times this tolerance (C36_near). As in the code, the displacement coordinate systems of the nodes are ignored; the registration of the relations in constraint sets is not part of the model.
* **C37** (proved) Participations of a linear relation accumulate independently of order: Every list of participations, whose magnitudes do not sum above half the largest double.
* **C38** (proved) A single point constraint reports the last value set for each dof: Every history of setters, every constructor.
* **C39** (partial) Releasing dofs in one analysis leaves the other analyses constrained: Every model, plain sets, nodes given one by one, numeric values. Refuted outside: an analysis that uses the SPC through SPCADD loses it (C39_spcadd_false); a node given through a group is undefined behaviour (C39_group_false).
* **C40** (partial) A static pressure applies pressure times area: Every triangle not flat and every quadrangle without three aligned corners, warped or not; node by node (C40_shares); in a parallelogram every corner gets a quarter. Refuted: three aligned corners, or a node given twice, make the forces NaN (C40_aligned_false, C40_repeated_node_false); the force at a node outside the loading is an uninitialised vector. Exact real arithmetic.
* **C41** (partial) Scaling a loading scales its effect linearly: Every kind but two is multiplied by k, any k (C41_scale_partial), fails exactly when its function is undefined (C41_succeeds), and k then l is k*l. Refuted: rotations are multiplied by the square of k (C41_rotation_false), displacements imposed on n degrees of freedom by k to the power n (C41_imposed_false; right for one, C41_imposed_partial); a copy of a loading given by a function shares it, so scaling the copy scales the original (C41_shared_false). Exact arithmetic.
* **C42** (partial) Only loadings without effect are discarded as ineffective: Every kind but FORCE1, when the numbers a loading is made of are null or above the tolerance (C42_partial); the clean-up keeps exactly the others (C42_cleanup), fails only on undefined functions, and what it keeps applies something (C42_kept, kinds that do not depend on nodes). Refuted: every FORCE1 is discarded (C42_two_nodes_false); tiny factors of huge vectors and tiny pressures on huge faces too (C42_gravity_false, C42_gravity_always_false for every factor below the tolerance, C42_pressure_false).
* **C43** (partial) Coordinate systems are orthonormal and preserve lengths: Axes from any two independent vectors, from nodes, from a direction, and the local base of a cylindrical system: direct and orthonormal (C43_axes, C43_from_nodes, C43_orientation, C43_orientation_nodes, C43_cylindrical_base); vectors keep scalar products and positions keep distances (any chain of Cartesian systems). Dependent vectors give axes that are not numbers, with no report (C43_dependent). Refuted: the base of a cylindrical system at a point of its axis is not a number (C43_axis_false); a system by nodes that are given in a system built later gets axes that are not numbers (C43_build_order_false; right when the nodes are in the global system, C43_build_partial). Exact real arithmetic.
* **C44** (partial) Nested coordinate systems compose: Positions and vectors through any chain of Cartesian systems (C44_position, C44_vector), cylindrical and spherical coordinates at the innermost level (C44_cylindrical, C44_spherical), vectors to local and back (C44_round_trip, built systems relative to the global one). Refuted: an orientation relative to another system applies it twice (C44_orientation_false; C44_orientation_twice_false for every such orientation, with the exact condition under which the position is right nevertheless; vectors are right, C44_orientation_vector, and positions relative to the global system, C44_orientation_partial); a Cartesian system nested in a cylindrical one depends on the last local base computed (C44_history_false); conversion before build reads an uninitialised matrix (C44_not_built_false); cyclic references never end (C44_cycle_false); a missing reference is undefined behaviour (C44_missing_false). The LU inversion is represented by its result. Exact real arithmetic.
* **C45** (proved) A coordinate system referenced before its definition is the one defined later: Every history of definitions, reservations and questions, with other meshes taking positions in between; fewer than INT_MAX positions where C45_stable and C45_orientation say so. Positions are unbounded naturals. The comparison of orientations is a parameter.
* **C46** (partial) Step ranges are consistent: Exact arithmetic. A null step or a number of steps that is not an int is undefined behaviour (C46_undefined_false; C46_undefined_exactly_false: exactly those), no steps at all give a step that is not a number (C46_no_steps_false). C46_decimal: with decimal steps, the nearest doubles, the last step may be missing although the claim (within one step) holds.
* **C47** (partial) Beam section properties follow the geometry: Rectangles, discs and I sections as integrals over the region (C47_bar, C47_rod, C47_i, C47_i_equal_flanges, C47_i_refused) and tubes built from both radii (C47_tube_partial). Refuted for tubes read from a card: the parser passes the thickness where the inner radius is expected (C47_tube_card_false; negative area for thick tubes, C47_tube_negative_false). Exact arithmetic instead of doubles.
* **C48** (partial) Elastic constants are completed consistently: Refusal (C48_refused), given constants kept (C48_given), isotropy relation with exactly two given (C48_two), one given (C48_one), density, expansion and reference temperature (C48_density), and MAT1 cards with E or G (C48_mat1_partial, which assumes that the derived constants are ordinary numbers). Refuted: a MAT1 card without E, G and NU is accepted as a material without stiffness (C48_mat1_blank_false). Exact arithmetic instead of doubles.
* **C49** (partial) Symmetric laminates are mirrored: C49_sym, C49_full, C49_refused, C49_card, and exactly which cards are accepted (C49_accepted). Exact arithmetic for the thicknesses instead of doubles.
* **C50** (partial) Segment matrices are exported as the upper triangle by columns: Layout for every element (C50_vector, C50_rotations); the values are the last given for each unordered pair of unknowns, for symmetric elements whose values between the two nodes were given with the first node as row (C50_symmetric_partial). Refuted otherwise: values given with the second node as row are not exported at all (C50_lower_false).
* **C51** (partial) Coefficients of a nodal matrix are found whichever way round they are given: Every history, by positions (C51_last_given, C51_nodes) and by node ids (C51_ids), as read entry by entry, which is what all the callers do. Refuted: the copies that findSubmatrix returns lose the coefficients below the diagonal when read by their own accessor (C51_find_false; in every matrix, C51_find_always_false); springs that share an unknown replace its coefficient instead of adding to it (C51_springs_false, C51_spring_partial); the degrees of freedom reported for a node are those of the whole matrix (C51_dofs_false; for every matrix without coefficient on the node of position 0 alone, C51_dofs_always_false).
* **C52** (proved) Solver names round-trip: C52_round_trip, C52_reads (an equivalence, so it covers case, blanks and refusal), C52_refused. Characters are ASCII bytes in the C locale.
* **C53** (partial) Errors stop a translation exactly in strict mode: C53_strict_parsing, C53_best_effort hold. C53_strict_partial covers Systus. C53_mesh_false: the flag onlyMesh is set and never read, so MESH_AT_LEAST translates exactly as BEST_EFFORT. C53_writing_false: the Aster and Nastran writers never take the mode of the configuration, so their writing errors do not end a strict translation. The parsing functions, passes and writers are parameters; only the bulk section loop is modelled.
* **C54** (proved) Solver exit codes are classified totally: C54_classified, over all 32-bit values, with the __GNUC__ branch.
* **C55** (proved) Node parts reflect the element parts using the node: Every history of additions and reservations.
* **C56** (partial) Only nodes used by nothing are dropped from node groups: C56_exactly: which nodes are told unused, for every history. C56_partial: no node of a cell that was known when the cell was added. Refuted: a node first mentioned by a cell and defined later is still counted as unused (C56_unused_nodes_false).
* **C57** (partial) A command reads each field of its card once and in order: Every sequence of operations. isNextEmpty(n) for n > 1 may look beyond the end of the card (C57_empty_beyond_end_false): with n or more fields left it tells exactly whether the n next are empty (C57_empty), with fewer and at least one left it always reads beyond the card (C57_empty_beyond_always_false).
* **C58** (partial) Objective set membership reflects what was put in: Proved when every registration and the query use the full reference of a numbered set. The code tests the numbers of the objective instead of those of the set: look-up by number loses unnumbered objectives (C58_by_number_false) and mixes unnumbered sets (C58_mixing_false).
* **C59** (partial) A degree of freedom with an imposed displacement is not also fixed: Every model and every iteration order, at most one imposed displacement by node and analysis. With two on a node only the degrees of freedom of the last are freed (C59_two_on_a_node_false; C59_last_false for every model). Exclusions of C39 apply.
* **C60** (partial) A coordinate system given by three points passes through them: Axes and origin in the system of reference for the three commands (C60_axes), positions of the three points in the global system for CORD2R whose reference is global or reached through Cartesian systems (C60_points_partial). Aligned points give axes that are not numbers, with no report (C60_aligned). Refuted when the reference is cylindrical: the coordinates are subtracted as if they were Cartesian (C60_cylindrical_false). Exact real arithmetic.
* **C61** (partial) Euler angles reproduce the axes of a coordinate system: Angles of any direct orthonormal axes: exact unless the x axis is within 1e-8 of the vertical (C61_exact), and then within 2e-8 on each component (C61_near). Systems given in the global one (C61_global_partial), relative to a built Cartesian system (C61_relative_partial), local base of a cylindrical system (C61_cylindrical_partial). Refuted: the axes of a system given in another one are turned twice (C61_nested_false); the local base of a cylindrical system given in another one is taken for global directions (C61_cylindrical_false). Exact real arithmetic, sign of zeros left out.
* **C62** (partial) A nodal force is applied in the directions of its coordinate system at its node: No system, Cartesian systems to any depth (C62_cartesian), cylindrical systems given in the global one at any node off the axis, for any state left by earlier conversions (C62_cylindrical_partial, with C62_base_unique); spherical systems, unknown systems and nodes not loaded are refused (C62_refused). Refuted: a cylindrical system given in another one compares global coordinates with local ones (C62_nested_false); at the origin of a cylindrical system the result depends on the node converted before (C62_history_false). Exact real arithmetic.
* **C63** (partial) Torsional constants: Discs and rings: equal to the polar moment (C63_round). Rectangles at least as wide as high: positive and at most the polar moment (C63_bar_partial). Refuted for every rectangle higher than wide (C63_high_false): the formula requires the longer side first, and the code takes the height as the shorter one (C63_bar_false). Exact arithmetic instead of doubles.
* **C64** (partial) Bar sections written for Code_Aster: Rectangles, discs and I sections with equal flanges (C64_partial); I sections with different flanges are refused (C64_refused). Refuted for every tube: the radius written is the inner one (C64_tube_false). Areas and moments below the writer's epsilon are replaced by it, as the theorem states. Exact arithmetic instead of doubles.
* **C65** (partial) Ply defaults of PCOMP cards: Given values are kept in order (C65_given), so are the first ply and a given offset (C65_first); blanks mean what they should when the first angle is zero and no later ply gives another material or thickness (C65_blank_partial). Refuted: blanks repeat the first ply, not the last one (C65_material_false), a blank angle repeats the angle of the first ply (C65_angle_false), a blank Z0 becomes plus half the thickness on every card (C65_z0_false).
* **C66** (partial) Splitting shells by the offsets of their cells: No cell lost or repeated, for all models (C66_cells); offsets and properties right when cells with the same rounded sixth power of their offset belong to the same property and offset (C66_partial). Refuted otherwise: offsets below 0.89 all round to one key, so every shell with different offsets up to 4/5 is wrong (C66_small_false, C66_rounding_false), and the map is shared by all shells, so cells of a second shell move to the first (C66_property_false).
* **C67** (partial) Isotropic plies made orthotropic: Thickness, angle and stiffness for all plies, density without mass multiplier (C67_partial), other materials unchanged (C67_others), equal materials replaced by one and different ones by different ones (C67_equal), success (C67_succeeds). Refuted: with a mass multiplier the density is multiplied twice (C67_density_false); thermal expansion is always lost (C67_expansion_false). Layers shared by several composites are not represented.
* **C68** (partial) Discrete elements as written for Code_Aster: Points of symmetric and diagonal type and unsymmetric points (C68_point, C68_point_unsymmetric), full points that are exactly symmetric (C68_point_symmetric_partial), symmetric segments that are not diagonal (C68_segment_partial), structural segments of diagonal type (C68_structural). Refuted: every segment reported diagonal or unsymmetric is written with a keyword that does not go with its values (C68_segment_diagonal_false, C68_segment_unsymmetric_false); structural segments of symmetric type are written with wrong signs or without their off-diagonal terms (C68_structural_symmetric_false); their mass throws (C68_structural_mass_false). The meaning of the keywords is that of AFFE_CARA_ELEM as generally known; the manual of Code_Aster was not at hand to check it. The printing of the numbers is not modelled.
* **C69** (partial) Scalar springs as written for Code_Aster: What is written are springs in all three or six directions (C69_partial); refuted for every spring of non zero stiffness (C69_false).
* **C70** (partial) Splitting springs by dofs: When one set needs splitting, its mass is null and the generated names are free (C70_partial); nothing changes when no set does (C70_unchanged). Refuted: two sets that need splitting always end the translation, because all sets have the same name (C70_two_false); masses are lost (C70_mass_false).
* **C71** (proved) Direct matrices are written whole for Systus matrix files: Every symmetric direct matrix, any number n of degrees of freedom by node. Coefficients beyond n are refused (C72_refused). Numbers are exact; the formatting of doubles is not modelled.
* **C72** (partial) Direct matrices are written whole in Systus tables: At most nine nodes, the default of the translator (C72_partial), and at most 99 tables (C72_reference_partial); refusal of missing degrees of freedom (C72_refused). Refuted beyond: C72_nodes_false, C72_reference_false, and in general C72_collision_false (ranks i, j + 10 and i + 1, j share their codes in every matrix), C72_reference_always_false.
* **C73** (partial) Direct matrices replaced by discrete elements keep their coefficients: C73_partial holds when no node is coupled to two others and coefficients are null or above the tolerance. C73_chain_false: in a chain of three nodes a coefficient is halved, because every block is divided by the number of segments of the first node of the pair. C73_shared_false gives the value for every matrix: between two coupled nodes, the coefficient divided by the number of nodes coupled to the first one. One direct matrix in the model; floating point is exact.
* **C74** (partial) Virtual constraints of replaced matrices block only unused degrees of freedom: C74_partial: degrees of freedom of other elements or named by constraints are never blocked. C74_translations_false: the set of required degrees of freedom is filled in a copy, so every translation of a node of the matrix that nothing else names is blocked, even with coefficients. C74_rotations_false: a segment is asked for rotations before it is filled, so its unused rotations are not blocked.
* **C75** (partial) The result of a solver run is reported faithfully: C75_aster, C75_systus are equivalences; C75_topaze_partial needs a data file. C75_syntax_false: the test for the exit code 4 is made on the status of system, where the code is in the second byte. C75_topaze_false: without data file the exit code is read uninitialised. The file system is a parameter.
* **C76** (partial) Contradictory translation modes are refused: C76_partial. C76_mesh_strict_false: the variable that records mesh-at-least is never set, so it is accepted together with strict.
* **C77** (partial) The exit status of the program tells the kind of failure: C77_partial and C77_parser hold below the log level DEBUG. C77_crash_false: refused options and unknown output formats are thrown again because the level is TRACE until the parameters are read. C77_tokenizer_false: the tokenizer calls exit(2), the status of a missing input file.
* **C78** (partial) Written Nastran cards are read back: C78_card_partial, C78_file_partial: values that fit in eight columns, short cards, fewer than ten million continuation lines. C78_wide_integer_false: a number of nine digits shifts the columns. C78_negative_integer_false: blanks are put after the sign, and the reader refuses the field. C78_long_format_false: continuations of long cards are read as short. Reals are compared up to the precision of C79.
* **C79** (partial) Written Nastran reals keep the precision of the field: C79_real_partial, C79_usual_partial, in exact arithmetic. C79_short_partial: numbers with no more digits than the field keeps come back exactly (also in the later round trips C80 to C84). C79_small_false: numbers under the tolerance are written as zero. C79_exact_false: numbers that eight columns hold exactly are still rounded to five digits.
* **C80** (partial) Cells written to Nastran are read back: C80_solid_partial, C80_solid_same_card_partial: solids come back unchanged. C80_edges: middle nodes of solids stay on their edges. C80_shell_partial: shells come back with the same number, property and set of nodes; C80_shell_false, C80_shell_files_false: but their nodes come back in reversed order, so that the normal is reversed. C80_quad8_offset_false: the offset of an eight-node shell is lost. C80_unsupported_false: a cell of an unsupported type is written with a blank keyword and is read as the continuation of the card before. The Cosmic dialect is not modelled.
* **C81** (partial) Elements written to Systus have the nodes of their cell: C81_nodes_partial, C81_edges, C81_sides for the supported types; the numbering of edges in Systus is written in the specification from the alternation of corners and middles that the table of the code shows. C81_pyramid_false: pyramids announce five nodes but list eight. C81_lost_false: cells of types absent from the table are left out with only a warning. Material, load and orientation fields are not modelled.
* **C82** (partial) Linear relations are read and written with all their terms: C82_read_partial: the reader is right for any number of terms laid out as in the manual. C82_write_partial: relations of at most four terms come back. C82_more_false: no relation of more than four terms does, because the writer does not count the blank fields; the card is refused, or in tolerant mode the first four terms are kept. C82_set_false: the card carries the internal number of the set but the subcase the original one. The right-hand side of the relation is not written. Node positions are identified with node numbers.
* **C83** (partial) Rigid connections are written and read with all their nodes: C83_rigid_partial, C83_quasi_partial: RBE2 comes back with master, slaves and degrees of freedom. C83_mean_partial: RBE3 comes back when the number of its master equals its position. C83_mean_false, C83_mean_next_false: otherwise the card names another node (in a mesh numbered 1..k, the next one) or the writer reads outside the mesh. C83_number_false: all quasi rigid connections of a set get the number of the set. C83_bar_false: connections without master (RBAR1) are never written, an exception stops the translation. C83_end_false: RBAR with CNB is read with the wrong end as master. The set to which the connection belongs is not represented; empty sets of degrees of freedom are excluded (C02_empty_reads_as_DX). C83_rbar_partial: RBAR with the codes of the first end, or none; C83_rbar_both: refused with codes at both ends. C83_components: a node of a quasi rigid connection has no other components than the connection.
* **C84** (partial) Single point constraints are read and written with their nodes, components and values: C84_read_partial: SPC is read triple by triple, whatever their number. C84_write_partial: each node comes back with its set and its blocked components, imposed displacement 0. C84_value_false: the value imposed has no influence on the file, so a non-zero imposed displacement becomes a clamped node. Constraints without any blocked component are excluded (their card, code 0, is read as DX). SPCADD and the group of nodes made by SPC are not represented. C84_blank_partial: blank components mean all of them.
* **C85** (partial) Nodal forces, moments and gravity are read and written as given: C85_force_read_partial, C85_moment_read_partial: cards with all fields are read as given. C85_force_partial, C85_gravity_partial: what is written is read back up to the precision of eight columns (the factor 1.0 exactly). C85_moment_false: moments are never written: exception in strict mode, silently lost (a message) otherwise. C85_moment_blank_false: a blank component of MOMENT is read as minus the largest double times the factor. C85_grav_system_false: the coordinate system of GRAV has no influence. Exact arithmetic; products that overflow are not represented. The change of the force to the global system is the subject of C62 and taken as given here.
* **C86** (partial) Pressures are read and written as given: C86_read_partial, C86_thru_partial: PLOAD4 with or without nodes, direction, THRU. C86_surface_partial, C86_face_nodes_partial, C86_shell_partial, C86_nodes_partial: written pressures are read back, signs included, up to the precision of eight columns. C86_plain_false: a force on a whole cell, which the reader does make, cannot be written: exception in strict mode, a null pointer is followed otherwise. C86_corners_false: pressures at the other corners have no influence. C86_system_false: the coordinate system is dismissed, and a normal pressure with a coordinate system becomes a force of length zero. Exact arithmetic; the length of the force is a parameter with its square given.
* **C87** (partial) Distributed loads on beams are read and written as given: C87_read_partial, C87_write_partial: loads by fractions from the beginning of the beam come back. C87_point_partial: concentrated loads are refused. C87_start_false: a load that starts further on is written as a ramp just before its start; the load between its two positions is lost. C87_length_false: loads given by lengths are written as fractions. Exact arithmetic.
* **C88** (proved) Coordinate systems may be defined and used in any order: C88_last, C88_position, C88_distinct, C88_global. All histories of definitions and uses; the coordinate systems themselves are arbitrary values. C88_global_position: the global system has position 0 and is not stored.
* **C89** (partial) Nodes are read and written where they are: C89_read_partial: nodes are where their card says, whatever the order of nodes and coordinate systems. C89_write_partial: nodes in the global system come back. C89_moved_false: nodes in another system are written with local coordinates but without the system, so they come back elsewhere. C89_grdset_false: GRDSET stores the internal position of its coordinate system, which GRID takes for the number of one. C89_grdset_partial: correct when number and position coincide. C89_order_false: GRDSET does not apply to nodes before it. Exact arithmetic; precision of eight columns. C89_second_grdset: a second GRDSET.
* **C90** (partial) Isotropic materials are read and written as given: C90_read_partial: every field reaches the material. C90_write_partial: materials whose constants are ordinary numbers come back. C90_other_false: a material without elastic nature is written as a MAT1 without fields, which is read as one with zero stiffness and density. Exact arithmetic; precision of eight columns.
* **C91** (partial) Properties of shells, solids and beams are read and written as given: C91_shell_read_partial, C91_bar_read_partial, C91_solid_read_partial: cards are read as given (materials 2 to 4 and the ratios of PSHELL have no influence). C91_shell_partial, C91_solid_partial, C91_beam_partial: what is written is read back. C91_shell_mass_false, C91_beam_shear_false: mass per area or length, shear factors and the kind of beam are lost. C91_cosmic_false: PBAR for Cosmic Nastran has the fields of PBEAM, so the torsional constant is read as a mass. Not modelled: tapered PBEAM sections beyond passing over their fields (rods are C140). C91_pihex_false: PIHEX, the card of solids for Cosmic Nastran, is read back as a property of shells. Exact arithmetic; precision of eight columns. C91_shear_false: all the fields of PBAR; the area factor of plane 1 (shear along y) is read as the one along z, and that of plane 2 as the one along y.
* **C92** (partial) Masses at nodes keep their mass, offset and inertia: C92_read_partial: CONM2 is read as given except for two products of inertia. C92_products_false: I31 and I32 are exchanged (the arguments of the constructor are in another order). C92_write_partial, C92_inertia_false: the mass is written, its inertia and offset are not. C92_aster_partial: masses with inertia reach Code_Aster; C92_aster_offset_false: the offset of masses without inertia does not; C92_multiplier_false: the multiplier is applied to the mass and not to the inertia. C92_systus_partial, C92_systus_strict_partial, C92_systus_offset_false. CONM1: C92_matrix_partial (first five rows), C92_row_false (a card with its sixth row is refused), C92_blank_false (nothing is read after a blank entry), C92_diagonal_false (the writer leaves out the diagonal, so a diagonal mass matrix comes back as zero). Exact arithmetic; precision of eight columns. C92_aster_inertia_partial: masses with any inertia term, or with neither inertia nor offset, reach Code_Aster. C92_absolute_false: with CID = -1 the position of the mass is read as an offset. C92_point_strict: points with stiffness or damping are refused exactly in strict mode.
* **C93** (partial) Springs and dampers are read and written as given: C93_read_partial: any rows in any order (GE and RCV have no influence: the code warns that they are not supported). C93_write_partial: the program reads its own card back. C93_layout_false: the written card has a number where the manual has the flag, so no other program reads it. C93_short_false: a row K with missing fields at the end of the card is an error. Exact arithmetic; precision of eight columns.
* **C94** (partial) Groups, cells and numbers survive in the MED mesh file: C94_nodes, C94_cells: the families, for any groups. C94_connectivity, C94_cell_numbers, C94_names: cells, numbers and names. C94_group_names_partial: names up to 80 characters; C94_long_names_false: longer names are cut and may coincide. C94_family_names_partial: names of families are distinct if group names contain no underscore and do not look like names made up by the writer; C94_family_names_false: groups A, B and A_B give two families with the same name; C94_family_name_length_false: names of families may exceed the 64 characters of MED. The MED library itself is not modelled: its input is.
* **C95** (partial) Results printed by Nastran become the tests of their subcase: C95_pages_partial: displacements, for whole files. C95_frequencies_partial, C95_complex_partial, C95_stresses_partial: the other tables, from their title to their end. C95_unknown_false: a subcase that the model does not have is undefined behaviour (the analysis is used before it is compared with null). C95_second_table_false: a second table under the same subcase goes to every analysis. C95_stale_step_false: a page that begins with its subcase keeps the load step of the page before. C95_scalar_false: the row of a scalar point ends the table and the rest of it is lost, even in strict mode. C95_abbreviated_false: 1.5-100 is read as 1.5. C95_seven_words_false: a line of page of seven words after frequencies is an error. C95_no_analysis_false: complex displacements in a model without analysis are undefined behaviour. Missing: rounding of numbers, the groups made for Code_Aster.
* **C96** (partial) The reading of a result file ends: C96_ends_partial: every file ends if it ends with a newline, or its last line is not the first line of a page. C96_cut_false: a file cut, without newline, after the first line of a page in a table of stresses is read for ever (whatever the number of turns allowed). readLine_eq justifies describing a file by its lines that are not blank.
* **C97** (partial) Subcases select what they name: C97_subcases_partial, C97_single_partial: whole files, for SOL 101, 103 and 106. False in parts: C97_never_selected_false (for every file: BCONTACT, STRESS and OFREQUENCY are compared over 4 characters with longer words and never selected); C97_forces_false (SPCFORCES and MPCFORCES select supports); C97_complex_false (SOL 110 takes CMETHOD for METHOD); C97_writing_false (solutions in small letters give no analysis, a tab after a command above the subcases reads beyond a vector, and by the standard every selection without options erases the end of a vector). Inside subcases values may have several words (titles, labels). Missing: commands with options, buckling and frequency analyses, LOADSTEP comments, files with matrices. C97_numbers: for every file, no two analyses of a type and no two lists that are read have the same number; a number that comes again ends the program, so the partial theorems are for subcases with different numbers.
* **C98** (partial) Combinations of subcases have the coefficients given: C98_combination_partial: the coefficients in the places 1, 3, 5, … C98_second_false: for every combination, the subcases in the places 2, 4, … have no coefficient (`i++` in the body and in the loop). C98_missing_false: without SUBSEQ the end of the map is followed. C98_texts_false: whole files; more coefficients than analyses are undefined behaviour, spaces after commas end the program. The combination is assumed to have a number no analysis has.
* **C99** (partial) Lists of numbers are read as they are written: C99_sets_partial, C99_subcases_partial: whole files with SET commands above the subcases, without and with subcases. False in parts: C99_comma_false (a list that ends with a comma at the end of the file is read for ever, whatever the number of turns), C99_largest_false (a range up to the largest int overflows), C99_forms_false (EXCEPT leaves the list out, BY ends the program, without an equal sign all numbers before the last space are lost). Missing: ALL, lists in subcases, order and repetitions (kept in a std::set). C99_number_again_false: a SET number that comes again ends the program; C99_subcases_false: so do lists with the same number in two subcases.
* **C100** (partial) Analyses written to Nastran are read back: C100_read_back_partial: every number of linear static analyses with at most one set of each type (LOAD, DLOAD, LOADSET, SPC, MPC) and one displacement output with one group, groups of any size that are not empty, in both dialects. False otherwise: C100_no_analysis_false and C100_missing_set_false (for every model: undefined behaviour without analyses, or with a set of constraints that is not found), C100_two_sets_false, C100_common_set_false (`ALL=` and `CONTACT=` are not read), C100_kinds_false (modal and nonlinear analyses are written without METHOD and NLPARM and not read back), C100_mixed_false (all analyses take the kind of the first one), C100_outputs_false, C100_empty_group_false. Labels are not written. Missing: von Mises outputs. The analyses and the groups are assumed to have different numbers.
* **C101** (partial) The reading of the case control section ends: C101_ends_partial: every file whose last text (without comments and blanks) does not end with a comma. C101_comma_false (and C99_comma_false, for any number of turns): a list that ends with a comma at the end of the file is read for ever. Not covered: the bulk section, to which the program goes on afterwards.
* **C102** (partial) Code_Aster is given the constraints of the model: C102_place: the nodes named by what is written are those of the container, for every container whose groups exist. C102_constraints_partial: the fields that satisfy what is written are those that satisfy the constraints, for every set whose values are numbers and whose coefficients are 0 or above the tolerance, with the physical relations of LIAISON_SOLIDE, LIAISON_RBE3 and LIAISON_MAIL taken as parameters. C102_function_false: a single point constraint with a function writes a message into the command. C102_small_false: coefficients below the tolerance are left out. Contacts are C103.
* **C103** (partial) Gaps between nodes reach Code_Aster: C103_gaps_partial: for cards of one property, without two gaps of the same first node, with directions whose z component comes with a y component, and with the second node held. Each restriction is needed: C103_along_z_false (for every set and node: a gap along z uses a constant that is only defined when the y component is not zero, so no field satisfies the file), C103_two_properties_false (constants of the second property take the names of the first, whose opening is lost), C103_same_node_false (a second gap of a node replaces the first), C103_second_node_false (the displacement of the second node is ignored). Exact arithmetic in place of floating point; the directions are parameters, so that coincident nodes (NaN in the program) are not covered.
* **C104** (partial) Code_Aster is given the loads of the model: C104_loads_partial: for every set without two loads of a kind on one cell, functions and numbers not together, forces along lines on beams and given by functions, gravities of length other than 0. What is read agrees with the loads exactly, for nodal and surface forces up to the tolerance of the comparison with 0. Each restriction is needed: C104_overload_false (of two pressures on a cell the last one counts, for every value of the first other than 0), C104_mixed_false (any set with a function and a rotation), C104_geometry_false (forces along lines that are not beams are not written), C104_constant_false (a constant force along a line is written without its value), C104_temperature_false (temperatures are not written). Exact arithmetic in place of floating point.
* **C105** (partial) The command file for Code_Aster uses names that are defined: C105_readable: for every consistent model with element sets, the file is read to its end if and only if each analysis is Fine with respect to the analyses before it; an exact characterisation, of which C105_names_partial is the sufficient direction. The conditions are defects of the program, each refuted for all models that meet it: complex modal analyses (C105_complex_false: RESU never defined), responses that reuse modes of a response (C105_reuse_false: MOD is used, MO is defined), interpolated frequencies (C105_interpolate_false), damping of type G (C105_damping_false), spread frequencies whose value has another number (C105_spread_false), outputs of frequencies (C105_outputs_false: two commas), load sets with temperatures, DLOAD or empty (C105_loads_false: CHARGE= without a name), constraint sets with contacts in linear analyses (C105_mixed_false), several contact sets (C105_contacts_false), matrices with empty, contact-only or function constraint sets (C105_assembly_false), combinations without materials or before their parts (C105_combination_false, C105_order_false), models without element sets (C105_elements_false). C105_texts: different names are different texts. C105_length_partial: at most 8 characters for numbers below 1000 (100 for the second number); C105_length_false otherwise. Left out: composites, materials, functions that loads use, step ranges without increments.
* **C106** (partial) The modes that a solver computes are those asked for: C106_aster_partial, C106_aster_number: Code_Aster computes the modes asked for if no number is given and there is an upper bound, and otherwise exactly if the lowest modes all lie in the band. C106_systus_partial: Systus from version 2017 on, with an upper bound (at most 100 modes in the band when no number is given), or with lowest modes in the band. False otherwise: C106_aster_lower_false (a number of modes makes both bounds disappear), C106_buckling_false (a band is not written for buckling; ten modes), C106_power_false (incomplete command), C106_systus_number_false (limit of 100), C106_systus_version_false (no bounds before 2017), C106_systus_lower_false, C106_systus_list_false (uninitialised variables are read outside of strict mode). What the commands compute, and what EIGRL asks for, is stated from general knowledge of the solvers; their manuals were not at hand to check it.
* **C107** (partial) Tables keep their points and Code_Aster finds in them the values that Nastran finds: Proved: C107_pairs, C107_endt, C107_tabled1, C107_tables1, C107_tabdmp1 (reading), C107_names, C107_order, C107_twice (names in any order), C107_values_partial, C107_tabled1_values_partial, C107_tabdmp1_values_partial (values, for ascending abscissae, at least two points and a name; with logarithmic axes only between the points). False: in free format without the empty fields of the first line (C107_tabled1_free_false, C107_tables1_free_false, C107_tables1_shift_false), with the field FLAT of Optistruct (C107_flat_false), for damping tables outside of their points (C107_tabdmp1_left_false, C107_tabdmp1_right_false), for tables without a name (C107_parameter_false), with jumps or descending abscissae (C107_ascending_false). The formulas for logarithmic axes are not described; what the programs find in tables is stated from general knowledge of them; their manuals were not at hand to check it.
* **C108** (partial) A response is computed at the frequencies and with the damping that are given: Proved: C108_freq (reading), C108_selected (for every list of cards, the first one with the number that can be read is used), C108_aster_partial (one card FREQ or FREQ1), C108_systus_partial (one card FREQ1 with positive step), C108_crit_partial (constant damping of type CRIT). False: with several cards in the set (C108_several_false), without a readable card the behaviour is undefined (C108_missing_false), steps below the tolerance (C108_small_false), FREQ4 with default values (C108_freq4_false, C108_freq4_number_false), lists for Systus (C108_systus_list_false), damping of type G or Q (C108_types_false, C108_aster_types_false), damping that depends on the frequency for Systus (C108_first_false), an empty table (C108_empty_false). The frequencies of FREQ3 and FREQ4 in Code_Aster are not described; that the sweep of Systus leaves out its initial frequency is inferred from the code, which subtracts a step, not from documentation; default values of Nastran and the meaning of its damping types are stated from general knowledge; its manual was not at hand to check them.
* **C109** (partial) A dynamic excitation has the load, the amplitude and the phase that are given: Proved: C109_phase (the DPHASE is found wherever it stands), C109_aster_partial (RLOAD2 after its static loads, without LSEQ, delay and phase table). False: loads after the RLOAD2 (C109_order_false: the excitation is invalid), LOADSET selected and RLOAD2 before the LSEQ (C109_lseq_order_false: undefined behaviour), several LSEQ (C109_lseq_false), RLOAD1 with static loads (C109_rload1_false), DELAY and DPHASE with the same number (C109_shared_false), delays (C109_delay_false: opposite sign at some frequency), phase tables (C109_table_false), kind of motion in direct responses (C109_motion_false), and for Systus the amplitude in the direct method (C109_systus_direct_false) and static loads (C109_systus_static_false), an empty table (C109_systus_empty_false: undefined behaviour); RLOAD1 with TD (C109_td_false). C109_systus_modal_partial: the forces are written in the modal method. The formula of the phase is that of Nastran as generally known. Missing tables, the sets DLOAD are not modelled, the modal tables of Systus are the subject of C157; C109_delay_false and C109_table_false are about Code_Aster, where nothing but PHAS_DEG carries the phase.
* **C110** (partial) Each analysis is written to Systus once, with its own constraints: Proved: C110_once, C110_shared, C110_merged, C110_own, C110_mesh (default), C110_single, C110_user (lists whose numbers are those of the analyses). False: lists of analyses with different constraints (C110_user_false: the second one is computed with the constraints of the first one), lists with unknown numbers (C110_unknown_false: the numbers of the files move). Constraints are compared by the numbers of their sets, as in the code; the numbers in the text of the option are not modelled.
* **C111** (partial) A load case of Systus has exactly the loads of its set: Proved: C111_numbers, C111_loads, C111_only, C111_gravity, C111_content, C111_lists, C111_sum_partial (sums, option of shells, no load below the tolerance), C111_constraints_partial (constraints and imposed displacements of the analysis, at most one rotational node per constraint in the option 3D). False: constraint with rotations on two nodes in the option 3D (C111_rotation_false: the second rotational node refers to a number that is not that of the vector), imposed displacements with several sets (C111_spcd_false), two accelerations (C111_gravity_false), moments on nodes without rotational node in the option 3D (C111_moment_false), loads below the tolerance (C111_small_false), line loads that vary or have an empty table (C111_line_false), an analysis twice in a list of the user (C111_twice_false). Forces are those in the global system; dynamic excitations are the subject of C109; the vectors of coordinate systems are not modelled.
* **C112** (partial) A parameter has the value of its last PARAM card and its effect: Proved: C112_last (WTMASS, K6ROT, ALPHA1, ALPHA2), C112_last_partial (G, W3, LFREQ, HFREQ, LGDISP if no card has the default value), C112_large, C112_digits_partial, C112_masses_partial (isotropic and orthotropic densities, masses of points), C112_rayleigh_partial (elastic law), C112_complex, C112_structural_partial (G with W3), C112_checkel, C112_reported. False: a later card with the default value does not reset (C112_reset_false); numbers are kept with fifteen decimals, so small ones are lost or lose digits (C112_digits_false); WTMASS is not applied to hyperelastic densities, inertias of points and scalar masses (C112_masses_false); no Rayleigh damping for hyperelastic and orthotropic laws (C112_rayleigh_false); no structural damping without W3 (C112_structural_false); CHECKEL NO in debugging (C112_checkel_false); PRTMAXIM has no effect (C112_prtmaxim_false). What G and W3 mean is taken as generally known. Fields are given as read (C26, C57).
* **C113** (partial) Sets, surfaces and contacts of OptiStruct are read as written on their cards, and surfaces and contacts survive writing: Proved: C113_grid_partial, C113_elem_partial (the value of the set), C113_freq_partial, C113_surface, C113_surface_partial (round trip without reversed faces), C113_contact, C113_contact_fields. False: the group of cells of a SET of elements is always empty, the list being read twice (C113_elem_false); what follows a blank field in a list is lost (C113_gap_false); a word among frequencies makes the reading endless (C113_freq_word_false); the reversal of normals is not written (C113_swap_false); faces without nodes are written as -2147483648 and cannot be read back (C113_blank_node_false); the type of a contact is not kept (C113_type_false). Missing: ranges with BY (C25), the conversion of faces to cells, the set in which the contact is put (the common one).
* **C114** (partial) The tests written for the solver accept the expected results and refuse all others: Proved: C114_aster_all, C114_aster_displacement_partial, C114_aster_small_partial, C114_aster_complex_partial, C114_aster_vonMises_partial (exact above 1e-7), C114_aster_frequency, C114_aster_buckling, C114_aster_excluded; for Systus C114_systus_displacement_partial, C114_systus_small, C114_systus_frequency_partial, C114_systus_complex_partial (what passes is within), C114_systus_instant. False: below 1e-7 the relative tolerance is used as a length (C114_aster_small_false: with 0.02 by default all displacements below 0.0199999 pass); the criterion of masses is chosen by the frequency (C114_rigid_mass_false); a TEST_RESU without tests is written if all frequencies are excluded (C114_aster_empty_false); Systus adds the differences of both parts (C114_systus_complex_false); the tests of all static analyses of a Systus file read the first case of load (C114_systus_subcases_false: no results can pass both); no tests for combinations (C114_combination_false). Missing: the meaning of TEST_RESU is taken as generally known; the moduli are compared by their squares; the printing of numbers.
* **C115** (partial) The data file of Systus contains what it announces: Proved: C115_elements_partial (no set left out), C115_dimension_partial, C115_groups, C115_parts, C115_useful, C115_masses, C115_materials, C115_option_partial. False: with masses at nodes, or relations of other files, more elements are announced than written (C115_elements_false; also in the header and the information section, which print the same number); tubes and composites are written as volumes (C115_dimension_false) and their rotations, like those of discrete segments, are not asked for (C115_option_false); groups of cells that belong to no element set are not written (C115_user_groups_false); names that differ by a space and an underscore become equal (C115_names_false). Missing: the overflow of the counter of parts; nodes, loads, lists, vectors and tables (C111) print the size of what they go through.
* **C116** (partial) Elements of Systus have the material, section and stiffness of the model: Proved: C116_numbers, C116_elastic_partial (positive constants), C116_beam, C116_truss_partial, C116_shell, C116_segment_partial (diagonal), C116_spring, C116_rbe3, C116_components, C116_rbar, C116_relation, C116_skin, C116_matrix, C116_files_partial (springs that have not both). False: a negative Poisson's ratio is not written (C116_poisson_false); rectangular trusses have no area (C116_truss_false); stiffnesses off the diagonal of a segment are lost without a message (C116_segment_false); shear areas are the area times a factor above one, though the comment in the code says that the inverse is needed (C116_shear_false; wrong only if AY is the area that takes shear, as the comment suggests); sets that are not supported have no record but their elements are written (C116_unsupported_false); a spring without directions is undefined behaviour (C116_spring_false); of a spring with stiffness and damping, the number kept is that of the damping matrix (C116_files_false). Missing: rounding to 15 digits; messages.
* **C117** (partial) Relations turned into elements are the relations of the analysis: Proved whenever the translation succeeds: C117_imposed_partial (every relation is imposed, coefficients within the tolerance of comparisons), C117_justified (nothing else is), C117_nodes, C117_table. False: the right-hand side of a relation is lost, without a message (C117_value_false: the elements do not depend on it); more than six relations between the same nodes are refused although the code cuts them into slices of six, as every set is given all of them (C117_many_false); so is a relation of more than twenty nodes (C117_long_false). Missing: floating point; the removal of the relations afterwards.
* **C118** (partial) Rigid bodies and averages turned into elements bind the nodes of the constraint: Proved: C118_rigid, C118_average_partial (the part of slaves with equal components and weight), C118_justified (converse), C118_fresh, C118_total. False: an average with different weights or components is cut into parts that have different multipliers, so the master follows every part by itself and not the weighted average (C118_average_false, for all models); two constraints with one master have different nodes of rotations (C118_rotation_false), of which the map used for boundary conditions knows but the last (example); quasi-rigid constraints are translated as completely rigid, with a message (C118_quasi_false). Missing: what elements mean in Systus is taken from the comments of the code (elements with a common node of multipliers form one relation); coordinates of the nodes; the penalty stiffness.
* **C119** (partial) Additional mass adds its density and nothing else: Proved: C119_aster_partial (if the address of the new material comes last), C119_none. False: with the other order of addresses the additional mass is lost, and modulus and density are doubled, because the copied set keeps the first material and the new cells go to the set that is copied (C119_aster_false, for all models); for Systus every cell is written three times with the first material and the new material is never used (C119_systus_false, C119_systus_lost_false, for all models). That the last assignment of a material to a cell counts in Code_Aster is as generally known. Missing: sets with several materials; division by area or thickness in floating point.
* **C120** (partial) Components added for loads and constraints do not leave the model free to move: Proved: C120_present, C120_minimal, C120_harmless, C120_elements, C120_blocked_partial (in an analysis that needs all that any analysis needs at the node; so for models with one analysis). False: what one analysis needs and another does not is added without stiffness and is free in the other (C120_blocked_false, for all models), and an analysis that needs nothing there has nothing blocked (C120_none_false). Missing: names of groups, which may exist already.
* **C121** (partial) Loads along beams act in Code_Aster where the card says: Proved: C121_table (every table), C121_fraction_partial (the loaded part), C121_increasing_partial, C121_length_partial (beams that begin at the origin and go along x). False: on the rest of the beam the function has no value (C121_rest_false), a load acts beside the loaded part (C121_ramp_false), abscissas decrease for beams that go the other way, which Code_Aster does not admit, as generally known (C121_decreasing_false), lengths are taken for coordinates (C121_length_false), intensities for the projected length for those of the length (C121_projected_false), and beams perpendicular to x end the translation (C121_axis_false). Missing: at which points Code_Aster evaluates the function; extrapolation on both sides is not exchanged when the beam goes the other way, which cannot be seen with the tables of PLOAD1.
* **C122** (partial) Rigid springs become rigid links, other springs and dampers stay: Proved: C122_rigid, C122_kept, C122_kept_any, C122_each, C122_total, C122_viscous_values. False: dampers (PVISC) store no stiffness, so each of them is taken for rigid, its nodes are tied and its damping is set to zero (C122_viscous_false, for every card); a rigid spring to the ground becomes a link without slaves (C122_ground_false); a spring with some rigid directions keeps the largest double as stiffness (C122_partly_false). Missing: what the targets do with that number; that the card names only extension for the first value of PVISC, which VEGA uses along the three axes (C122_viscous_values), is as generally known.
* **C123** (partial) What is fixed to a point is kept when points become segments: Proved: C123_components (every component, for every history), C123_groups (which points are replaced, one cell for each node in a group). False: the group is not added to the new segment, which has no cells (C123_cells_false, for every list of points), so that nothing acts on the nodes; old points are erased. Missing: that the writer writes elements by their cells (SystusWriter), which is only read, not modelled here.
* **C124** (partial) Scalar springs and dampers have the values of their cards: Proved: C124_last, C124_springs (components 0 to 6), C124_ground. False: a damper whose PDAMP comes first has the number for 'no value' as stiffness, which is written (C124_damper_false, for every list; C124_order_false: the other order gives 0); a CELAS2 takes the stiffness of a PELAS with the number of the element (C124_element_false); the constraint of a ground node is in no constraint set (C124_ground_false); a blank second node is refused on CDAMP1 and CELAS2, and node 0 on CELAS2 is not the ground (C124_blank_node_false); a blank second component is refused (C124_blank_component_false); components are taken modulo 256 (C124_range_false). Missing: what the fields mean is as generally known, no manual is available; that only constraints of constraint sets are written (modelled under the writers).
* **C125** (partial) Bars, beams and bushes have the nodes and the orientation of their cards: Proved: C125_sound, C125_complete (all cards CBAR and CBEAM), C125_told (what is left out is told), C125_bush. False: releases and offsets change nothing (C125_dismissed_false, for every card; there is a warning); a vector with a blank component is refused (C125_component_false); a node followed by fields that hold blanks, in free format, is refused (C125_spaces_false); a bush that gives the place of the spring but no orientation is refused (C125_bush_place_false). Missing: the system in which the vector is given (as generally known that of the first node; here the global one) is not modelled; warnings of CBUSH; best-effort mode; reals are exact.
* **C126** (partial) Code_Aster gets the constants of the cards of materials: Proved: C126_cards, C126_twice, C126_elastic, C126_orthotropic, C126_hyperelastic, C126_plastic, C126_assigned. False: the transverse tensile strength YT of MAT8 is never written (C126_strength_false) nor the thermal expansion of MAT1 (C126_expansion_false), for every card; the mass factor is not applied to MATHP (C126_density_false); D1 is written as bulk modulus, which is twice D1 (C126_bulk_false) and the plastic slope H as total tangent slope (C126_slope_false), both as the programs are generally known; blank H or limit of MATS1 are written as -DBL_MAX (C126_blank_false); nothing is written of NLELAST (C126_nonlinear_false); MAT8 with GE is refused (C126_damping_false); a property that names an undefined material dereferences a null pointer (C126_dangling_false). Missing: identifiers of the orders, DEFI_COMPOSITE (see C49 for layers), the names of groups in AFFE_MATERIAU, best-effort mode; numbers are exact, their printing is not modelled.
* **C127** (partial) Load sets have the loads of their cards: Proved: C127_cards_partial (an equivalence: acceptance and meaning), C127_deck_partial, C127_sets_partial, C127_ends. Left out of these and false: a MOMENT with a blank component gets -DBL_MAX times the factor instead of 0, for every such card (C127_moment_false; FORCE is right); the coordinate system of RFORCE is dismissed (C127_system_false); A of RFORCE, in turns by unit of time as the card is generally known, is written as Code_Aster's VITESSE in rad/s, wrong for every A but 0 (C127_turns_false); a rotation about the origin (G = 0) is about a point at -DBL_MAX (C127_origin_false); SPCD with a component that does not exist reads out of bounds (C127_components_false), with second components -1 drops the second displacement (C127_minus_false); a second node written with + makes SPCD refused (C127_plus_false). Missing: best-effort mode, METHOD, RACC and MB of RFORCE (warnings only), the input context of loads; numbers are exact.
* **C128** (partial) Every element set has one model of Code_Aster and characteristics that go with it: Proved: C128_models, C128_fits, C128_discrete, C128_shells, C128_others, C128_only, C128_orientations. False: a beam without cells still has a block (C128_beams_false; not reached as long as sets without cells are removed, which is the default for Code_Aster, ConfigurationParameters.cpp 54); axisymmetric sets have the model of three dimensions (C128_axisymmetric_false; no reader makes them); without element sets the order is closed and not opened (C128_empty_false); skins have no block unless there are solids (in C128_others). Missing: the numbers of matrices and sections (C47, C50, C63, C64, C68, C69), the text of keywords. The table of which characteristics go with which model is as Code_Aster is generally known.
* **C129** (partial) Constraints in the displacement systems of nodes become relations that say the same: Proved: C129_same_partial, C129_seen (the displacement in the system of a node exists and is unique). Missing: rounding; cylindrical systems defined in others. False: nodes given by a group are erased where they are not, which is undefined behaviour (C129_group_false); spherical systems end with an error (C129_spherical_false); on the axis of a cylinder the coefficients are not numbers (C129_axis_false); values given by functions end with an error (C129_reference_false); the relations given by the model (MPC) are left as they are, although their coefficients are for the systems of the nodes (C129_mpc_false; that MPC coefficients are in the displacement systems is as Nastran is generally known).
* **C130** (partial) A strict translation that reports success has written what its analyses use: Proved: C130_loads_partial, C130_constraints_partial, C130_objectives, C130_elements, C130_excitations, C130_refused, C130_succeeds. Missing: static loads in models that also have frequency responses; what nonlinear analyses, responses and eigenvalue searches call besides excitations. False: loads marked beforehand by a combination that copies them are reported as written although they are not (C130_marked_before_false: temperatures); constraints in a set with contacts are called by no analysis, which is reported as a success (C130_contacts_false); requests of stresses are written and reported as incomplete (C130_stresses_false; no reader makes them).
* **C131** (partial) Loads act on components that exist, and expected results are tested exactly there: Proved: C131_kept (which expected results stay), C131_testable (what stays has its component), C131_loads_partial (loads of the sets of an analysis and constraints), C131_final (loads after replacement of combined sets). False: the components are collected before combined load sets are replaced, so loads that come through a LOAD card may act on components that do not exist and expected results there are dropped (C131_combined_false, with the case C131_combined_case); a set of expected results shared by two analyses loses a result for both when one lacks the component (C131_shared_false; the readers give each analysis a set of its own, so only the common set and users of the library meet it).
* **C132** (partial) Matrices entered on cards have the coefficients of their cards: Proved: C132_coefficients and its converse C132_read, for cards with one component in each field for it, in exact arithmetic and strict mode; imaginary parts are not looked at, since only real matrices are accepted. False: a name selected twice fills only the first of the two matrices (C132_shared_false, for all cards); names separated by blanks in the command are joined into one name that no card has, and the command is accepted although lists are to be refused (C132_list_false); a field with several components is accepted and its first taken (C132_component_false).
* **C133** (partial) Contacts entered on cards join the lines, surfaces and bodies they name: Proved: C133_cards, C133_deck, C133_zone, C133_slide and C133_facets, for cards without THRU or BY, in strict mode, when no two kinds of targets share a number. False: a body numbered as its own surface is always refused (C133_number_false, C133_numbers_false); with shared numbers the target found depends on the order of a hash table (C133_order_false); a surface of nodes whose list is not a multiple of four is read beyond its end (C133_facets_false, C133_triangle_false), and a blank fourth node ends the list (C133_blank_false); an empty line or a missing friction is undefined behaviour (C133_undefined_false); BCONP with a blank friction or coordinate system is refused (C133_required_false); the type of penetration and the factor are ignored (C133_symmetry_false). The zones of BCTABLE are selected by no case (C97_never_selected_false).
* **C134** (partial) Loads and groups have the elements their cards name: Proved: C134_named when every element stands before the cards that name it, and C134_group for every file. Element numbers are distinct and the numbers of nodes right. False: an element that does not stand before its card ends the program, is undefined behaviour or is written as the cell M2147483648, according to the writer (C134_later_false, for all files; C134_range_false for ranges with gaps); groups silently lose such elements (C134_lost_false); so the order of the cards changes the model (C134_order_false). Cells updated afterwards are the subject of C15.
* **C135** (partial) A union of sets of supports has the supports of its sets: Proved: C135_union when no union has unions among its sets, C135_order, C135_accepted (an equivalence), in strict mode. False: a union of unions is accepted and loses the supports of the inner unions (C135_nested_false, for all cards); a union that no case selects is refused (C135_unselected_false, for all cards). That supports registered under a number are found under it is C29. What passes over the model make of unions is in C39.
* **C136** (partial) Nodes written to Systus are held as the model says, in their own axes: Proved: C136_held (six components), C136_held_solid (three components, with nodes of rotations), C136_axes. The angles of a system are a parameter here; that they give the axes is C61. False: no model with a node in a spherical system is written: the system says it is cylindrical, its pointer is cast to the wrong class, and the conversion ends with an exception at best (C136_spherical_false, for all models); the rotations of a master of two rigid bodies are held on the node of the last body only (C136_bodies_false). That only the constraints of the first analysis of a subcase count is C110; the numbers of lists on the lines are those of C111.
* **C137** (partial) Axes of elements written to Systus are those of the model: Proved: C137_bar (bars whose ends differ by more than the tolerance), C137_vector (orientations entered as a vector meet its hypotheses), C137_spring, C137_triangle (triangles that are not horizontal). Real arithmetic, not floating point; springs whose first axis is within 1e-8 of the vertical are left out (C61); that Systus counts angles from these axes, and their unit, is taken from the program's comments. False: the test meant to dismiss cylindrical and spherical systems never holds, so a spring in a cylindrical system gets the axes of the system wherever it is (C137_cylindrical_false, for all); the angle of a shell with more than three nodes does not depend on the shell (C137_quadrangle_false; no Nastran shell reaches this with axes of its own); the orientation of a spring with one node is dropped with a warning (C137_point_false).
* **C138** (partial) Coordinate systems pass through Nastran cards unchanged: Proved: C138_points (CORD2R, CORD2C, CORD2S on cards of small fields, coordinates to the precision of a field), C138_nodes (CORD1R). That a reference may be defined later is C45, the axes from nodes C43. False: the card written for a system has its origin from the field of the system of reference on and no other point, so the program itself refuses it, for every system (C138_written_false); spherical systems are written under the name of cylindrical ones (C138_spherical_false). The program's comments say the writing is to be completed.
* **C139** (partial) Modal analyses search the modes that the cards ask for: Proved: C139_cards (iff, strict mode), C139_written (Code_Aster and Systus). Numbers are exact. False: any other norm than MASS is taken for MAX although the warning says MASS (C139_norm_false); the norm of EIGB is looked for one field too far, so it is not read (C139_eigb_false) and the number of a grid point is taken for it (C139_grid_false); EIGC has no effect on any file (C139_complex_false); a set without a card is undefined behaviour (C139_missing_false), and of several cards in a set only the first counts (C139_several_false).
* **C140** (partial) Rods keep their section: Proved: C140_cards (iff), C140_sections (any order of cards; files of rods only), C140_aster (bar with the area, added density gives the mass per length; linear analyses, areas of at least epsilon). Numbers are exact. False: the torsional constant has no effect in linear analyses (C140_torsion_false); with large displacements a rod of PROD gets the bending stiffness of a circle (C140_large_false) and one of CONROD does not (C140_same_false); the warning that the mass of PROD is dismissed is wrong (C140_warning_false); in Nastran files the address of the section is written instead of the card PROD (C140_nastran_section_false) and spoils the next card (C140_nastran_next_false), and the rods have no card name, so that they continue the card before (C140_nastran_rod_false). The texts of addresses are parameters.
* **C141** (partial) A file may be split into included files: Proved for the strict mode: C141_order (cards in order), C141_flat (same as the single text), C141_name, C141_missing. Cards are those of the round trips of C22 and C23; joining paths is left open. False: a file that includes itself is read without end (C141_itself_false); a name that reaches column 73 makes the next card disappear (C141_long_name_false); so does a continuation after the inclusion (C141_continuation_false); cards after ENDDATA are read (C141_enddata_false).
* **C142** (partial) Nonlinear subcases follow each other: Proved: C142_card, C142_path, C142_ends, C142_increments, for numbers of increments that are positive and fewer than 2^49 subcases, all of them nonlinear; numbers are exact, and the values of the functions are those of Code_Aster as generally known. False: a number of increments that is zero is accepted and gives an empty name where the list of instants is used (C142_zero_false); a number with nothing but NLPCI is used as if it had NLPARM, also in strict mode, and a missing number without it (C142_strategy_false); after a subcase of another type the loads of the latter are taken away from its result (C142_mixed_false); imposed displacements are applied in full at the first increment (C142_imposed_false). Materials, contacts and the solver are left out.
* **C143** (partial) A file without a SOL statement gets the analysis it calls for: Proved: C143_type (one analysis of the right type, nothing else changed), C143_common (works when the objective is in the common set, as in the tests). False for files: with a search of frequencies the translation is undefined behaviour (C143_modal_false), with a nonlinear strategy it is an error or undefined behaviour (C143_nonlinear_false), and a static analysis applies none of the loads and supports of the file that have numbers (C143_static_false).
* **C144** (partial) Displacements asked for are extracted by Code_Aster: Proved: C144_requested_partial, for every file and mesh when the lists asked for name nodes of the mesh only, are not empty, and no group has their names. False otherwise, for every file: a number without a node becomes a node at -DBL_MAX of the mesh that is written (C144_missing_node_false), a list that is ALL or not there ends the translation (C144_all_false), PHASE is lost (C144_phase_false), each subcase gets the requests of all subcases with the same list (C144_twice_false), analyses in frequency without a list get no displacements (C144_frequency_all_false). C144_files_false has whole files. Not modelled: LIST_FREQ (never selected), groups of cells in outputs.
* **C145** (partial) The file of data of Systus can be read back: Proved: C145_counts, C145_dofs, C145_node_loads, C145_element_loads, C145_cases, C145_names, C145_line, C145_title for all models whose analyses, and whose sets of loads in an analysis, have different numbers; C145_imposed_partial and C145_references_partial if in the option 3D no constraint concerns two rotational nodes. False: a rotation imposed on two rotational nodes makes a list name a vector that is not in the file (C145_rotation_false); a name with a quotation mark ends there (C145_quote_false). The decimal writing of numbers outside the lines of load cases is not modelled, nor the lines of materials, groups and tables (C115, C116). The number of elements that is announced is the subject of C115.
* **C146** (partial) What a case asks for and the file does not contain is refused, or left out and nothing else: Proved: C146_complete (all outputs, all modes), C146_cases (Code_Aster and Systus: what is written, exactly), C146_strict_nastran_partial (strict mode, output Nastran: refused iff a selected set of loads is missing, or an unselected force has an unknown coordinate system). False: for Code_Aster and Systus strict mode does not refuse missing loads or supports, they are dropped in silence because empty sets are removed before the validation (C146_strict_false); for Nastran outside of strict mode the whole case is lost instead of the missing loads (C146_case_lost_false), and missing supports are never noticed (C146_support_false); a missing method is a null pointer in all modes (C146_method_false); a selected force in an unknown coordinate system ends the translation with a logic error in all modes (C146_system_false); one that is not selected ends the program with std::terminate outside of strict mode, since the function LoadSet::empty is noexcept and the erased load is still referenced (C146_terminate_false). Not modelled here: LOAD and SPCADD combinations, other kinds of loads and constraints, files without a case (C143), other passes of finish.
* **C147** (partial) Scalar points become nodes with a single degree of freedom: Proved: C147_card (any state of the mesh: points, other nodes, constraint, group) and C147_cards (any sequence of cards). False: a point whose number is that of a GRID moves this node to the origin and holds it, without an error (C147_clash_false, for every node); in a list followed by a range, or with a blank field inside, the points after it are not created and no error is reported (C147_mixed_false, C147_blank_false). That every analysis takes the common set (Analysis.cpp 263-267, the fields of which are modelled in Verif/Sets) is not part of this model. allowDOFS (the degrees of freedom recorded in the node) is not modelled.
* **C148** (partial) In nonlinear analyses each cell has the law its material cards ask for: Proved: C148_laws (which occurrences there are, exactly), C148_once (one occurrence for a cell of one property with one material), C148_defined (ECRO_LINE for plasticity and ELAS_HYPER for hyperelasticity are written). False: nonlinear elasticity has the relation ELAS_VMIS_LINE but no ECRO_LINE, and its table is lost (C148_nlelast_false, for every such material); with PARAM LGDISP cells that are no beams or rods, and materials with MATS1, have no DEFORMATION (C148_large_false, for all of them). What the relations of Code_Aster need is as generally known: no manual is in the repository. Not modelled: contacts of the analysis, names of groups and cells.
* **C149** (partial) The options of a translation are those of the command line, then of the configuration file, then the documented ones: Proved: C149_parameters (equivalence, for all sources), C149_version, C149_no_input. False: the dialect of Nastran cannot be given in the configuration file (C149_dialect_false); an option without value is on whatever the file says, strict=false included (C149_flag_false); a path that begins with a quote loses its last character even when this is no quote (C149_quote_false); an unknown level is taken as INFO (C149_level_false); texts after the list single are neither read nor refused (C149_single_false); the rigidity of rigid elements is silently ignored with multipliers (C149_rigidity_false); refused values end with the status of a crash (C149_status_false, see C77). Both options mesh-at-least and strict are accepted: see C76. The behaviour of Boost Program_options (precedence, repeated options, values of options without value) is as generally known: the library is not in the repository. Not modelled: the texts of the two sources, abbreviations and short names, expand_user, existence of files.
* **C150** (partial) The failure index of every ply of a composite is that of its own stresses, angle and strengths: Proved, where every ply has an orthotropic material (the pass of C67 makes it so): C150_indices_partial (the printed stresses and indices are those of each layer, for all stresses and angles), C150_destroyed, C150_names_partial (one composite with this criterion), C150_texts, C150_theory, C150_refused. False: with two composites the same formulas are given the same names in one analysis (C150_names_false); a blank strength in compression is written as -DBL_MAX instead of that in tension, so that no compression along the fibres fails (C150_blank_false); plies of an isotropic material get no strengths at all and never fail, although MAT1 may give them (C150_isotropic_false); names of more than 8 characters (C150_length_false). The commands of Code_Aster and the criterion are as generally known. Left out: rounding of what is printed, the cells named by writeCellContainer, whether SIGM_ELNO exists in the result of every kind of analysis.
* **C151** (partial) A table of results given with the model becomes the tests of its analyses: Proved: C151_table_partial (the tests of every printed table, all of it read), C151_analysis_partial, C151_own_partial (numbers in order), C151_ends, C151_reader. False: a column whose name begins with a known one (NOEUD_CMP) loses the whole table without an error (C151_prefix_false); so do a missing file (C151_missing_false), a name without extension (C151_extension_false), results not named RESU (C151_named_false) or whose number is that of no subcase (C151_lost_false); a table without the column RESULTAT is undefined behaviour (C151_unnamed_false), a comment at the end of the file an exception (C151_comment_false); NUME_ORDRE is ignored, so that the modes of a table contradict each other (C151_order_false); the table printed for a translation names analyses and nodes by other numbers than those that are looked for (C151_own_false); a strict translation to Systus fails at the first test (C151_systus_false). What Boost.Spirit and Code_Aster do is as generally known. Left out: texts in quotes beyond the reading of them, rounding, hexadecimal numbers.
* **C152** (partial) The files of a translation are those that are run, and a run is judged by its own results: Proved: C152_aster_names, C152_systus_names_partial (`_ALL` not in the name), C152_input, C152_aster_fresh_partial and C152_systus_fresh_partial (a run is reported as on a directory without earlier results, when they can be removed), C152_aster_idle_partial, C152_systus_idle_partial (no success without a result), C152_command_partial (no blanks). False: two models whose names differ by the extension share their files (C152_same_false); an earlier result that cannot be removed is judged in place of that of the run (C152_stale_false); results are removed before a remote run is refused (C152_remote_false); an output directory with a blank in its name (C152_command_false); a model whose name begins with SYSTUS has the data files it has just written removed (C152_deleted_false); results of models whose names begin with that of the model are removed (C152_others_false); stale data files are run with topaze (C152_topaze_false), where the errors of all subcases but the last are overwritten (C152_output_false). The shell, the file system and the solvers are modelled as generally known: commands as texts, directories as flat lists of files, links and access rights only as a file that cannot be removed.
* **C153** (partial) Loads on faces of solids, and surfaces made of faces, act on surface cells that are these faces, with the normal outwards: Proved: C153_type, C153_skins (all loads and all surfaces of a model, when the names of the groups are free), C153_one_cell, C153_outward and C153_pushes (affine images of the reference solids: every tetrahedron, pyramids on parallelograms, prisms, parallelepipeds; corners of curved cells). False: the third face of HEXA20 has its skin inside out, so a pressure on it has the wrong sign (C153_hexa20_false), and its second face has a node twice (C153_twice_false); the flag of OptiStruct that asks for the opposite normal is ignored (C153_swap_false). Not covered: solids with faces that are not flat or not parallel-sided, left-handed solids, the sense of PRES_REP in the solver (as commented in the writer).
* **C154** (partial) Rigid elements in a Systus file are as stiff as the stiffest material times a length of the mesh, in any units and any order: Proved: C154_modulus, C154_stiffness, C154_between, C154_order, C154_units, C154_positive, C154_same, C154_options. False: without an elastic part (springs, matrices, other laws) rigid bars have the rigidity 0 (C154_springs_false); when all cells of some type, such as rigid bars or springs, have their nodes at one place the smallest element of an empty list is dereferenced, also with the Lagrange formulation (C154_coincident_false; in practice a value left in memory is read and not used); the older option for Lagrange multipliers sets the rigidity of the penalty (C154_lagrangian_false). The branch that raises a zero length to 1 is never taken. Not covered: rounding, the smallest and largest distances (no translation uses them), the change of the cells of rigid sets (C118).
* **C155** (partial) Each direct matrix in a Systus file is carried by one cell whose nodes are in the order in which the coefficients are numbered: Proved: C155_cells_partial, C155_order, C155_split. Missing from the full statement: C155_cells_partial requires that no group of the model is called DM and a number, and that matrices have at most 20 nodes. False otherwise: a group of cells called DM1 in the model stops the translation (C155_name_false), as does a matrix of more than 20 nodes, which the option for the size of matrices lets through when it is above 20 (C155_large_false). Not covered: the flag for virtual cells, groups of element sets that do not exist.
* **C156** (partial) Each load set and constraint set of the study has a group of nodes of its own with exactly the nodes it acts on: Proved: C156_names, C156_length, C156_groups (under the condition that no group of the model has the name of such a group). False otherwise: a group of the model with such a name, for instance LS_LOAD_1, stops the translation (C156_taken_false). That two sets of one type never have the same number is an invariant of the containers of the model (C07); the nodes of each load are taken as given. Not covered: groups of displacement outputs.
* **C157** (partial) A modal harmonic response in a Systus file has the amplitude that the table of its excitation gives: Proved: C157_tables, C157_modal_partial (method modal, one excitation in the first set of loads). False: without an option the method is auto, for which the response is modal but no table is made, so that the frequency dependence of every excitation is lost without a message (C157_default_false); of several excitations in the first set only the last table is used (C157_several_false); when only a later set has an excitation the response refers to table 0, which does not exist (C157_later_false); a missing table is dereferenced (C157_missing_false; in strict mode such an excitation is refused before). The interpolation in tables is that of Systus as generally known.
* **C158** (partial) A sliding contact for Systus ties each slave node to the nearest master face: Proved: C158_cells_partial, C158_measure, C158_names. False: the face chosen is that whose box is nearest; a node in the box around an oblique face gets it however far the face is (C158_box_false); a slave node between several faces gets one cell for each, so that its contact counts several times (C158_repeated_false); faces of quadratic solids are refused (C158_quadratic_false); without master faces an empty result is read (C158_empty_false). The search of Boost is modelled by what it answers: any nearest value. Coordinates are exact.
* **C159** (proved) Each cell has the orientation it was given, in the Code_Aster file: C159_groups, C159_accepted, C159_orientation. The translation is accepted for at most 9999999 systems when the names of the groups have an underscore, as those of all groups made by the readers of Nastran and Optistruct files; C159_taken and C159_many show what happens otherwise. The groups of nodes are groups without cells in the model. That cells of updateCell keep their groups is C15.
* **C160** (proved) The files of element matrices for Systus hold the matrices, and each subcase has access to its own files: C160_file, C160_unique, C160_coefficients, C160_names, C160_access, C160_table. The layout is the one the code writes; that Systus reads it so is not known from the repository (the code says that the meaning of several lines is not known). How numbers are printed is not modelled: with 15 digits a value is not always exact. Which number an element refers to is C116, with the case of springs where it is wrong (C116_files_false).
* **C161** (partial) The displacements of beams are reported in their own axes: C161_partial, C161_none, C161_solids for cells that have an orientation of their own: each is asked for once, with its nodes and vector, and nothing else is. False otherwise: cells that share an orientation, as two beams between the same nodes with the same vector do, are in one group and are left out (C161_shared_false), and a model whose only such elements are trusses, with PARAM LGDISP, gets a command without any action (C161_trusses_false), since trusses have no orientation. The exception that the code makes there for models of solids alone is never met (C161_solids). What Code_Aster does with REPERE='LOCAL' and VECT_Y is not modelled.
* **C162** (partial) A property applies to the elements that refer to it, whatever sets the file has: C162_partial for files in which no set has the number of a property and no two sets have the same number, in any order of the cards. False otherwise, although Nastran numbers sets and properties independently (as generally known): the group of a property is looked for by number among all groups. After a set of elements, the property with its number applies to the elements of the set too (C162_set_false for every state, C162_confused_false a whole file); a set after an element of the property with its number is refused (C162_refused_false), and so are elements and properties after a set of nodes with their number (C162_nodes_false). A set that is only a list of numbers, as SET of the case control and SET1, prevents any SET3 with its number (C162_list_false; the case control is numbered apart, as generally known). Elements are kept by their numbers, and those of a set that are not in the mesh yet are left out; the material and the other data of a property are not in this model.
* **C163** (proved) Rigid connections are read with all the nodes of their cards, or refused: C163_crigd1, C163_rbe2, C163_rbe3 say what an accepted card had in its fields, for all texts; C163_read that CRIGD1 cards in decimal notation are accepted, with or without the blank second field (for RBE2 and RBE3 that is C83). A range with THRU, which the manual of CRIGD1 has (as generally known), is refused (C163_range); outside strict mode it is reported, but the nodes before the range stay connected (C163_kept). Strict mode is what readBulk models.
* **C164** (partial) The surfaces in contact are turned outward: C164_partial for zones whose nodes have no rotations, C164_slides for sliding surfaces in all models. False otherwise: the node with the lowest position in the first zone decides for the whole set. If it has rotations, because a beam or a shell is attached there, the skins of solids get ORIE_PEAU_2D (C164_rotations_false, for all sets of constraints); if it has none, surfaces of shells get ORIE_PEAU_3D (C164_shells_false). What the keywords do in Code_Aster is as generally known. That the bodies and surfaces exist is C133.
* **C165** (partial) The solid under a cell of the skin is found: C165_sound (what is found is right, in every mesh), C165_found (exactly one of found and failed, for meshes whose solids have tables of faces), C165_only (the solid found is the one that has the nodes). False of the intended faces of quadratic hexahedra: the table of the second face has a node twice (C18), so nothing is found under the skin there (C165_hexa20_false, for every such cell); and a solid without a table ends the search (C165_types_false). The order of types and positions is a list in any order. The function is public but only called by the tests of the project.

## Testing the theorems against wrong programs

`seeded/LOG.jsonl` has one line for each edit of the model that was tried in a scratch copy. The field `outcome` says what the
attempt shows:

* `property theorem failed`: a theorem named after a property does not prove any more.
* `only lemmas or examples failed`: the error is in a helper lemma or an example on the way to the property theorems. This is
  weaker evidence: the proof as written breaks, but it was not shown that the property theorem has become unprovable.
* `survived`: everything still proves. The note says why, or the theorem was tightened and the edit tried again.
* `edited model does not compile`: the edit itself was rejected (types, termination). It shows nothing about a theorem.

| outcome | attempts |
|---|---|
| property theorem failed | 745 |
| only lemmas or examples failed | 726 |
| survived | 47 |
| edited model does not compile | 11 |

Until the 677th line only edits that made the build fail were logged; seven that survived were added afterwards, and entries that
had survived an earlier attempt were marked. The field `outcome` of those lines was computed from the field `failed`.

## What is modelled, by source file

Lines of each file that are cited by a definition of the model, as counted from the comments. A cited line is not always modelled
in full: of the writer for Code_Aster, for example, large ranges are cited by the model of the names of its concepts (C105),
which leaves out the other keywords. Each comment says what is left out.

| file | lines | cited |
|---|---|---|
| Abstract/Analysis.cpp | 757 | 261 |
| Abstract/Analysis.h | 297 | 57 |
| Abstract/BoundaryCondition.cpp | 17 | 0 |
| Abstract/BoundaryCondition.h | 38 | 3 |
| Abstract/ConfigurationParameters.cpp | 132 | 71 |
| Abstract/ConfigurationParameters.h | 263 | 59 |
| Abstract/Constraint.cpp | 1041 | 702 |
| Abstract/Constraint.h | 347 | 245 |
| Abstract/CoordinateSystem.cpp | 517 | 478 |
| Abstract/CoordinateSystem.h | 273 | 213 |
| Abstract/Dof.cpp | 579 | 408 |
| Abstract/Dof.h | 240 | 89 |
| Abstract/Element.cpp | 1426 | 1168 |
| Abstract/Element.h | 705 | 392 |
| Abstract/Loading.cpp | 887 | 792 |
| Abstract/Loading.h | 498 | 445 |
| Abstract/Material.cpp | 352 | 274 |
| Abstract/Material.h | 248 | 79 |
| Abstract/Mesh.cpp | 911 | 787 |
| Abstract/Mesh.h | 303 | 121 |
| Abstract/MeshComponents.cpp | 1090 | 836 |
| Abstract/MeshComponents.h | 687 | 241 |
| Abstract/Model.cpp | 2524 | 1997 |
| Abstract/Model.h | 641 | 239 |
| Abstract/Object.h | 224 | 97 |
| Abstract/Objective.cpp | 377 | 157 |
| Abstract/Objective.h | 344 | 148 |
| Abstract/Reference.h | 183 | 76 |
| Abstract/SolverInterfaces.cpp | 263 | 110 |
| Abstract/SolverInterfaces.h | 219 | 9 |
| Abstract/Target.cpp | 122 | 44 |
| Abstract/Target.h | 166 | 16 |
| Abstract/Utility.cpp | 169 | 22 |
| Abstract/Utility.h | 168 | 35 |
| Abstract/Value.cpp | 358 | 151 |
| Abstract/Value.h | 480 | 219 |
| Aster/AsterModel.cpp | 220 | 148 |
| Aster/AsterModel.h | 43 | 0 |
| Aster/AsterRunner.cpp | 120 | 77 |
| Aster/AsterRunner.h | 29 | 0 |
| Aster/AsterWriter.cpp | 3177 | 3023 |
| Aster/AsterWriter.h | 89 | 0 |
| Aster/MedWriter.cpp | 362 | 238 |
| Aster/MedWriter.h | 77 | 6 |
| Commandline/VegaCommandLine.cpp | 683 | 566 |
| Commandline/VegaCommandLine.h | 83 | 0 |
| Commandline/vegamain.cpp | 57 | 14 |
| Nastran/NastranParser.cpp | 3831 | 3584 |
| Nastran/NastranParser.h | 1006 | 33 |
| Nastran/NastranParser_geometry.cpp | 721 | 669 |
| Nastran/NastranParser_param.cpp | 311 | 237 |
| Nastran/NastranRunner.cpp | 75 | 0 |
| Nastran/NastranRunner.h | 32 | 0 |
| Nastran/NastranTokenizer.cpp | 541 | 459 |
| Nastran/NastranTokenizer.h | 201 | 5 |
| Nastran/NastranWriter.cpp | 1080 | 950 |
| Nastran/NastranWriter.h | 79 | 19 |
| Optistruct/OptistructParser.cpp | 183 | 95 |
| Optistruct/OptistructParser.h | 94 | 0 |
| ResultReaders/CSVResultReader.cpp | 190 | 130 |
| ResultReaders/CSVResultReader.h | 47 | 13 |
| ResultReaders/F06Parser.cpp | 596 | 554 |
| ResultReaders/F06Parser.h | 54 | 0 |
| ResultReaders/ResultReadersFacade.cpp | 48 | 22 |
| ResultReaders/ResultReadersFacade.h | 34 | 0 |
| Systus/SystusAsc.cpp | 239 | 143 |
| Systus/SystusAsc.h | 159 | 19 |
| Systus/SystusDat.cpp | 286 | 172 |
| Systus/SystusModel.cpp | 86 | 24 |
| Systus/SystusModel.h | 54 | 0 |
| Systus/SystusRunner.cpp | 182 | 141 |
| Systus/SystusRunner.h | 42 | 0 |
| Systus/SystusWriter.cpp | 3405 | 3073 |
| Systus/SystusWriter.h | 450 | 24 |

## Not modelled

Files with no cited line in the table above. Also: the programs that input is written for or output is read by. What their
keywords mean is stated in the specifications from general knowledge of these programs or from the code: no manual of Nastran,
Code_Aster or Systus was at hand, so these statements are part of what has to be trusted. Also the MED and HDF5 libraries, Boost program options and file system
calls, formatting and rounding of `double`, memory management (`shared_ptr` lifetimes), logging.

