{"id": "C01", "title": "DOFS objects behave as sets of the six degrees of freedom", "statement": "A DOFS value built by any combination of construction, union (+ with a DOF or DOFS), difference (-), intersection (&, intersection()), += and Nastran codes behaves exactly like a subset of {DX,DY,DZ,RX,RY,RZ}: membership after each operation is the boolean combination of memberships, containsAll is inclusion, containsAnyOf is non-disjointness, equality is extensional, size() is the cardinality and iterating yields every member once in the order DX..RZ.", "quantifier": "every pair of DOFS values and every expression built from them", "why_tests_cant": "The algebra has 2^6 values but the claim is about every expression over them; tests check a handful of unions.", "anchors": ["Abstract/Dof.h: DOF, DOFS", "Abstract/Dof.cpp: DOFS::containsAll, containsAnyOf, contains, intersection, operator+, operator-, operator&, operator+=, size, DOFSIterator"]}
{"id": "C02", "title": "Nastran component codes round-trip", "statement": "For every non-empty set of DOFs, writing it with nastranCode() and reading the number back with nastranCodeToDOFS() gives the same set; reading accepts the digits 1-6 in any order and multiplicity and yields exactly the named DOFs, and any number containing another digit (or a negative number) is rejected.", "quantifier": "every DOFS value and every integer component code", "why_tests_cant": "Component codes are arbitrary integers; tests only try a few codes.", "anchors": ["Abstract/Dof.cpp: DOFS::nastranCode, DOFS::nastranCodeToDOFS"]}
{"id": "C03", "title": "A nodal 6x6 matrix returns what was stored in it", "statement": "After any history of addComponent calls on a DOFMatrix, findComponent(r,c) is the value of the last accepted addComponent to that entry and 0 if there was none; in a SYMMETRIC matrix entry (r,c) and (c,r) are the same entry; a DIAGONAL matrix never holds a non-zero off-diagonal component (such an addComponent is rejected without effect).", "quantifier": "every matrix type and every finite sequence of addComponent calls", "why_tests_cant": "Quantifies over histories of stores.", "anchors": ["Abstract/Dof.cpp: DOFMatrix::addComponent, findComponent"]}
{"id": "C04", "title": "Matrix exports have the documented layout", "statement": "For every DOFMatrix, asColumnsVector lists the n*n entries column by column (entry (r,c) at index c*n+r) and asUpperTriangularColumnsVector lists the n(n+1)/2 entries with r<=c column by column (entry (r,c) at index c(c+1)/2+r), with n=3 or 6; transposed() exchanges (r,c) and (c,r) and is an involution on what findComponent observes; isDiagonal/isSymmetric report the corresponding property of the entries.", "quantifier": "every DOFMatrix reachable by any sequence of stores, with and without rotations", "why_tests_cant": "Universal over contents; a test sees one matrix.", "anchors": ["Abstract/Dof.cpp: DOFMatrix::asColumnsVector, asUpperTriangularColumnsVector, diagonal, transposed, isDiagonal, isSymmetric, isEqual"]}
{"id": "C05", "title": "Per-DOF coefficients combine component-wise", "statement": "DOFCoefs(dofs,value) is defined exactly on dofs; getDOFS of a sum is the union of the DOFs of the operands and each coefficient of the sum is the sum of the available coefficients; adding is order-independent; operator< and == agree.", "quantifier": "every pair of DOFCoefs values and every sequence of additions", "why_tests_cant": "Quantifies over value combinations including unavailable entries.", "anchors": ["Abstract/Dof.cpp: DOFCoefs"]}
{"id": "C06", "title": "References are usable as map keys", "statement": "operator< on References is a strict weak order whose equivalence is operator==: irreflexive, transitive, and for any two references exactly one of a<b, b<a, a==b holds; references of different type are never equal; == is an equivalence; equal references have equal hashes.", "quantifier": "every triple of references (with or without original id / auto id)", "why_tests_cant": "An ordering defect only shows on particular triples and then corrupts maps silently.", "anchors": ["Abstract/Reference.h: Reference::operator==, operator<, hash"]}
{"id": "C07", "title": "The object container is a map keyed by (type, original id) and by id", "statement": "In every history of add, erase and find on a Model container, find(ref) returns the object added under that reference and not since erased, and nothing otherwise; adding an object whose reference is already taken is rejected and changes nothing; size counts live objects.", "quantifier": "every finite sequence of add/erase/find with arbitrary types and ids", "why_tests_cant": "Two indices (by id, by original id) must stay in step over all histories.", "anchors": ["Abstract/Model.h: Model::Container::add, find, erase, contains, size"]}
{"id": "C08", "title": "Container validation follows the translation mode", "statement": "validate() of a container returns true iff every stored object is valid; in STRICT mode nothing is removed; in the other modes afterwards exactly the valid objects remain.", "quantifier": "every container content, validity predicate and translation mode", "why_tests_cant": "Universal over contents; iterating while erasing is a classic source of skipped elements.", "anchors": ["Abstract/Model.h: Container::validate"]}
{"id": "C09", "title": "Automatic object ids are never reused", "statement": "Every object creation or resetId draws an id strictly greater than every id drawn before, so no two creations share an id; the best id of an object is its original id when it has one, and resetId forgets the original id.", "quantifier": "every finite sequence of creations and id resets", "why_tests_cant": "Histories are unbounded.", "anchors": ["Abstract/Object.h: Identifiable, bestId, resetId, getReference"]}
{"id": "C10", "title": "Node ids and node positions stay in bijection", "statement": "After any sequence of addNode, findOrReserveNode and automatic node creations, distinct node ids have distinct positions, positions are exactly 0..countNodes-1, findNodeId(findNodePosition(id)) = id, and the position of an id never changes once attributed.", "quantifier": "every finite sequence of mesh node operations, in any order of definition and reference", "why_tests_cant": "Input decks reference nodes before or after defining them in any order; only an inductive invariant covers all of them.", "anchors": ["Abstract/Mesh.cpp: Mesh::addNode, findOrReserveNode, findNodePosition, findNodeId, countNodes"]}
{"id": "C11", "title": "A node keeps its last definition whatever the order of references", "statement": "After any sequence of mesh node operations, the coordinates and coordinate systems reported for a node are those of the last addNode for its id, independent of how often and when the node was merely referenced; a node only referenced is reported as undefined.", "quantifier": "every finite sequence of mesh node operations", "why_tests_cant": "Interleavings of references and definitions are unbounded.", "anchors": ["Abstract/Mesh.cpp: Mesh::addNode, findOrReserveNode, findNode"]}
{"id": "C12", "title": "Automatic node and cell ids never collide", "statement": "A node (cell) created with an automatic id gets an id not used by any node (cell) of the mesh at that moment.", "quantifier": "every mesh state reachable by node and cell creations", "why_tests_cant": "Depends on all previous ids.", "anchors": ["Abstract/Mesh.cpp: Mesh::addNode, Mesh::addCell"]}
{"id": "C13", "title": "Cell connectivity is returned as it was given", "statement": "After any sequence of addCell calls whose node lists have the length of their cell type, findCell on each cell position returns the type, id and node ids that were given, in the order given, whatever other cells were added before or after.", "quantifier": "every finite sequence of addCell calls mixing cell types", "why_tests_cant": "Connectivities of a type are stored back to back; an offset error depends on the whole history.", "anchors": ["Abstract/Mesh.cpp: Mesh::addCell, findCell"]}
{"id": "C14", "title": "Cell ids, positions and per-type counts agree", "statement": "After any sequence of addCell calls with distinct ids, cell positions are 0..countCells-1, findCellPosition inverts the cell id, hasCell is true exactly for the ids added, and the counts by type sum up to countCells.", "quantifier": "every finite sequence of addCell calls", "why_tests_cant": "Histories unbounded.", "anchors": ["Abstract/Mesh.cpp: addCell, findCellPosition, hasCell, countCells, countCells(type)"]}
{"id": "C15", "title": "Updating a cell preserves its id and its group memberships", "statement": "updateCell(id, type, nodes) makes findCellPosition(id) return a cell of the new type with the new nodes, every cell group that contained the old cell contains the new one, and every other cell is unchanged.", "quantifier": "every reachable mesh and every update", "why_tests_cant": "Depends on history of adds and updates.", "anchors": ["Abstract/Mesh.cpp: Mesh::updateCell, findCell"]}
{"id": "C16", "title": "Mesh groups are uniquely identified by name and by original id", "statement": "In every history of group creations, renames and removals, at most one group has a given name, findGroup by name and by original id return the live group with it, creating a group with a taken name or id is rejected, renaming moves a group without losing another one and a removed group is found no more.", "quantifier": "every finite sequence of createNodeGroup/createCellGroup/renameGroup/removeGroup", "why_tests_cant": "Two registries must stay in step over all histories.", "anchors": ["Abstract/Mesh.cpp: createNodeGroup, createCellGroup, renameGroup, removeGroup, findGroup"]}
{"id": "C17", "title": "Containers of cells and nodes report the union of direct members and groups", "statement": "For every sequence of additions, the node (cell) positions 'including groups' of a container are exactly those added directly or belonging to an added group, those 'excluding groups' exactly the direct ones, and containsCellPosition agrees with the former.", "quantifier": "every finite sequence of additions of ids, positions, groups and containers", "why_tests_cant": "Set semantics over all histories.", "anchors": ["Abstract/MeshComponents.cpp: CellContainer, NodeContainer"]}
{"id": "C18", "title": "The faces of every solid cell form a closed surface of its nodes", "statement": "For every solid cell type each face lists distinct nodes of the cell, every node of the cell is on some face, and every edge of a corner face is shared by exactly two faces with opposite directions (consistent outward orientation).", "quantifier": "every solid cell type, face and edge of the tables", "why_tests_cant": "One swapped index in the tables silently reverses a pressure; only exhaustive checking of the table settles it.", "anchors": ["Abstract/MeshComponents.cpp: init_faceByCelltype, nodeIdsByFaceNum"]}
{"id": "C19", "title": "Naming a face by two nodes round-trips", "statement": "For every solid cell with distinct node ids and every face number, the two nodes reported by two_nodeids_from_facenum identify the same face through faceids_from_two_nodes.", "quantifier": "every solid cell type, every assignment of distinct node ids, every face number", "why_tests_cant": "Ranges over all numberings of the nodes.", "anchors": ["Abstract/MeshComponents.cpp: Cell::two_nodeids_from_facenum, Cell::faceids_from_two_nodes"]}
{"id": "C20", "title": "Polygonal cell types have the requested number of nodes", "statement": "polyType(n) is a cell type with exactly n nodes for n = 1..20 and is refused for every other n.", "quantifier": "every node count", "why_tests_cant": "A table lookup over all inputs.", "anchors": ["Abstract/MeshComponents.cpp: CellType::polyType, CellType table"]}
{"id": "C21", "title": "Tab expansion keeps Nastran columns", "statement": "Expanding tabs in a line yields a line without tabs in which every non-tab character stands at the column given by 8-character tab stops, and lines without tabs are unchanged.", "quantifier": "every input line", "why_tests_cant": "All strings.", "anchors": ["Nastran/NastranTokenizer.cpp: replaceTabs"]}
{"id": "C22", "title": "Fixed-format lines are cut into fields without loss", "statement": "A short-format line is read as its 8-character fields (16-character data fields in long format), each trimmed, in order; no character of columns 1-72 is lost or duplicated and fields cut from a padded image of a list of values are these values.", "quantifier": "every line and every list of field values", "why_tests_cant": "All strings and lengths.", "anchors": ["Nastran/NastranTokenizer.cpp: splitFixedFormat"]}
{"id": "C23", "title": "Free-format lines are cut at commas", "statement": "A free-format line written by joining fields with commas is read back as exactly these fields (trimmed).", "quantifier": "every list of comma-free fields", "why_tests_cant": "All strings.", "anchors": ["Nastran/NastranTokenizer.cpp: splitFreeFormat"]}
{"id": "C24", "title": "The reading format of a line is decided by its first field", "statement": "A line is free format iff a comma occurs in its first 8 characters, otherwise long format iff a star occurs there, otherwise short format.", "quantifier": "every line", "why_tests_cant": "All strings.", "anchors": ["Nastran/NastranTokenizer.cpp: getLineType"]}
{"id": "C25", "title": "THRU lists denote their ranges", "statement": "Reading a list of ids with 'a THRU b' yields every integer from min(a,b) to max(a,b) once, with 'BY n' every n-th, and leaves other ids untouched and in order.", "quantifier": "every token list", "why_tests_cant": "All ranges and list shapes.", "anchors": ["Nastran/NastranTokenizer.cpp: nextInts"]}
{"id": "C26", "title": "Nastran real numbers are normalised to standard notation", "statement": "A Nastran real written with D exponents, with embedded blanks or with the exponent letter omitted (1.5-3) is rewritten to the same number in standard notation, and numbers already standard are unchanged.", "quantifier": "every numeric token", "why_tests_cant": "All strings.", "anchors": ["Nastran/NastranTokenizer.cpp: nextDouble"]}
{"id": "C27", "title": "Comments and blank lines never influence the data", "statement": "Inserting comment lines, trailing comments or blank lines anywhere between data lines does not change the sequence of data lines delivered by the tokenizer.", "quantifier": "every input text and every insertion", "why_tests_cant": "All inputs.", "anchors": ["Nastran/NastranTokenizer.cpp: readLineSkipComment"]}
{"id": "C28", "title": "Load set membership reflects what was put in", "statement": "After any sequence of registrations and removals, the loadings reported for a load set are exactly those registered in it and not removed; removing a loading removes it from every set.", "quantifier": "every finite history of registrations and removals", "why_tests_cant": "Registries are keyed two ways (id and original id).", "anchors": ["Abstract/Model.cpp: addLoadingIntoLoadSet, getLoadingsByLoadSet, remove<Loading>"]}
{"id": "C29", "title": "Constraint set membership reflects what was put in", "statement": "After any sequence of registrations and removals, getConstraintsByConstraintSet and getConstraintSetsByConstraint are two views of the same relation, which is what was registered and not removed.", "quantifier": "every finite history of registrations and removals", "why_tests_cant": "Unbounded histories, two inverse queries.", "anchors": ["Abstract/Model.cpp: addConstraintIntoConstraintSet, getConstraintsByConstraintSet, getConstraintSetsByConstraint, remove<Constraint>"]}
{"id": "C30", "title": "Sets used by every analysis are told apart from the others", "statement": "The common constraint sets are those every analysis uses, the uncommon ones those used by some analyses but not all, and together they are exactly the sets in use, each listed once; the same for load sets.", "quantifier": "every list of analyses and sets", "why_tests_cant": "All reference patterns.", "anchors": ["Abstract/Model.cpp: getCommonConstraintSets, getCommonLoadSets, getUncommonConstraintSets, getUncommonLoadSets, getActiveConstraintSets"]}
{"id": "C31", "title": "Flattening combined load sets preserves the load", "statement": "Replacing combined load sets (LOAD cards) by scaled copies leaves each analysis with the same total load: for every loading the sum over copies of the coefficients equals the product of the factors on its path.", "quantifier": "every combination of sets and factors", "why_tests_cant": "All combination structures and coefficients.", "anchors": ["Abstract/Model.cpp: replaceCombinedLoadSets"]}
{"id": "C32", "title": "Removing redundant single point constraints changes no boundary condition", "statement": "After removeRedundantSpcs every degree of freedom constrained in an analysis before is still constrained in it, to the same value, and no degree of freedom is constrained twice by SPCs of one analysis.", "quantifier": "every model", "why_tests_cant": "All overlaps of constraints.", "anchors": ["Abstract/Model.cpp: removeRedundantSpcs", "Abstract/Analysis.cpp: removeSPCNodeDofs"]}
{"id": "C33", "title": "Splitting a direct matrix keeps every coefficient and bounds the blocks", "statement": "splitDirectMatrices replaces a matrix by matrices over at most the maximal number of nodes whose coefficients together are exactly the coefficients of the original, each once.", "quantifier": "every matrix and every maximal size >= 2", "why_tests_cant": "All sizes.", "anchors": ["Abstract/Model.cpp: splitDirectMatrices", "Abstract/Element.cpp: MatrixElement"]}
{"id": "C34", "title": "Preparing a model twice is the same as once", "statement": "finish() transforms the model only the first time it is called.", "quantifier": "every number of calls", "why_tests_cant": "Histories.", "anchors": ["Abstract/Model.cpp: Model::finish"]}
{"id": "C35", "title": "Analysis parameters override model parameters", "statement": "getParameter of an analysis returns the value last set on the analysis if any, else the value last set on the model; contains() is true exactly when one of them is set.", "quantifier": "every history of setParameter calls", "why_tests_cant": "Histories.", "anchors": ["Abstract/Analysis.cpp: setParameter, getParameter, contains", "Abstract/Model.cpp: setParameter, getParameter, contains"]}
{"id": "C36", "title": "Multi point constraints emulating a rigid body are exactly rigid-body kinematics", "statement": "The linear relations generated for a completely rigid constraint hold for given displacements of master and slave iff the slave moves with the master as one rigid body (u_s = u_m + theta x (x_s - x_m), and equal rotations).", "quantifier": "every pair of positions and every displacement", "why_tests_cant": "Real-valued identity; one sign error is invisible when a coordinate difference is zero.", "anchors": ["Abstract/Constraint.cpp: QuasiRigidConstraint::emulateWithMPCs"]}
{"id": "C37", "title": "Participations of a linear relation accumulate independently of order", "statement": "The coefficient of a node dof in a linear multi point constraint is the sum of all participations added for it, in any order; nodes never mentioned do not participate; the dofs of a node are those with a non-zero coefficient.", "quantifier": "every sequence of addParticipation/removeNodePosition", "why_tests_cant": "Histories.", "anchors": ["Abstract/Constraint.cpp: LinearMultiplePointConstraint"]}
{"id": "C38", "title": "A single point constraint reports the last value set for each dof", "statement": "After any sequence of setDOF/setDOFS, getDOFSForNode is the set of dofs set to a value, getDoubleForDOF the last numeric value, and reading a free dof is rejected.", "quantifier": "every sequence of setters", "why_tests_cant": "Histories.", "anchors": ["Abstract/Constraint.cpp: SinglePointConstraint"]}
{"id": "C39", "title": "Releasing dofs in one analysis leaves the other analyses constrained", "statement": "removeSPCNodeDofs removes exactly the given dofs of the node from the constraint in the analysis it is called on, while all other analyses keep all dofs of that constraint.", "quantifier": "every model with any number of analyses sharing sets", "why_tests_cant": "All sharing patterns.", "anchors": ["Abstract/Analysis.cpp: removeSPCNodeDofs"]}
{"id": "C40", "title": "A static pressure applies pressure times area", "statement": "The nodal forces computed for a pressure on a triangle or quadrangle sum to the pressure times the vector area of the (two triangles of the) face.", "quantifier": "every triangle and quadrangle with real coordinates, every magnitude", "why_tests_cant": "Real-valued identity over all geometries.", "anchors": ["Abstract/Loading.cpp: StaticPressure::getForceInGlobalCS"]}
{"id": "C41", "title": "Scaling a loading scales its effect linearly", "statement": "scale(k) multiplies every force, moment, pressure, acceleration or imposed displacement of the loading by k, and scaling by k then l is scaling by k*l.", "quantifier": "every loading kind, value and factor", "why_tests_cant": "Real-valued identity.", "anchors": ["Abstract/Loading.cpp: scale members"]}
{"id": "C42", "title": "Only loadings without effect are discarded as ineffective", "statement": "removeIneffectives removes a loading only if it applies zero force everywhere.", "quantifier": "every loading kind and value", "why_tests_cant": "All values.", "anchors": ["Abstract/Loading.cpp: ineffective members", "Abstract/Model.cpp: removeIneffectives"]}
{"id": "C43", "title": "Coordinate systems are orthonormal and preserve lengths", "statement": "Whatever independent vectors a Cartesian coordinate system is built from, its axes are orthonormal and direct; vectorToGlobal preserves scalar products; local-to-global position transforms preserve distances.", "quantifier": "every origin, pair of independent vectors and point", "why_tests_cant": "Real-valued identity.", "anchors": ["Abstract/CoordinateSystem.cpp: CoordinateSystem, CartesianCoordinateSystem", "Abstract/Value.cpp: VectorialValue::orthonormalized, cross"]}
{"id": "C44", "title": "Nested coordinate systems compose", "statement": "The global position of a point in a Cartesian system defined relative to another one is the outer transform applied to the inner transform, to any nesting depth, and converting vectors to local and back is the identity.", "quantifier": "every chain of coordinate systems and every point", "why_tests_cant": "Depth is unbounded.", "anchors": ["Abstract/CoordinateSystem.cpp: positionToGlobal, vectorToGlobal, vectorToLocal, Orientation::positionToGlobal"]}
{"id": "C45", "title": "A coordinate system referenced before its definition is the one defined later", "statement": "Positions handed out for a coordinate system reference by reserve or add identify that reference forever, and once the system is defined findByPosition and find return its definition.", "quantifier": "every history of reserve/add/find", "why_tests_cant": "Histories.", "anchors": ["Abstract/CoordinateSystem.cpp: CoordinateSystemStorage"]}
{"id": "C46", "title": "Step ranges are consistent", "statement": "However a step range is constructed, end = start + step*count (exactly in the cases start/count/end and start/step/count, within one step when count is computed).", "quantifier": "every start, step, count, end", "why_tests_cant": "Arithmetic identity.", "anchors": ["Abstract/Value.cpp: StepRange"]}
{"id": "C47", "title": "Beam section properties follow the geometry", "statement": "Area and moments of inertia of circular, tube, rectangular and I sections are those of the shape described (perpendicular-axis relation, hollow = full minus hole, I = rectangle minus two rectangles).", "quantifier": "all dimensions", "why_tests_cant": "Real-valued identities.", "anchors": ["Abstract/Element.cpp: CircularSectionBeam, TubeSectionBeam, RectangularSectionBeam, ISectionBeam"]}
{"id": "C48", "title": "Elastic constants are completed consistently", "statement": "When at least two of E, nu, G are given, the reported E, nu and G keep the given values and, if exactly two were given, satisfy G = E / (2(1+nu)); a material with neither E nor G is refused; blanks are reported as the documented zeros.", "quantifier": "all combinations of given and blank constants", "why_tests_cant": "Real-valued identity over all cases.", "anchors": ["Abstract/Material.cpp: ElasticNature"]}
{"id": "C49", "title": "Symmetric laminates are mirrored", "statement": "For a symmetric laminate the full stacking is the given plies followed by the same plies in reverse order, it is a palindrome and its total thickness is twice the sum of the ply thicknesses; a FULL laminate is returned unchanged.", "quantifier": "every ply list", "why_tests_cant": "Unbounded lists.", "anchors": ["Abstract/Element.cpp: Composite::getFullLayers, getTotalThickness"]}
{"id": "C50", "title": "Segment matrices are exported as the upper triangle by columns", "statement": "The stiffness/mass/damping vector of a two-node discrete element of n dofs per node lists the 2n(2n+1)/2 entries (r,c), r<=c, of the 2n x 2n matrix column by column.", "quantifier": "every two-node discrete element", "why_tests_cant": "Universal over contents.", "anchors": ["Abstract/Element.cpp: DiscreteSegment::asStiffnessVector, asMassVector, asDampingVector"]}
{"id": "C51", "title": "Coefficients of a nodal matrix are found whichever way round they are given", "statement": "In a symmetric direct matrix the coefficient between (node1,dof1) and (node2,dof2) is the last one given for this unordered pair, whatever the order of the two ends, and the nodes of the matrix are exactly those mentioned; scalar springs added to it make the matrix of the quadratic form k(u1-u2)^2.", "quantifier": "every sequence of coefficients", "why_tests_cant": "Histories.", "anchors": ["Abstract/Element.cpp: MatrixElement::addComponent, findSubmatrix, nodePositions, nodePairs, findInPairs, StiffnessMatrix::addStiffness"]}
{"id": "C52", "title": "Solver names round-trip", "statement": "Every solver prints a name that is read back as the same solver, names are read irrespective of case and surrounding blanks, unknown names are refused.", "quantifier": "every solver and every string", "why_tests_cant": "All strings.", "anchors": ["Abstract/ConfigurationParameters.cpp: Solver::fromString, Solver::to_str"]}
{"id": "C53", "title": "Errors stop a translation exactly in strict mode", "statement": "A parsing or writing error ends the translation in STRICT mode; in MESH_AT_LEAST mode it restricts the model to its mesh; in BEST_EFFORT mode it only skips the current command.", "quantifier": "every mode and sequence of errors", "why_tests_cant": "Histories.", "anchors": ["Abstract/SolverInterfaces.cpp: handleParsingError, handleWritingError"]}
{"id": "C54", "title": "Solver exit codes are classified totally", "statement": "Every exit status is classified: 0 as success and nothing else as success; shell code 127 or a failed launch as not found; shell codes 129..165 as killed; anything else as failure.", "quantifier": "every int", "why_tests_cant": "2^32 inputs.", "anchors": ["Abstract/SolverInterfaces.cpp: Runner::convertExecResult"]}
{"id": "C55", "title": "Node parts reflect the element parts using the node", "statement": "After reading a model two nodes are in the same node part exactly when the sets of element parts that use them are the same.", "quantifier": "every sequence of node definitions and cell mentions", "why_tests_cant": "Histories; any order of definitions.", "anchors": ["Abstract/Mesh.cpp: Mesh::findOrReserveNode, Mesh::addNode"]}
{"id": "C56", "title": "Only nodes used by nothing are dropped from node groups", "statement": "When unused nodes are removed from the node groups, no node that belongs to a cell is removed.", "quantifier": "every order of node and cell definitions", "why_tests_cant": "Depends on the order of cards in the input.", "anchors": ["Abstract/Model.cpp: Model::removeIneffectives", "Abstract/Mesh.cpp: Mesh::findOrReserveNode"]}
{"id": "C57", "title": "A command reads each field of its card once and in order", "statement": "However a command reads, skips and inspects the fields of its card, each field is delivered at most once, in order, none is invented, and the end of the card is announced exactly when no field remains.", "quantifier": "every card and every sequence of reading operations", "why_tests_cant": "Unbounded sequences of operations.", "anchors": ["Nastran/NastranTokenizer.cpp: nextSymbolString, skip, skipToNextKeyword, isNextInt, isNextEmpty, isEmptyUntilNextKeyword"]}
{"id": "C58", "title": "Objective set membership reflects what was put in", "statement": "After any sequence of registrations the objectives reported for an objective set, by whichever of its numbers it is looked up, are exactly those registered in it.", "quantifier": "every finite history of registrations", "why_tests_cant": "Registries are keyed two ways (id and original id).", "anchors": ["Abstract/Model.cpp: addObjectiveIntoObjectiveSet, getObjectivesByObjectiveSet"]}
{"id": "C59", "title": "A degree of freedom with an imposed displacement is not also fixed", "statement": "After the pass that removes fixings in conflict with imposed displacements, in every analysis the fixed degrees of freedom are exactly those fixed before that no imposed displacement of that analysis moves, with their values unchanged.", "quantifier": "every model, every sharing of constraint sets between analyses, every iteration order", "why_tests_cant": "Sharing of sets and nodes between analyses is combinatorial.", "anchors": ["Abstract/Model.cpp: Model::removeConstrainedImposed", "Abstract/Analysis.cpp: Analysis::removeSPCNodeDofs"]}
{"id": "C60", "title": "A coordinate system given by three points passes through them", "statement": "A coordinate system given by points A, B, C that are not aligned (CORD2R, CORD2C, CORD2S) has its origin at A, its z axis through B and C in the half-plane of its x axis, as seen in the global system.", "quantifier": "every triple of points and every system of reference", "why_tests_cant": "Real-valued identity, any nesting depth.", "anchors": ["Nastran/NastranParser.cpp: parseCORD2C, parseCORD2R, parseCORD2S", "Abstract/CoordinateSystem.cpp: CoordinateSystem, positionToGlobal"]}
{"id": "C61", "title": "Euler angles reproduce the axes of a coordinate system", "statement": "The three angles given for a coordinate system, applied around z, then the new y, then the new x, turn the base they are relative to onto the axes of the system; for a node in a cylindrical system, onto the radial, tangential and axial directions at that node.", "quantifier": "every coordinate system, every reference and every node", "why_tests_cant": "Real-valued identity with a singular position.", "anchors": ["Abstract/CoordinateSystem.cpp: getEulerAnglesIntrinsicZYX, getLocalEulerAnglesIntrinsicZYX", "Systus/SystusWriter.cpp: writeNodes, writeElementLocalReferentiel"]}
{"id": "C62", "title": "A nodal force is applied in the directions of its coordinate system at its node", "statement": "The global components of a force or moment given in a coordinate system are its components along the axes of that system, at the node for a cylindrical system, whatever was asked before.", "quantifier": "every system, node, force and history of conversions", "why_tests_cant": "Depth is unbounded; the systems keep a state between conversions.", "anchors": ["Abstract/Loading.cpp: NodalForce::localToGlobal, getForceInGlobalCS, getMomentInGlobalCS", "Abstract/CoordinateSystem.cpp: updateLocalBase"]}
{"id": "C63", "title": "Torsional constants", "statement": "The torsional constant reported for a bar section is positive, at most the polar second moment of the section and does not depend on which side of a rectangle is called its height; for a disc or a ring it is the polar second moment.", "quantifier": "every disc, ring and rectangle with positive dimensions", "why_tests_cant": "the constant is a formula in the dimensions; tests try one section of each kind", "anchors": ["Abstract/Element.cpp: CircularSectionBeam::getTorsionalConstant, TubeSectionBeam::getTorsionalConstant, RectangularSectionBeam::getTorsionalConstant"]}
{"id": "C64", "title": "Bar sections written for Code_Aster", "statement": "The section written for Code_Aster for a bar read from a PBARL card is the section the card describes: same shape and dimensions, or, for general sections, same area and second moments.", "quantifier": "every BAR, ROD, TUBE and I card with proper dimensions", "why_tests_cant": "the two solvers use different parameters for the same section; tests compare text output with itself", "anchors": ["Nastran/NastranParser.cpp: parsePBARL", "Aster/AsterWriter.cpp: writeAffeCaraElemPoutre"]}
{"id": "C65", "title": "Ply defaults of PCOMP cards", "statement": "The plies of a PCOMP card are read in order; what a ply gives is kept; a blank material or thickness repeats the last one given, a blank angle is zero, and a blank Z0 means the same as minus half the laminate thickness.", "quantifier": "every PCOMP card, any number of plies and any pattern of blanks", "why_tests_cant": "defaults depend on the history of blanks; tests give all fields", "anchors": ["Nastran/NastranParser.cpp: parsePCOMP"]}
{"id": "C66", "title": "Splitting shells by the offsets of their cells", "statement": "Splitting shells and composites by cell offset loses no cell, repeats none, keeps every cell in a part with the same thickness, material and plies, and gives it the offset of its property plus its own.", "quantifier": "every list of shells or composites and every cell offset", "why_tests_cant": "the grouping key is a rounded number shared by all properties; tests have one offset", "anchors": ["Abstract/Model.cpp: Model::splitElementsByCellOffsets"]}
{"id": "C67", "title": "Isotropic plies made orthotropic", "statement": "Replacing isotropic by orthotropic materials in composites keeps for every ply its thickness, angle, stiffness constants, density and thermal expansion, replaces equal materials by one, and changes no other material.", "quantifier": "every list of plies, every set of materials and every mass multiplier", "why_tests_cant": "histories of replaced materials; tests use one material and no multiplier", "anchors": ["Abstract/Model.cpp: Model::replaceIsotropicMaterialsInComposites", "Abstract/Material.cpp: OrthotropicNature::getRho"]}
{"id": "C68", "title": "Discrete elements as written for Code_Aster", "statement": "The characteristic written for Code_Aster for the stiffness, damping or mass of a discrete element, read as Code_Aster defines the keyword, denotes the matrix that was given to the element: between the dofs of a node, or of two nodes.", "quantifier": "every history of values given to an element, every matrix type and quantity", "why_tests_cant": "keyword and list of values are chosen by different functions; tests compare one file", "anchors": ["Abstract/Element.cpp: DiscretePoint, DiscreteSegment, StructuralSegment: asStiffnessVector, isDiagonal, isSymmetric", "Aster/AsterWriter.cpp: 1101-1203"]}
{"id": "C69", "title": "Scalar springs as written for Code_Aster", "statement": "The characteristic written for Code_Aster for a scalar spring denotes a spring of the given stiffness between the two dofs it connects, and nothing else.", "quantifier": "every stiffness and every pair of dofs", "why_tests_cant": "must hold for each of the 36 pairs of dofs and all stiffnesses", "anchors": ["Abstract/Element.cpp: ScalarSpring::asStiffnessVector", "Abstract/Element.h: ScalarSpring::isDiagonal", "Aster/AsterWriter.cpp: 1155-1198"]}
{"id": "C70", "title": "Splitting springs by dofs", "statement": "Splitting sets of scalar springs by the pair of dofs they connect keeps each spring once with its cell, dofs, stiffness, damping and mass, leaves sets of one pair of dofs each, whose groups hold exactly their cells, and never fails.", "quantifier": "every list of spring sets and every set of groups of the mesh", "why_tests_cant": "depends on how many sets need splitting and on all group names", "anchors": ["Abstract/Model.cpp: Model::splitElementsByDOFS", "Abstract/Mesh.cpp: Mesh::createCellGroup"]}
{"id": "C71", "title": "Direct matrices are written whole for Systus matrix files", "statement": "The matrix file written for a direct matrix has, for every two nodes and degrees of freedom, the last coefficient given for these two unknowns, in both symmetric places, and zero elsewhere", "quantifier": "every symmetric direct matrix, every number of nodes and degrees of freedom", "why_tests_cant": "The places are computed by arithmetic on node ranks and degrees of freedom; a collision or a wrong stride only shows for some sizes and pairs", "anchors": ["Systus/SystusAsc.cpp:SystusMatrix::setValue", "Systus/SystusAsc.cpp:operator<<(SystusMatrix)", "Systus/SystusWriter.cpp:fillMatrices"]}
{"id": "C72", "title": "Direct matrices are written whole in Systus tables", "statement": "The table written for a direct matrix has exactly the coefficients of the matrix, each under one code that determines its nodes and degrees of freedom; the number by which an element refers to its table determines the table and the kind of matrix; degrees of freedom that the model does not have are refused", "quantifier": "every symmetric direct matrix, every number of nodes and tables", "why_tests_cant": "Codes are packed decimal digits; they collide only beyond some number of nodes or tables", "anchors": ["Systus/SystusAsc.cpp:SystusTable::fill", "Systus/SystusWriter.cpp:fillTables"]}
{"id": "C73", "title": "Direct matrices replaced by discrete elements keep their coefficients", "statement": "When a direct matrix is replaced by discrete elements for Code_Aster, the elements assembled together have the coefficients of the matrix, for every pair of unknowns.", "quantifier": "every history of coefficients, every quantity and every pair of unknowns", "why_tests_cant": "The matrix is disassembled over an arbitrary graph of node pairs; tests have a few small graphs.", "anchors": ["Abstract/Model.cpp: Model::replaceDirectMatrices", "Abstract/Element.cpp: MatrixElement, DiscretePoint, DiscreteSegment"]}
{"id": "C74", "title": "Virtual constraints of replaced matrices block only unused degrees of freedom", "statement": "After the replacement of a direct matrix, the virtual constraint put on a node blocks only degrees of freedom with no coefficient in the matrix, and blocks all those that nothing else uses.", "quantifier": "every matrix, node, degree of freedom and rest of the model", "why_tests_cant": "Depends on all the elements, loads and constraints around the matrix.", "anchors": ["Abstract/Model.cpp: Model::replaceDirectMatrices"]}
{"id": "C75", "title": "The result of a solver run is reported faithfully", "statement": "A run is reported as a success exactly when the command succeeds, the expected results exist and no internal test failed; a syntax error found by Code_Aster (exit code 4) is reported as such.", "quantifier": "every exit status and every content of the result files", "why_tests_cant": "All statuses and all files.", "anchors": ["Aster/AsterRunner.cpp: AsterRunner::execSolver", "Systus/SystusRunner.cpp: SystusRunner::execSolver"]}
{"id": "C76", "title": "Contradictory translation modes are refused", "statement": "At most one of best-effort, mesh-at-least and strict is accepted on a command line, and the mode is the one asked for.", "quantifier": "every combination of the three options", "why_tests_cant": "Combinations of options are rarely tested.", "anchors": ["Commandline/VegaCommandLine.cpp: VegaCommandLine::readCommandLineParameters"]}
{"id": "C77", "title": "The exit status of the program tells the kind of failure", "statement": "An invalid command line ends with status 4 and a parsing error with status 6, whatever the study.", "quantifier": "every command line, log level and study", "why_tests_cant": "The status depends on when each error is met.", "anchors": ["Commandline/VegaCommandLine.cpp: VegaCommandLine::process, convertStudy", "Commandline/vegamain.cpp: main", "Abstract/SolverInterfaces.cpp: handleParsingError"]}
{"id": "C78", "title": "Written Nastran cards are read back", "statement": "A card written to a Nastran file is read from that file with the same name and, field by field, the same values in the same order, whatever their number; and the whole file is read as the list of the cards that were written.", "quantifier": "every list of cards, every name, every list of values (blank, text, integer, real)", "why_tests_cant": "Continuation lines, column widths and the running counter of continuation marks depend on the number and size of all values.", "anchors": ["Nastran/NastranWriter.cpp: Line, operator<<", "Nastran/NastranTokenizer.cpp: nextLine, splitFixedFormat"]}
{"id": "C79", "title": "Written Nastran reals keep the precision of the field", "statement": "Every finite real written to a Nastran file takes exactly eight columns, and is read back with a relative error of at most half a unit of the last decimal kept: five digits for positive numbers of usual magnitude, four for negative ones.", "quantifier": "every finite real", "why_tests_cant": "The text depends on sign, magnitude, rounding up to ten and trailing zeros.", "anchors": ["Nastran/NastranWriter.cpp: Line::add(double)", "Nastran/NastranTokenizer.cpp: nextDouble"]}
{"id": "C80", "title": "Cells written to Nastran are read back", "statement": "A cell written to a Nastran file is read back with the same number, property, type and node list, and a midside node stays on the edge it was on, for every cell of the model.", "quantifier": "every cell, of every type, with every number and node list", "why_tests_cant": "The writer and the reader each permute nodes with a table of their own, for each type, and the card may run over several lines.", "anchors": ["Nastran/NastranWriter.cpp: writeCells, cell keywords", "Nastran/NastranParser_geometry.cpp: parseElem, parseShellElem"]}
{"id": "C81", "title": "Elements written to Systus have the nodes of their cell", "statement": "Every cell of a written element set is written to the Systus file as one element that announces as many nodes as it lists, lists each node of the cell exactly once, and keeps the edges of the cell and the node in the middle of each.", "quantifier": "every cell, of every type, with every node list", "why_tests_cant": "The node order is a table by cell type; a wrong entry gives a valid file with a distorted element.", "anchors": ["Systus/SystusWriter.cpp: systus2medNodeConnectByCellType, writeElements"]}
{"id": "C82", "title": "Linear relations are read and written with all their terms", "statement": "A linear relation between displacements given in a Nastran file is read with every term; one written to a Nastran file is read back with the same coefficients whatever their number, and the subcase that uses it refers to the number under which it is written.", "quantifier": "every relation, with any number of nodes and terms; every number of set", "why_tests_cant": "The fields of the terms depend on the number of terms before them, with blanks every two terms; short relations hide errors.", "anchors": ["Nastran/NastranWriter.cpp: writeConstraints (MPC), writeModel (subcases)", "Nastran/NastranParser.cpp: parseMPC", "Abstract/Constraint.cpp: LinearMultiplePointConstraint"]}
{"id": "C83", "title": "Rigid connections are written and read with all their nodes", "statement": "A rigid, quasi rigid or averaging connection written to a Nastran file is read back with the same number, the same master node, the same slaves, the same degrees of freedom and, for averaging connections, the same coefficients.", "quantifier": "every mesh numbering, every connection with any number of slaves, with or without master", "why_tests_cant": "Nodes are held by position and written by number; meshes whose numbers happen to equal the positions hide any confusion of the two.", "anchors": ["Nastran/NastranWriter.cpp: writeConstraints (RBE2, RBAR, RBE3)", "Nastran/NastranParser.cpp: parseRBE2, parseRBAR, parseRBAR1, parseRBE3", "Abstract/Constraint.cpp: MasterSlaveConstraint, QuasiRigidConstraint, RBE3", "Abstract/Mesh.cpp: findNodeId, findNode"]}
{"id": "C84", "title": "Single point constraints are read and written with their nodes, components and values", "statement": "A single point constraint given in a Nastran file is read with each of its nodes, the components it blocks and the displacement it imposes; one written to a Nastran file is read back the same.", "quantifier": "every card with any number of nodes; every constraint, set of components, value and mesh numbering", "why_tests_cant": "Cards repeat node, components and value any number of times, with optional blanks; tests only use clamped nodes, whose imposed value is zero.", "anchors": ["Nastran/NastranWriter.cpp: writeConstraints (SPC1)", "Nastran/NastranParser.cpp: parseSPC, parseSPC1", "Abstract/Constraint.cpp: SinglePointConstraint"]}
{"id": "C85", "title": "Nodal forces, moments and gravity are read and written as given", "statement": "A nodal force, a nodal moment or a gravity given in a Nastran file is read with its node, coordinate system and components, blank components counting as zero; one written to a Nastran file is read back the same.", "quantifier": "every force, moment, acceleration and direction, node and set number, card and position in the file", "why_tests_cant": "The written fields have eight columns, so that numbers are rounded; blanks, coordinate systems and moments are each handled on their own branch, and tests use a few values of forces only.", "anchors": ["Nastran/NastranWriter.cpp: writeLoadings (GRAV, FORCE)", "Nastran/NastranParser.cpp: parseFORCE, parseMOMENT, parseGRAV"]}
{"id": "C86", "title": "Pressures are read and written as given", "statement": "A pressure given in a Nastran file (PLOAD, PLOAD2, PLOAD4) is read with its cells, the nodes of the loaded face, its intensity and direction; one written to a Nastran file is read back the same.", "quantifier": "every intensity, direction, face, range of cells, coordinate system and position in the file", "why_tests_cant": "The sign convention differs between shells and faces of solids, the same field holds a node number, THRU or nothing, and a dozen optional fields may be blank or cut off; tests cover one combination each.", "anchors": ["Nastran/NastranWriter.cpp: writeLoadings (PLOAD, PLOAD2, PLOAD4)", "Nastran/NastranParser.cpp: parsePLOAD, parsePLOAD2, parsePLOAD4"]}
{"id": "C87", "title": "Distributed loads on beams are read and written as given", "statement": "A load along a beam given in a Nastran file (PLOAD1) is read with its component, scale and end points; one written to a Nastran file is read back the same, and acts on the same part of the beam.", "quantifier": "every component, scale, pair of positions and intensities, beam and position in the file", "why_tests_cant": "The reader adds points to the table of the load depending on the positions, and the writer writes the first two points only; whether these are the right ones depends on the position.", "anchors": ["Nastran/NastranWriter.cpp: writeLoadings (PLOAD1)", "Nastran/NastranParser.cpp: parsePLOAD1", "Abstract/Value.cpp: FunctionTable::setXY"]}
{"id": "C88", "title": "Coordinate systems may be defined and used in any order", "statement": "A coordinate system can be referred to by its number before or after it is defined, and every use, early or late, leads to the last coordinate system defined under that number; different numbers never lead to the same one, and the number 0 is always the global one.", "quantifier": "every sequence of definitions and uses of coordinate systems, of any length and in any order", "why_tests_cant": "Uses before the definition reserve a position that a later definition has to find again; the failures depend on the whole history of definitions and uses, of which tests try a few.", "anchors": ["Abstract/Mesh.cpp: CoordinateSystemStorage (add, find, findOrReserve, findPositionByRef)", "Abstract/CoordinateSystem.cpp"]}
{"id": "C89", "title": "Nodes are read and written where they are", "statement": "A node given in a Nastran file has the number, position, displacement system and permanent constraints of its card, with the defaults of GRDSET; a node written to a Nastran file is read back at the same place.", "quantifier": "every node number, coordinates, pair of coordinate systems defined before or after the node, set of constrained degrees of freedom and GRDSET card", "why_tests_cant": "The place depends on coordinate systems that may be defined after the node and on defaults given anywhere in the file; tests use small files in one order.", "anchors": ["Nastran/NastranParser_geometry.cpp: parseGRDSET, parseGRID", "Nastran/NastranWriter.cpp: writeNodes", "Abstract/Mesh.cpp: findNode"]}
{"id": "C90", "title": "Isotropic materials are read and written as given", "statement": "A material given by MAT1 has the constants of its fields, with the blank ones computed or defaulted; a material written to a Nastran file is read back with the same constants.", "quantifier": "every combination of blank and given fields and every value of them", "why_tests_cant": "Seven optional fields give 128 combinations, each completed by its own rule, and the density is multiplied by a parameter on the way out.", "anchors": ["Nastran/NastranParser.cpp: parseMAT1", "Nastran/NastranWriter.cpp: writeMaterials", "Abstract/Material.cpp: ElasticNature"]}
{"id": "C91", "title": "Properties of shells, solids and beams are read and written as given", "statement": "A shell, solid or beam property given in a Nastran file is read with its material, thickness or section, mass and integration rule; one written to a Nastran file is read back the same.", "quantifier": "every property number, material, thickness, section constants, masses and combination of blank fields", "why_tests_cant": "The order of the section constants differs between the interface and the cards, and trailing fields have defaults with meaning; tests rarely use all of them at once.", "anchors": ["Nastran/NastranParser.cpp: parsePSHELL, parsePSOLID, parsePBEAM, parsePBAR", "Nastran/NastranWriter.cpp: writeElements (PSHELL, PSOLID, PBEAM, PBAR)"]}
{"id": "C92", "title": "Masses at nodes keep their mass, offset and inertia", "statement": "A mass given at a node by CONM1 or CONM2 reaches the model with its mass matrix, offset and moments and products of inertia, and from there the Nastran, Code_Aster and Systus files; anything that cannot be written is refused in strict mode.", "quantifier": "every mass, offset, inertia matrix, mass multiplier, node and combination of blank fields", "why_tests_cant": "Six inertia terms are passed by position through a constructor of ten numbers, so that an exchange goes unnoticed unless a test uses different products; multipliers and offsets only matter together with inertia.", "anchors": ["Nastran/NastranParser.cpp: parseCONM1, parseCONM2", "Nastran/NastranWriter.cpp: writeElements (CONM1, CONM2)", "Abstract/Element.cpp: NodalMass", "Aster/AsterWriter.cpp: writeAffeCaraElemDiscrets (M_TR_D_N)", "Systus/SystusWriter.cpp: writeMasses"]}
{"id": "C93", "title": "Springs and dampers are read and written as given", "statement": "A generalized spring (PBUSH) is read with the stiffness and damping of its rows in the six directions, blanks and missing fields counting as zero, in whatever order the rows come; one written to a Nastran file follows the layout of the card and is read back the same.", "quantifier": "every number and order of rows, every combination of blank, numeric and RIGID fields", "why_tests_cant": "Rows are optional, repeatable and in any order, and any field may be blank or missing.", "anchors": ["Nastran/NastranParser.cpp: parsePBUSH", "Nastran/NastranWriter.cpp: writeElements (PBUSH)", "Nastran/NastranTokenizer.cpp: skipToNotEmpty"]}
{"id": "C94", "title": "Groups, cells and numbers survive in the MED mesh file", "statement": "In the mesh file written for Code_Aster every node and every cell belongs to a family whose groups are exactly the groups that contain it; families have distinct numbers and names; group names are kept; the cells of each type have the nodes they were given, and their numbers run over all the cells once.", "quantifier": "every mesh that can be built, every set of named groups of nodes and of cells, in any order and with any overlap", "why_tests_cant": "Families are built by repeatedly splitting earlier ones while groups are scanned; the result depends on the order and overlap of all groups, and names are cut or joined only when they are long or many.", "anchors": ["Aster/MedWriter.cpp: createFamilies, writeMED", "Abstract/MeshComponents.cpp: Node::getMedName, Cell::getMedName"]}
{"id": "C95", "title": "Results printed by Nastran become the tests of their subcase", "statement": "When a Nastran result file is given with the model, each row of each table of displacements gives one test per degree of freedom, with the node, the value in the global system (below 1e-12: zero), the subcase of its page and its load step; each row of a table of frequencies, complex displacements or stresses in solids gives the tests of its mode, node or cell; nothing else is tested.", "quantifier": "every file made of pages printed by Nastran: any number of pages, rows, blank lines and other lines before, between and after them, any subcases, strict or not, with or without a final newline", "why_tests_cant": "The reader recognises tables by the shape of the lines that follow them; whether a row is read, and for which subcase, depends on everything printed before it.", "anchors": ["ResultReaders/F06Parser.cpp: add_assertions, readDisplacementSection, readEigenvalueSection, readComplexDisplacementSection, readStressesForSolidsSection, parseSubcase, readLine"]}
{"id": "C96", "title": "The reading of a result file ends", "statement": "Whatever the contents of the result file, the reading of it ends, with the tests found so far, an error, or (for the reasons of C95) undefined behaviour.", "quantifier": "every file, well formed or not, cut anywhere, with or without a final newline; every model and mode", "why_tests_cant": "A loop that reads lines without looking whether there are any goes on for ever only for files cut at particular places.", "anchors": ["ResultReaders/F06Parser.cpp: add_assertions, readStressesForSolidsSection, readLine"]}
{"id": "C97", "title": "Subcases select what they name", "statement": "A Nastran file whose case control section has commands above the subcases and subcases gives one analysis per subcase, in their order, with the number and label of the subcase, the kind asked for by SOL, and exactly the supports, multipoint constraints, loads and displacement outputs that the subcase names or, where it names none, that are named above; every set referred to is in the model. Without subcases there is one analysis of what is named.", "quantifier": "every file made of such commands: any number of subcases and commands in any order, repeated, in small or capital letters, with spaces or an equal sign, with comments and blank lines between them", "why_tests_cant": "What a subcase refers to depends on all commands before it, on the order of their names in a map and on which of them share a beginning; tests have a few subcases with the usual commands.", "anchors": ["Nastran/NastranParser.cpp: parseExecutiveSection, parseSubcase, addAnalysis, autoSubcaseAnalysis", "Nastran/NastranTokenizer.cpp: nextLine, nextSymbolString"]}
{"id": "C98", "title": "Combinations of subcases have the coefficients given", "statement": "SUBCOM with SUBSEQ gives an analysis that combines the earlier subcases, each with the coefficient in its place.", "quantifier": "every number of subcases and every list of coefficients", "why_tests_cant": "The places of the coefficients are counted in a loop; a wrong count is seen only with two coefficients or more.", "anchors": ["Nastran/NastranParser.cpp: parseSubcom, addCombinationAnalysis"]}
{"id": "C99", "title": "Lists of numbers are read as they are written", "statement": "A SET command gives a list with its number and exactly the numbers it denotes: single numbers and ranges with both ends, on one line or broken after commas into several.", "quantifier": "every list of entries, every way of breaking it into lines, with spaces, commas, comments and blank lines", "why_tests_cant": "Lists are broken at any comma and ranges may have any length.", "anchors": ["Nastran/NastranParser.cpp: addSet"]}
{"id": "C100", "title": "Analyses written to Nastran are read back", "statement": "The case control section that is written for a model, read again, gives the same groups as lists and one analysis for each analysis of the model, in the same order, with the same number and kind, the same sets of loads and constraints and the same outputs.", "quantifier": "every model: any number of analyses, sets, outputs and groups of any size", "why_tests_cant": "Groups are broken into lines of eight and every analysis inherits what is above the subcases, so what is read depends on the whole section; tests compare a few written files with files kept from earlier runs.", "anchors": ["Nastran/NastranWriter.cpp: writeModel, writeSOL", "Nastran/NastranParser.cpp: parseExecutiveSection, parseSubcase, addSet"]}
{"id": "C101", "title": "The reading of the case control section ends", "statement": "Whatever the text before BEGIN BULK, its reading comes to an end: with a model, with an error or with an exception, but not in a loop without end.", "quantifier": "every file, every order of commands, in and out of strict mode", "why_tests_cant": "A loop without end shows only on the files that enter it, often cut or broken ones that nobody keeps as tests.", "anchors": ["Nastran/NastranParser.cpp: parseExecutiveSection, parseSubcase, parseSubcom, addSet", "Nastran/NastranTokenizer.cpp: nextLine, readLineSkipComment"]}
{"id": "C102", "title": "Code_Aster is given the constraints of the model", "statement": "The displacement fields that satisfy what is written in AFFE_CHAR_MECA for a set of constraints are exactly those that satisfy the constraints of the set: single point constraints, rigid bodies, interpolating elements (RBE3), linear equations and the sliding of surfaces, each on the nodes it was given.", "quantifier": "every set of constraints of every mesh, every displacement field", "why_tests_cant": "A keyword applied to the wrong group, a component or a coefficient out of step, or a constraint left out gives a file that runs and a result that is wrong; the sets are unbounded and mixed.", "anchors": ["Aster/AsterWriter.cpp: writeAffeCharMeca, writeSPC, writeLIAISON_SOLIDE, writeRBE3, writeLMPC, writeCellContainer, writeNodeContainer"]}
{"id": "C103", "title": "Gaps between nodes reach Code_Aster", "statement": "The unilateral conditions written for Code_Aster allow exactly the displacements that the CGAP and PGAP cards allow: the second node of a gap is not approached by more than the opening of its property.", "quantifier": "every sequence of CGAP and PGAP cards, every direction of the gaps, every displacement field", "why_tests_cant": "The constants are numbered, named and found again by name: whether each name has one value, the right one, depends on how many gaps and properties there are and on their directions.", "anchors": ["Nastran/NastranParser.cpp: parseCGAP, parsePGAP", "Abstract/Constraint.cpp: GapTwoNodes::getGaps", "Aster/AsterWriter.cpp: writeDefiContact"]}
{"id": "C104", "title": "Code_Aster is given the loads of the model", "statement": "The command written for a set of loads applies what the loads of the set apply: on each node the sum of the forces and moments, on each cell the pressures and surface forces, along each beam the functions, the gravities, the rotations and the imposed displacements; and the command accepts each of its keywords.", "quantifier": "every set of loads of every mesh, every node, cell and component", "why_tests_cant": "Loads of several kinds go through different sections of one command, where a later value replaces an earlier one instead of being added to it: the error only appears for some combinations of loads on the same places.", "anchors": ["Aster/AsterWriter.cpp: writeAffeCharMeca, writePression, writeForceCoque, writeNodalForce, writeForceSurface, writeForceLine, writeGravity, writeRotation, writeSPCD", "Abstract/Loading.cpp: hasFunctions, appliedToGeometry"]}
{"id": "C105", "title": "The command file for Code_Aster uses names that are defined", "statement": "Each command of the file written for Code_Aster uses only concepts that an earlier command has defined, that stand for what the command expects and that have not been destroyed since; it defines no name a second time, destroys only what exists, and names of different concepts are different texts of at most 8 characters.", "quantifier": "every model with any number of analyses of every type, in any order, with any sets of loads, constraints and outputs", "why_tests_cant": "The names are built from texts and numbers in many places of the writer and the file is only checked by Code_Aster, when it runs. Whether a name exists depends on the types, the order and the numbers of all analyses of the model.", "anchors": ["Aster/AsterWriter.cpp: writeComm, writeAnalyses, writeAnalysis, writeAssemblage, writeImprResultats, writeAssertion", "Abstract/Model.cpp: reusableAnalysisFor, canBeReused", "Abstract/Analysis.cpp: canReuse"]}
{"id": "C106", "title": "The modes that a solver computes are those asked for", "statement": "For a search of modes (EIGRL, EIGR) with a lower bound, an upper bound and a number of modes, any of which may be missing, the commands written for Code_Aster and for Systus make the solver compute exactly the modes that Nastran would: the lowest ones up to the number, of those between the bounds.", "quantifier": "every combination of bounds and number, every limit of the response (LFREQ, HFREQ), every list of frequencies of the structure, every version of Systus", "why_tests_cant": "Whether the band or the number decides depends on the frequencies of the structure, which the translator does not know; a test compares texts for one structure.", "anchors": ["Nastran/NastranParser.cpp: parseEIGRL, parseEIGR", "Aster/AsterWriter.cpp: writeCalcFreq, writeAnalysis", "Systus/SystusDat.cpp: writeLinearModalAnalysis"]}
{"id": "C107", "title": "Tables keep their points and Code_Aster finds in them the values that Nastran finds", "statement": "Every pair of numbers of a TABLED1, TABLES1 or TABDMP1 up to ENDT, except those with SKIP, becomes a point of the table, once and in order; the axes are those of the card; a table has the name that the loads using it give to its axis whatever the order of the cards; and for each argument the function defined in Code_Aster has the value that Nastran finds in the table.", "quantifier": "every table with any number of entries, skipped pairs and empty fields, every order of tables and loads, every argument", "why_tests_cant": "The reading loop depends on the kind of each field, the names on the order of cards, and the value on the position of the argument among the points or outside of them.", "anchors": ["Nastran/NastranParser.cpp: parseTABLED1, parseTABLES1, parseTABDMP1", "Abstract/Model.h: Container<NamedValue>::add", "Aster/AsterWriter.cpp: writeValue", "Aster/AsterModel.cpp: InterpolationByInterpolation, ProlongementByInterpolation"]}
{"id": "C108", "title": "A response is computed at the frequencies and with the damping that are given", "statement": "A frequency response is computed at exactly the frequencies of the FREQ, FREQ1, FREQ3 and FREQ4 cards of the selected set, for Code_Aster and for Systus, and with the damping that the selected TABDMP1 stands for, whether it is given as a ratio, as structural damping or as a quality factor. A selected set that is missing is reported.", "quantifier": "every set of cards with any number of frequencies and steps, every damping table of each type", "why_tests_cant": "The frequencies are only visible in the run of the target program; they depend on the number and kind of the cards, the damping on the unit of the table.", "anchors": ["Nastran/NastranParser.cpp: parseFREQ, parseFREQ1, parseFREQ4", "Nastran/NastranTokenizer.cpp: nextDoubles", "Abstract/Analysis.cpp: getExcitationFrequencies", "Aster/AsterWriter.cpp: writeValue, writeAnalysis", "Systus/SystusDat.cpp: writeFrequencyExcit, writeModalDamping"]}
{"id": "C109", "title": "A dynamic excitation has the load, the amplitude and the phase that are given", "statement": "An RLOAD1 or RLOAD2 excites the model with the load its EXCITEID stands for (a DAREA, a static load, or the load that the selected LSEQ cards assign), with the amplitude of its table, with its phase, its delay and its phase table, and as the kind of motion that is given. The result does not depend on the order of the cards in the file.", "quantifier": "every sequence of load, DAREA, LSEQ, DELAY, DPHASE, RLOAD1 and RLOAD2 cards in any order", "why_tests_cant": "The result depends on the order of the cards and on the numbers they share; phase and delay are only visible in the run of the target program.", "anchors": ["Nastran/NastranParser.cpp: parseRLOAD1, parseRLOAD2, parseDELAY, parseDPHASE, parseDAREA, parseLSEQ, addAnalysis", "Abstract/Loading.cpp: DynamicExcitation", "Abstract/Model.h: Container<NamedValue>::add", "Aster/AsterWriter.cpp: writeAnalysis", "Systus/SystusWriter.cpp: fillLoadingsVectors"]}
{"id": "C110", "title": "Each analysis is written to Systus once, with its own constraints", "statement": "By default each analysis of the model is written in exactly one Systus file; analyses share a file exactly if they are static and have the same constraints; and the degrees of freedom that are blocked and the kind of computation of the file are those of each of its analyses. With the option single each analysis has its own file. With lists of analyses the files are those of the lists.", "quantifier": "every list of analyses with any types and constraints, every value of the option", "why_tests_cant": "Which analyses are put together depends on all the analyses before; a wrong grouping gives a valid file with the results of another problem.", "anchors": ["Systus/SystusWriter.cpp: generateSubcases, fillConstraintsNodes, writeDat", "Commandline/VegaCommandLine.cpp: readCommandLineParameters"]}
{"id": "C111", "title": "A load case of Systus has exactly the loads of its set", "statement": "Each set of loads of each analysis of a file is one load case; the load cases are numbered from 1 without gap. In the load case of a set each node and cell has exactly the force, moment, pressure, acceleration and imposed displacement vectors of the loads of that set, and those that the constraints of the analysis impose. Every list refers to load cases and vectors that exist.", "quantifier": "every list of analyses with any sets of loads, loads and constraints, in the option of shells and the option 3D", "why_tests_cant": "The vectors and lists are numbered over all the loads and constraints of a file; a number that is wrong by one gives a valid file with another load.", "anchors": ["Systus/SystusWriter.cpp: fillLoads, fillLoadingsVectors, writeNodalForceVector, fillConstraintsVectors, fillLists"]}
{"id": "C112", "title": "A parameter has the value of its last PARAM card and its effect", "statement": "After the bulk data is read each parameter given by PARAM cards has the value of its last card. WTMASS multiplies every mass, ALPHA1 and ALPHA2 give the Rayleigh damping of the materials, G the structural damping of a direct frequency response, LGDISP large displacements; CHECKEL and PRTMAXIM are followed. A card that cannot be followed is reported, a wrong one ends a strict translation.", "quantifier": "every list of PARAM cards with any values and blank fields, every mode of translation", "why_tests_cant": "The value depends on the order and number of the cards, on the text in which a number is kept and on which of the writers looks at it.", "anchors": ["Nastran/NastranParser_param.cpp: parsePARAM, parseParamG, parseParamLGDISP, parseParamWTMASS, ...", "Abstract/Utility.h: to_string_with_precision", "Abstract/Material.cpp: getRho", "Abstract/Model.cpp: needsLargeDisplacements", "Aster/AsterWriter.cpp"]}
{"id": "C113", "title": "Sets, surfaces and contacts of OptiStruct are read as written on their cards, and surfaces and contacts survive writing", "statement": "A card SET of nodes or of elements creates a group of exactly the nodes or elements listed, numbers and ranges; a SET of frequencies gives the frequencies of the card in order. A card SURF gives the cell, the nodes and the reversal of every face; a CONTACT the master and the slave surface in their places and its type. A surface or contact that is written to Nastran is read back the same.", "quantifier": "every card SET, SURF and CONTACT, with any number of entries, blank fields and continuation lines; every surface and contact of a model", "why_tests_cant": "The fields are read by nested loops whose end depends on blanks and on the kind of the next field, for lists of any length; the writer and the reader must agree on the place of every field.", "anchors": ["Optistruct/OptistructParser.cpp: parseSET, parseSURF, parseCONTACT", "Nastran/NastranWriter.cpp: writeConstraints", "Nastran/NastranTokenizer.cpp: nextInts, skipToNotEmpty, isEmptyUntilNextKeyword"]}
{"id": "C114", "title": "The tests written for the solver accept the expected results and refuse all others", "statement": "Expected results (displacements, complex responses, frequencies, Von Mises stresses, each with a relative tolerance) become tests in the command file of Code_Aster or in the script of Systus: for every expected result one test, on the node, component, instant, frequency or mode it was given for, that passes exactly when the computed result equals the expected one up to the tolerance.", "quantifier": "every list of expected results of any analysis, every value and tolerance, and every result a solver may compute", "why_tests_cant": "A test that passes on wrong results hides them: one has to consider all the results the solver might compute, not those of a run.", "anchors": ["Aster/AsterWriter.cpp: writeNodalDisplacementAssertion, writeNodalComplexDisplacementAssertion, writeNodalCellVonMisesAssertion, writeFrequencyAssertion", "Systus/SystusWriter.cpp: writeNodalDisplacementAssertion, writeNodalComplexDisplacementAssertion, writeFrequencyAssertion", "Abstract/Objective.cpp: Assertion", "Abstract/ConfigurationParameters.h: testTolerance"]}
{"id": "C115", "title": "The data file of Systus contains what it announces", "statement": "Each section of the data file announces as many items as it contains. Every cell of the model is written once as an element of its dimension; every group that is not empty is written with its members, under its name, parts having different numbers, taken from the name where it ends in one; the nodes have rotations if some element needs them.", "quantifier": "every mesh, every list of element sets of all types, every list of groups with any names, and every number of files", "why_tests_cant": "The counts are computed before, and apart from, the loops that write and skip items; the numbers of parts are found by a search whose end depends on all earlier names.", "anchors": ["Systus/SystusWriter.cpp: writeElements, writeGroups, getPartId, writeMasses, writeMaterial, getSystusAutomaticOption, getSystusInformations", "Abstract/Mesh.cpp: countCells", "Abstract/Model.cpp: removeIneffectives"]}
{"id": "C116", "title": "Elements of Systus have the material, section and stiffness of the model", "statement": "Every element of a translated set refers to an existing material record, whose number is its place; the record has the elastic constants, the section, the thickness, the stiffness or the components of the set it is made for; if matrices are put in files, it refers to the matrix of this very set.", "quantifier": "every list of element sets of all types, every material, section, stiffness and option, and any history of files written before", "why_tests_cant": "Numbers are given to materials while sets are skipped, shared or found invalid, and to matrices by three loops with one common map; a test sees one mixture of sets.", "anchors": ["Systus/SystusWriter.cpp: fillMaterial, fillMaterialField, fillDOFSMaterialField, DOFSToInt, DOFtoSMF, fillMatrices, clear, translate"]}
{"id": "C117", "title": "Relations turned into elements are the relations of the analysis", "statement": "For Systus, linear relations between degrees of freedom are replaced by elements. Every relation of every analysis is imposed by an element of that analysis, on the nodes of the relation and with its coefficients and right-hand side; and no element imposes anything else. The table of an element has the coefficient of every relation, node and component at its place.", "quantifier": "every list of analyses, constraint sets and relations, and every way in which a map with tolerant keys may find an entry", "why_tests_cant": "Relations are grouped by nodes, cut into slices and then shared by coefficients through a map whose comparison is tolerant; which relations meet in a set depends on all others.", "anchors": ["Abstract/Model.cpp: makeCellsFromLMPC", "Abstract/Element.cpp: Lmpc::appendDofCoefs", "Systus/SystusWriter.cpp: fillTables"]}
{"id": "C118", "title": "Rigid bodies and averages turned into elements bind the nodes of the constraint", "statement": "For Systus, every rigid constraint becomes elements that bind all its slaves, and nothing else, to its master, with one node of rotations for the body and a new node of multipliers for every slave; every averaging constraint becomes elements that make the master follow the weighted average of all slaves, with the components and weights of the slaves; nodes that are added are new and not shared between constraints; a constraint binds the components it is given; the rotation of a node is one.", "quantifier": "every list of constraint sets and constraints, every number of slaves, all components, weights and options", "why_tests_cant": "Slaves are put in parts by components and weights in the order in which they are met, and the nodes that are added depend on options and on all earlier constraints; a test fixes one of them.", "anchors": ["Abstract/Model.cpp: makeCellsFromRBE", "Abstract/Constraint.cpp: MasterSlaveConstraint::getMaster, getSlaves, RBE3::getCoefForNode, RBE3::getDOFSForNode", "Systus/SystusWriter.cpp: generateRBEs"]}
{"id": "C119", "title": "Additional mass adds its density and nothing else", "statement": "The non-structural mass of a property, divided by area or thickness, is added to the density at every cell of the property; stiffness is not changed, every cell is written once, and properties without such mass are not changed. The result does not depend on where objects are in memory.", "quantifier": "every list of element sets with one material each and cells of their own, any number of which have additional mass, and every order of materials in memory", "why_tests_cant": "The order in which materials are written is that of the addresses of objects, which a test sees as they happen to be in that run.", "anchors": ["Abstract/Model.cpp: emulateAdditionalMass", "Abstract/Element.cpp: assignMaterial, getMaterials, mainMaterial", "Aster/AsterWriter.cpp: writeMaterials", "Systus/SystusWriter.cpp: writeElements"]}
{"id": "C120", "title": "Components added for loads and constraints do not leave the model free to move", "statement": "Every component that a load or constraint of some analysis needs at a node exists afterwards; no more is added than the three translations, or all six if a rotation is needed; elements added for this have no stiffness and a node has at most one of them; in every analysis each component that is added is needed or blocked; nothing else is blocked.", "quantifier": "every list of analyses, every set of nodes, all components that nodes have and that analyses need", "why_tests_cant": "What is blocked in one analysis depends on what the others need at the same node, which is a combination of all load cases.", "anchors": ["Abstract/Model.cpp: generateDiscrets", "Abstract/Analysis.cpp: findBoundaryDOFS", "Abstract/Mesh.cpp: allowDOFS", "Abstract/Dof.cpp: DOFS"]}
{"id": "C121", "title": "Loads along beams act in Code_Aster where the card says", "statement": "A load along a beam (PLOAD1) has, at every point of the beam, the intensity that the card gives: linear between its two positions, zero elsewhere; whether positions are given as fractions or as lengths, intensities per length or per projected length, and wherever the beam is and whichever way it goes.", "quantifier": "every position of the two ends of the beam, every pair of positions and intensities of the card, every point of the beam; every table of a load given by fractions", "why_tests_cant": "Positions are turned into coordinates with those of the beam, and the function has no values outside; which is wrong depends on where the beam is in space.", "anchors": ["Abstract/Model.cpp: changeParametricForceLineToAbsolute", "Nastran/NastranParser.cpp: parsePLOAD1", "Aster/AsterWriter.cpp: writeForceLine, writeValue"]}
{"id": "C122", "title": "Rigid springs become rigid links, other springs and dampers stay", "statement": "When a model goes to Code_Aster or Systus, a spring all of whose six stiffnesses are declared rigid ties its two nodes rigidly, or fixes its node if the other end is the ground; a direction that is rigid is rigid for the target; every other spring, and every damper, keeps its values and ties nothing.", "quantifier": "every twelve values of a spring, every two values of a damper, every list of cells, every list of segments in the model", "why_tests_cant": "Rigid is a number among numbers in a matrix with whichever components the reader happened to store; which elements are taken for rigid follows from what is not stored.", "anchors": ["Abstract/Model.cpp: Model::replaceRigidSegments", "Abstract/Element.cpp: StructuralSegment::isDiagonalRigid, setAllZero", "Abstract/Dof.cpp: DOFMatrix::isMaxDiagonal", "Nastran/NastranParser.cpp: parsePVISC, parsePBUSH", "Nastran/NastranParser_geometry.cpp: parseCBUSH"]}
{"id": "C123", "title": "What is fixed to a point is kept when points become segments", "statement": "When a model goes to Systus, stiffness, mass and damping that belong to one node are given to a segment with the same components, and act on the same node.", "quantifier": "every history of calls that gives components to a point, all pairs of degrees of freedom, every list of points with any nodes", "why_tests_cant": "The components go through a matrix that folds or refuses entries by its type, and the new element acts only through cells it is given elsewhere.", "anchors": ["Abstract/Model.cpp: Model::convert0DDiscretsInto1D", "Abstract/Element.cpp: DiscretePoint, StructuralSegment", "Abstract/Dof.cpp: DOFMatrix::addComponent, findComponent"]}
{"id": "C124", "title": "Scalar springs and dampers have the values of their cards", "statement": "Each scalar spring or damper of a Nastran file connects the components its card names, with the stiffness and damping of the last property card of its number, whichever order the cards come in; an end that is left out is fixed; the values of elements without property are those of their own cards.", "quantifier": "every list of the cards CELAS1, CELAS2, CELAS4, CDAMP1, PELAS and PDAMP, in every order, over every model", "why_tests_cant": "Elements and properties create each other's sets on first use, so the result depends on the order of cards in a file.", "anchors": ["Nastran/NastranParser_geometry.cpp: parseCELAS1, parseCELAS2, parseCELAS4, parseCDAMP1", "Nastran/NastranParser.cpp: parsePELAS, parsePDAMP, parseDOF", "Abstract/Element.cpp: ScalarSpring", "Abstract/Model.h: find, add"]}
{"id": "C125", "title": "Bars, beams and bushes have the nodes and the orientation of their cards", "statement": "Each bar, beam or bush of a Nastran file has the number, property, nodes and orientation (third node, vector or coordinate system) its card gives; every well formed card is read; releases and offsets of the ends are kept, or the user is told that they are not.", "quantifier": "every list of fields of a card, in fixed or free format, with any field missing, blank or malformed", "why_tests_cant": "Whether a field is a node or a vector is decided by whether other fields are empty, before they are read; the number of fields of a card varies.", "anchors": ["Nastran/NastranParser_geometry.cpp: parseOrientation, parseCBAR, parseCBEAM, parseCBUSH", "Nastran/NastranParser.cpp: parseBULKSection", "Nastran/NastranTokenizer.cpp: nextInt, nextDouble, nextString, skip, isEmptyUntilNextKeyword"]}
{"id": "C126", "title": "Code_Aster gets the constants of the cards of materials", "statement": "Every MAT1, MAT8, MATHP and MATS1 card of an accepted Nastran file ends in exactly one DEFI_MATERIAU of the Code_Aster command file, under the factor keyword of its law, with each constant of the card under its keyword and nothing for blank fields; masses carry the mass factor of the file; two cards for the same law of one material are refused; each element set gets the material its property names.", "quantifier": "every sequence of material cards with any fields blank, missing or malformed, every value of the mass and Rayleigh parameters, and every list of element sets", "why_tests_cant": "Each field may be blank on its own and one material may be built by several cards in any order; the constants pass through a positional constructor of sixteen doubles.", "anchors": ["Nastran/NastranParser.cpp: parseMAT1, parseMAT8, parseMATHP, parseMATS1", "Abstract/Material.cpp: Material::addNature, ElasticNature, OrthotropicNature, HyperElasticNature, BilinearElasticNature", "Abstract/Model.cpp: getOrCreateMaterial", "Aster/AsterWriter.cpp: writeMaterials", "Abstract/Element.cpp: ElementSet::getMaterials"]}
{"id": "C127", "title": "Load sets have the loads of their cards", "statement": "A FORCE, MOMENT, FORCE1, FORCE2, SLOAD, RFORCE, SPCD, TEMP, LOAD or DLOAD card is accepted exactly when its fields are well formed and there is nothing after them; then its load set gets the loads of the card, with blank fields at their default, and a load set has the loads of the cards of its number and type and nothing else; no card makes the reader loop for ever.", "quantifier": "every sequence of these cards, with any number of fields, blank, missing or malformed", "why_tests_cant": "LOAD, DLOAD and SLOAD have any number of pairs, read by loops that look at the characters of the next field; each field may be blank on its own.", "anchors": ["Nastran/NastranParser.cpp: parseFORCE, parseMOMENT, parseFORCE1, parseFORCE2, parseSLOAD, parseRFORCE, parseSPCD, parseTEMP, parseLOAD, parseDLOAD", "Nastran/NastranTokenizer.cpp: isNextInt, isNextDouble, nextInt, nextDouble", "Abstract/Model.cpp: getOrCreateLoadSet", "Abstract/Loading.cpp: RotationNode", "Aster/AsterWriter.cpp: writeRotation"]}
{"id": "C128", "title": "Every element set has one model of Code_Aster and characteristics that go with it", "statement": "Of the element sets with cells, in their order, each is named once in the order of models of the Code_Aster command file, or the translation is refused because Code_Aster has no model for its kind; the characteristics written for a set are those that go with its model: one stiffness matrix for a discrete, and one of damping or mass if it has some, for nodes or for segments; a thickness and an offset for shells; a section for beams; nothing is written of other sets.", "quantifier": "every collection of element sets with distinct numbers, of the 23 kinds, with or without cells, linear or not", "why_tests_cant": "Models and characteristics are written by two separate functions that go through the sets in different orders by kind; agreement must hold for all mixtures of kinds.", "anchors": ["Aster/AsterModel.cpp: getModelisations", "Aster/AsterWriter.cpp: writeAffeModele, writeAffeCaraElem", "Abstract/Element.h: ElementSet, isBeam, isTruss", "Abstract/Model.cpp: getBeams, getTrusses"]}
{"id": "C129", "title": "Constraints in the displacement systems of nodes become relations that say the same", "statement": "When the constraints on components of nodes that have a displacement system of their own are replaced, for solvers without such systems, by relations between global components, then in every constraint set a displacement of the nodes satisfies the original constraints, each read in the system of its node, exactly when it satisfies the constraints that are left, read as global, together with the new relations; and no node with a system of its own is left in them.", "quantifier": "every collection of single point constraints over constraint sets, every assignment of Cartesian systems of any depth or cylindrical systems to nodes, every displacement field", "why_tests_cant": "The equivalence is over all displacement fields and all orientations of systems, and the code changes shared systems as it goes from node to node, so the order of nodes must not matter.", "anchors": ["Abstract/Constraint.cpp: SinglePointConstraint::emulateLocalDisplacementConstraint", "Abstract/Model.cpp: emulateLocalDisplacementConstraint", "Abstract/CoordinateSystem.cpp: updateLocalBase, vectorToGlobal"]}
{"id": "C130", "title": "A strict translation that reports success has written what its analyses use", "statement": "When a strict translation to Code_Aster ends with success, every material and element set is described in the file, every analysis is in it, every load and constraint of a linear static analysis stands in an order that this analysis calls, and every requested output or check is asked of the analysis it belongs to; when an analysis uses something the file cannot hold, the translation is reported as incomplete; and models made only of what the file can hold are reported as successes.", "quantifier": "every finished model, with any number of load sets, constraint sets, objectives and analyses of all kinds", "why_tests_cant": "The report rests on marks that are set all over the writer and checked elsewhere; a mark without text, or text without a mark, shows only on the combinations of kinds, sets and analyses that nobody tried.", "anchors": ["Abstract/Model.cpp: Model::checkWritten", "Aster/AsterWriter.cpp: writeAffeCharMeca, writeDefiContact, writeAnalysis, writeAnalyses, writeImprResultats", "Commandline/VegaCommandLine.cpp: convertStudy", "Abstract/Object.h: markAsWritten"]}
{"id": "C131", "title": "Loads act on components that exist, and expected results are tested exactly there", "statement": "In the model that is written, every component of a node on which a load or a constraint of an analysis acts exists; an expected displacement is tested by the analyses that have it exactly when its component exists for them; expected stresses and frequencies and all other requests are kept.", "quantifier": "every model with any element sets, load sets that combine other sets, constraints, objective sets and analyses", "why_tests_cant": "Which components exist is found from all elements, loads and constraints together, in an order of passes; a test has one arrangement of them, and a dropped test is silent.", "anchors": ["Abstract/Model.cpp: Model::finish, Model::removeAssertionsMissingDOFS, Model::replaceCombinedLoadSets, Model::generateDiscrets, Model::remove", "Abstract/Analysis.cpp: getBoundaryConditions, addBoundaryDOFS, findBoundaryDOFS, getAssertions", "Abstract/Objective.cpp: getDOFSForNode"]}
{"id": "C132", "title": "Matrices entered on cards have the coefficients of their cards", "statement": "A stiffness, mass or damping matrix selected by name has, for two components of two nodes, exactly the last coefficient that the cards with this name give for them, in whichever order the two are written; cards of matrices that are not selected, and of other matrices, change nothing; cards that follow the format are read and the others are refused.", "quantifier": "every list of selected matrices, every sequence of DMIG cards with any number of terms, and every mesh before them", "why_tests_cant": "Matrices have thousands of terms spread over cards of several matrices that share the numbering of nodes; a test compares a few terms of one matrix.", "anchors": ["Nastran/NastranParser.cpp: parseDMIG, parseExecutiveSection (B2GG, K2GG, M2GG)", "Abstract/Element.cpp: MatrixElement::addComponent", "Abstract/Dof.cpp: DOFS::nastranCodeToDOFS, DOFS::begin"]}
{"id": "C133", "title": "Contacts entered on cards join the lines, surfaces and bodies they name", "statement": "A contact card gives a contact between exactly the two lines, surfaces or bodies it names, with the nodes or elements of the cards that define these and the friction of the card it names, wherever these cards stand in the file; cards that follow the format are read, and two definitions with one number are refused.", "quantifier": "every sequence of contact cards with any number of nodes, elements and zones, and every order in which a hash table visits the kinds of targets", "why_tests_cant": "Lines, surfaces and bodies are numbered independently, and what is found for a number depends on which kinds share it and on the hash table; a test uses one model whose numbers are all different.", "anchors": ["Nastran/NastranParser.cpp: parseBCBODY, parseBLSEG, parseBSSEG, parseBSURF, parseBFRIC, parseBCTABLE, parseBCONP, parseBSCONP", "Abstract/Model.cpp: Model::find(Reference<Target>), makeBoundarySegments, makeBoundarySurfaces", "Aster/AsterWriter.cpp: writeDefiContact"]}
{"id": "C134", "title": "Loads and groups have the elements their cards name", "statement": "A pressure, a line load, a surface or a set that names elements by number has exactly these elements in the written model, with their nodes, wherever the cards of the elements stand in the file.", "quantifier": "every sequence of element cards and of cards naming elements, of any length, and every owner", "why_tests_cant": "Whether an element is found depends on the order of cards in the file and on gaps in ranges of numbers; test files put the loads after the elements.", "anchors": ["Abstract/MeshComponents.cpp: CellContainer::addCellId, addCellIds, getCellsExcludingGroups, getCellIdsExcludingGroups", "Abstract/Mesh.cpp: Mesh::findCellPosition, Mesh::findCell", "Nastran/NastranParser.cpp: parsePLOAD1, parsePLOAD2, parsePLOAD4, parseBSURF, parseSET3", "Aster/MedWriter.cpp: CellGroup2Families", "Aster/AsterWriter.cpp: writeCellContainer"]}
{"id": "C135", "title": "A union of sets of supports has the supports of its sets", "statement": "When a case selects a set of supports that is defined as the union of others, it has exactly the supports of its own cards and of the sets of the union, whatever the order of the cards, and each card that follows the format is accepted.", "quantifier": "every selection of sets, every sequence of support cards and union cards with any number of sets, and every set", "why_tests_cant": "The union is resolved when the model is written, through sets created on the fly while reading; a test has one union of plain sets.", "anchors": ["Nastran/NastranParser.cpp: parseSPCADD, parseSPC, parseSPC1, addAnalysis", "Abstract/Constraint.cpp: ConstraintSet::add, ConstraintSet::getConstraints", "Abstract/Model.cpp: Model::getConstraintsByConstraintSet"]}
{"id": "C136", "title": "Nodes written to Systus are held as the model says, in their own axes", "statement": "In the file of a subcase every node of the mesh is written once, with its number and coordinates; its code holds exactly the components that the supports of the analysis hold, and in the option without rotations the held rotations of the master of a rigid body are held on the node that stands for them; a node whose displacements are given in a system of its own refers to a vector with the angles of that system at this node, any other node to none; the vectors of loads are unchanged.", "quantifier": "every mesh, every number of sets, supports and nodes per support, all components, both options, every assignment of coordinate systems to nodes", "why_tests_cant": "Codes are combined bit by bit over all supports of all sets, and vectors are shared between nodes of one system and numbered after those of loads; a test has one support per node and one system.", "anchors": ["Systus/SystusWriter.cpp: fillConstraintsNodes, fillCoordinatesVectors, writeNodes, getSystusInformations", "Abstract/Constraint.cpp: SinglePointConstraint::getDOFSForNode", "Abstract/CoordinateSystem.cpp: CoordinateSystemStorage::findByPosition"]}
{"id": "C137", "title": "Axes of elements written to Systus are those of the model", "statement": "The angles written for an element of Systus turn the axes from which they are counted into the axes the model gives this element: for an oriented bar one angle around the bar, counted from the horizontal direction to its left (from Y if the bar is vertical); for a spring, a point or a solid three angles counted from the global axes; for a shell one angle in its plane, that of the projection of the first axis.", "quantifier": "every position of the nodes, every coordinate system with direct axes, every dimension and type of element", "why_tests_cant": "The reference from which the angle is counted depends on the direction of the bar, with a limit case at the vertical; equality is between rotations in real arithmetic.", "anchors": ["Systus/SystusWriter.cpp: buildElementDefaultReferentiel, writeElementLocalReferentiel", "Abstract/CoordinateSystem.cpp: CartesianCoordinateSystem::getEulerAnglesIntrinsicZYX, OrientationCoordinateSystem::build"]}
{"id": "C138", "title": "Coordinate systems pass through Nastran cards unchanged", "statement": "A card CORD2R, CORD2C or CORD2S gives its number and the system with the origin A, the z axis towards B and C in the half-plane of x, in the given system of reference; a card CORD1R gives all its systems with their nodes; a coordinate system written to a Nastran file is read back as the same system.", "quantifier": "every number, every system of reference, all points that fit in fields, any number of systems on a card", "why_tests_cant": "A card is a sequence of fields that depend on each other by position; a test writes one system, at most, and looks at the text.", "anchors": ["Nastran/NastranParser.cpp: parseCORD1R, parseCORD2C, parseCORD2R, parseCORD2S", "Nastran/NastranWriter.cpp: writeModel", "Nastran/NastranTokenizer.cpp: nextInt, nextDouble"]}
{"id": "C139", "title": "Modal analyses search the modes that the cards ask for", "statement": "A card EIGR, EIGRL, EIGB or EIGC is read with the set, the bounds, the number of modes and the normalisation that its fields give, blanks being the defaults, and refused if a field does not have its form; a modal analysis is written with the bounds, the number and the normalisation of the card of its set.", "quantifier": "every card, all bounds and numbers, any number of cards, both solvers", "why_tests_cant": "The fields are told apart by position only and most are blank in tests; a normalisation that is wrong gives modes that look right.", "anchors": ["Nastran/NastranParser.cpp: parseEIGR, parseEIGRL, parseEIGB, parseEIGC", "Abstract/Analysis.cpp: LinearModal::getFrequencySearch", "Aster/AsterWriter.cpp: writeCalcFreq", "Systus/SystusDat.cpp: writeLinearModalAnalysis"]}
{"id": "C140", "title": "Rods keep their section", "statement": "A card CROD, PROD or CONROD is read with the numbers, ends, material, area, torsional constant and mass per length of its fields, blanks being the defaults; a rod has the section of the property card that it names, wherever this card is in the file; and what is written for Code_Aster or Nastran is a rod with this area and this torsional constant.", "quantifier": "every card, files of rods in any order, linear analyses and large displacements, both formats", "why_tests_cant": "Tests have one or two rods under traction, for which neither the torsional constant nor an unwanted bending stiffness shows; a Nastran file is compared by eye only.", "anchors": ["Nastran/NastranParser_geometry.cpp: parseCROD, addProperty, getOrCreateCellGroup", "Nastran/NastranParser.cpp: parsePROD, parseCONROD", "Aster/AsterWriter.cpp: writeAffeCaraElemPoutre", "Aster/AsterModel.cpp: getModelisations", "Nastran/NastranWriter.cpp: writeElements, writeCells"]}
{"id": "C141", "title": "A file may be split into included files", "statement": "A Nastran file whose bulk data is spread over files named by INCLUDE lines, to any depth, gives the same cards in the same order as the single file with the contents in place of these lines; names may be quoted or not; a missing file is reported; reading stops at the end of the data.", "quantifier": "every nesting of files, every card in fixed or free format, comments and empty lines, every name", "why_tests_cant": "Tests include one file once, with a short name; nesting, long names and lines next to an inclusion are combinations that no list of files covers.", "anchors": ["Nastran/NastranParser.cpp: parseInclude, parseBULKSection", "Nastran/NastranTokenizer.cpp: readLineSkipComment, splitFixedFormat, nextLine"]}
{"id": "C142", "title": "Nonlinear subcases follow each other", "statement": "When every subcase of a Nastran file is nonlinear, the command file for Code_Aster runs the i-th one from instant i to i + 1 with the number of increments of its NLPARM card (ten if blank), starting from the result of the one before; each load goes in a straight line from what the subcase before asked for to what this one asks for, so that at the end exactly the loads of the subcase act.", "quantifier": "every number of subcases, all cards NLPARM and NLPCI, all load sets, all instants", "why_tests_cant": "Tests look at the text of one or two subcases; the chain of initial states, instants and factors has to be right for any number of them.", "anchors": ["Nastran/NastranParser.cpp: parseNLPARM, parseNLPCI, addAnalysis", "Aster/AsterWriter.cpp: writeAnalyses, writeAnalysis, getNonLinearStrategy, writeValue", "Abstract/Objective.cpp: ObjectiveSet"]}
{"id": "C143", "title": "A file without a SOL statement gets the analysis it calls for", "statement": "When a Nastran file names no solution, the translation adds exactly one analysis, nonlinear if there is a nonlinear strategy, else modal if there is a search of frequencies, else static, with the loads, supports and parameters of the file; a file that names one keeps its analyses.", "quantifier": "every combination of objectives, sets of loads and constraints, both modes of translation", "why_tests_cant": "Tests put the strategy by hand into the set that is looked at; files put it elsewhere, and no test translates such a file.", "anchors": ["Abstract/Model.cpp: addAutoAnalysis, finish, addObjectiveIntoObjectiveSet", "Abstract/Analysis.cpp: getFrequencySearch, getLoadSets, getConstraintSets", "Aster/AsterWriter.cpp: getNonLinearStrategy", "Nastran/NastranParser.cpp: defaultAnalysis, addAnalysis"]}
{"id": "C144", "title": "Displacements asked for are extracted by Code_Aster", "statement": "For each analysis, the table that Code_Aster is told to make has the displacements, real and imaginary parts, of exactly the nodes of the lists that its subcase asks for (all nodes when it asks for none), and asking for results changes neither the nodes nor the other groups of the mesh.", "quantifier": "every case control section, every mesh and every list, any number of subcases", "why_tests_cant": "Tests use lists of nodes that exist; what a number without a node, ALL, or the same list in two subcases do shows only in the files that Code_Aster reads.", "anchors": ["Aster/AsterWriter.cpp: writeImprResultats, writeNodeContainer, writeAnalyses", "Abstract/Objective.cpp: NodalDisplacementOutput::getNodeGroups", "Nastran/NastranParser.cpp: addAnalysis, addSet", "Abstract/Mesh.cpp: findOrReserveNode, findOrCreateNodeGroup"]}
{"id": "C145", "title": "The file of data of Systus can be read back", "statement": "A program that reads the file of data finds the numbers of nodes, load cases, lists and vectors that are announced; following the numbers of the lists in the lines of the nodes and elements, it finds for each load case exactly the loads and imposed values of its set of loads, and in the line of the load case its name and its acceleration; every number that a list names is that of a load case or vector of the file.", "quantifier": "every list of analyses with their loads and constraints, any number of nodes, elements and axes", "why_tests_cant": "A wrong count or a number without vector shows only when Systus reads the file, and Systus is not available to the tests; names and numbers of load cases depend on the whole model.", "anchors": ["Systus/SystusWriter.cpp: writeHeader, writeInformations, writeNodes, writeElements, writeLoads, writeLists, writeVectors, fillLoads, fillVectors, fillLists, translate, writeAsc"]}
{"id": "C146", "title": "What a case asks for and the file does not contain is refused, or left out and nothing else", "statement": "If the sets of loads, supports and methods that the cases select, and the coordinate systems of the forces, are all in the file, every case is written as given. If one of them is missing, a translation in strict mode is refused because of the model; in the other modes the cases are written without what is missing, and nothing else is left out.", "quantifier": "every list of cases with their selections, every list of cards, the three outputs and the three modes of translation", "why_tests_cant": "The result depends on which of three stages (completing the model, removing what is ineffective, validation) meets the missing object first, and this differs between outputs and modes; a test has one file, one output and one mode.", "anchors": ["Commandline/VegaCommandLine.cpp: convertStudy", "Abstract/Model.cpp: finish, validate, removeIneffectives, remove, getLoadingsByLoadSet", "Abstract/Model.h: Container::validate", "Abstract/Analysis.cpp: Analysis::validate, LinearModal::validate, getFrequencySearch, getLoadSets", "Abstract/Loading.cpp: Loading::validate, LoadSet::validate, LoadSet::size", "Abstract/Loading.h: LoadSet::empty"]}
{"id": "C147", "title": "Scalar points become nodes with a single degree of freedom", "statement": "Each point named by an SPOINT card, in a list or as the bound or inside of a range, becomes a node at the origin. Its first degree of freedom is left free and its five others are held at zero, in every subcase, and no node that is not named by such a card is held by this, moved or renumbered.", "quantifier": "every SPOINT card in either form with any number of points, every sequence of such cards, every mesh read before", "why_tests_cant": "The points of a range are created by a loop and the node may be known already because a card read before refers to it; a test has one list or one range in an empty mesh.", "anchors": ["Nastran/NastranParser_geometry.cpp: parseSPOINT", "Abstract/Mesh.cpp: addNode, findOrReserveNode", "Abstract/MeshComponents.cpp: NodeContainer::addNodeId", "Abstract/Constraint.cpp: SinglePointConstraint"]}
{"id": "C148", "title": "In nonlinear analyses each cell has the law its material cards ask for", "statement": "The cells of a property have, in COMPORTEMENT of a nonlinear static analysis for Code_Aster, the relation that MATS1 and MATHP ask for their material (plasticity, nonlinear elasticity, hyperelasticity, or linear elasticity when there is no such card), once, with large displacements when PARAM LGDISP asks for them; and DEFI_MATERIAU has the keyword that this relation rests on.", "quantifier": "every accepted deck of material cards, every list of properties with their cells and materials, with or without large displacements", "why_tests_cant": "The relation depends on the order of the tests on natures, on the kind of element and on a parameter, and its agreement with the definition of the material joins two places of the writer; tests have one material each.", "anchors": ["Aster/AsterWriter.cpp: writeAnalysis (NONLINEAR_MECA_STAT), writeMaterials", "Abstract/Model.cpp: needsLargeDisplacements", "Nastran/NastranParser.cpp: parseMATS1, parseMATHP", "Abstract/Element.h: isBeam, isTruss, effective", "Abstract/Material.cpp: findNature"]}
{"id": "C149", "title": "The options of a translation are those of the command line, then of the configuration file, then the documented ones", "statement": "Every parameter of a translation (input, directory, level, mode, solver, tolerance, dialect, stiffness and coefficient of rigid elements, size of matrices, groups of analyses...) has the value that the command line gives to its option; else the value given by the configuration file; else the value that the help text documents. Deprecated options mean what their replacements mean. A value that is not among those listed, an option that is unknown, repeated or of a wrong kind is refused, and nothing else is. Asked for its version or its help, the program does nothing else, and without input file it says so.", "quantifier": "every list of options on the command line and in the configuration file, with every value", "why_tests_cant": "Thirty options from two sources, with defaults that depend on one another (size of matrices, coefficient, version) and deprecated names: tests give a few options on the command line and never a configuration file.", "anchors": ["Commandline/VegaCommandLine.cpp: process, readCommandLineParameters, normalize_path", "Abstract/ConfigurationParameters.h: ConfigurationParameters"]}
{"id": "C150", "title": "The failure index of every ply of a composite is that of its own stresses, angle and strengths", "statement": "For a composite that asks for the criterion of Tsai and Wu, the commands of every analysis print, for every layer and whatever the stresses, the stresses of that layer turned into the axes of its fibres and the index of the criterion for the strengths of its material; a strength left blank takes the documented default. Nothing is printed for other layers, another criterion is refused, every name made on the way is given once and destroyed after the analysis.", "quantifier": "every list of composites, laminate option, angle, material and field of stresses, every analysis", "why_tests_cant": "The index depends on four formulas written as text with the angle and the strengths of each ply; a test compares one file with one that the program wrote before.", "anchors": ["Aster/AsterWriter.cpp: writeAnalyses", "Nastran/NastranParser.cpp: parsePCOMP, parseMAT8", "Abstract/Element.cpp: Composite::getFullLayers", "Abstract/Model.cpp: replaceIsotropicMaterialsInComposites"]}
{"id": "C151", "title": "A table of results given with the model becomes the tests of its analyses", "statement": "When a table of displacements is given with the model as a CSV file, every row of it gives one test for each component that has a column, with the node, the value and the instant of the row, and it is the analysis the row names that is tested; comments, other columns and blank lines give nothing. The reading of any file ends, a file that is not understood is reported by an error, and the table that Code_Aster prints for a translation, given back with the same model, tests every value at the node and for the analysis it was computed for.", "quantifier": "every text of a file, every table with its columns in any order and any number of rows, every numbering of analyses and nodes, every name of a file", "why_tests_cant": "The only test counts the assertions of one file of 21 rows; the names of columns, the numbers of results and nodes and the ends of files are free texts.", "anchors": ["ResultReaders/CSVResultReader.cpp: CsvGrammar, convertFunc, add_assertions", "ResultReaders/ResultReadersFacade.cpp: getResultReader", "Abstract/Model.h: Container::find", "Aster/AsterWriter.cpp: writeAnalyses, writeNodalDisplacementAssertion", "Systus/SystusWriter.cpp: writeNodalDisplacementAssertion"]}
{"id": "C152", "title": "The files of a translation are those that are run, and a run is judged by its own results", "statement": "The files a translation writes are named after the model, never replace the file of the model, and are those that the solver is asked to read; the command that is run changes to the output directory and starts the solver on them. A run is reported as if the directory held no result of an earlier run: a solver that writes no result is never reported as a success, no data file of another translation is run, and nothing but the results of earlier runs of the same model is removed.", "quantifier": "every name of a model, every content of the output directory left by earlier runs, every number of subcases, every behaviour of the solver", "why_tests_cant": "Runs need a solver, which is replaced by a double or absent in the tests; what a run finds in its directory depends on the history of earlier runs and on names of files that the user chooses.", "anchors": ["Aster/AsterModel.cpp: getOutputFileName", "Aster/AsterWriter.cpp: writeModel, writeExport", "Aster/AsterRunner.cpp: execSolver", "Systus/SystusModel.cpp: getOutputFileName", "Systus/SystusWriter.cpp: writeModel", "Systus/SystusRunner.cpp: execSolver", "Nastran/NastranWriter.cpp: getNasFilename", "Abstract/SolverInterfaces.cpp: deletePreviousResultFiles, stripExtension"]}
{"id": "C153", "title": "Loads on faces of solids, and surfaces made of faces, act on surface cells that are these faces, with the normal outwards", "statement": "For every load that names a face of a solid, and for every face of a surface, the translation makes one new surface cell whose nodes are those of that face, in order; the load then acts on that cell and on nothing else, loads that name no face are left alone, a surface becomes the group of its new cells, and all new cells take part in the model. No cell and no node that was there changes. The new cell turns about the outward normal of the solid, so that a positive pressure on a face pushes into the solid.", "quantifier": "every mesh, every list of loads and surfaces, every solid type and every face, every position of the nodes of a right-handed solid with flat parallel-sided faces, every order in which the table of cell types is visited", "why_tests_cant": "Tests look at a few cells of one or two types; the orientation depends on the combination of the face table, the numbering of the input and the signs of reader and writer, for each of 40 faces of eight types; the choice of the cell type goes through an unordered map.", "anchors": ["Abstract/Model.cpp: generateSkin", "Abstract/Loading.cpp: CellLoading::createSkin, getApplicationFaceNodeIds", "Abstract/Target.cpp: BoundaryElementFace::createSkin", "Abstract/Mesh.cpp: generateSkinCell", "Abstract/MeshComponents.cpp: FACE_BY_CELLTYPE, faceids_from_two_nodes", "Nastran/NastranParser.cpp: parsePLOAD4", "Aster/AsterWriter.cpp: writePression"]}
{"id": "C154", "title": "Rigid elements in a Systus file are as stiff as the stiffest material times a length of the mesh, in any units and any order", "statement": "Without a stiffness in the options, each set of rigid bars and of linear relations gets as rigidity a coefficient times the largest modulus of the elastic parts of the model times the root mean square of the distances between two nodes of one cell. The length lies between the shortest and the longest of these distances, does not depend on the order of the cells and changes with the unit of length as a length does; the rigidity is positive when a part is elastic; all sets have the same; a stiffness or a coefficient given in the options is used as it is.", "quantifier": "every mesh with cells of any types, every list of parts, every combination of the options for rigid elements, every number of rigid sets whatever the writer does to the mesh between them", "why_tests_cant": "Tests check one mesh of one type of cells; that a penalty is neither zero nor undefined depends on the materials and on coincident nodes anywhere in the model, and a rigidity of zero gives a solution without any message.", "anchors": ["Systus/SystusWriter.cpp: generateRbarStiffness, generateRBEs", "Abstract/Mesh.cpp: Mesh::calcStats", "Commandline/VegaCommandLine.cpp: systus.RBEStiffness, systus.RBECoefficient, systus.RBELagrangian, systus.RBE2Rigidity"]}
{"id": "C155", "title": "Each direct matrix in a Systus file is carried by one cell whose nodes are in the order in which the coefficients are numbered", "statement": "For Systus every direct matrix without cells gets one new cell with a new number, alone in a group of its own. The cell has the nodes of the matrix and no others, and the node numbered n in the table or file of coefficients is the n-th node of the cell. With a size of matrices of at most 20 nodes, as by default, no matrix is too large for a cell. Element sets that are not matrices or already have cells, the nodes, the other cells and the other groups are unchanged.", "quantifier": "every mesh, every list of element sets, every direct matrix with any coefficients between any nodes", "why_tests_cant": "A cell whose nodes are in another order than the numbers of the coefficients couples other degrees of freedom than the model does, and is a valid file; tests use matrices on one or two nodes with increasing numbers.", "anchors": ["Abstract/Model.cpp: makeCellsFromDirectMatrices, splitDirectMatrices", "Abstract/MeshComponents.cpp: CellType::polyType", "Systus/SystusWriter.cpp: numbering of the nodes of a matrix"]}
{"id": "C156", "title": "Each load set and constraint set of the study has a group of nodes of its own with exactly the nodes it acts on", "statement": "At the end of the reading each load set and each constraint set with a number in the study gets a group of nodes, named after its type and number. Different sets have different names, of at most 24 characters; the group holds the nodes of the loads or constraints of the set and no others; sets made by the translation get none; the groups of the model keep their names, numbers and nodes.", "quantifier": "every list of load sets and constraint sets of every type with any numbers, every mesh with any groups", "why_tests_cant": "A name shared by two sets of different types, or one character too many, appears only for some pairs of types and large numbers, and stops the translation or the solver.", "anchors": ["Abstract/Model.cpp: createSetGroups", "Abstract/Loading.cpp: LoadSet::getGroupName", "Abstract/Constraint.cpp: ConstraintSet::getGroupName"]}
{"id": "C157", "title": "A modal harmonic response in a Systus file has the amplitude that the table of its excitation gives", "statement": "For a modal harmonic response each dynamic excitation of the subcase gets a table with its number, in order and different from all others, that holds the points of its amplitude; the response, which Systus computes under the first load case, refers to the table of the excitation of that load case. Tables written for other purposes are unchanged.", "quantifier": "every list of analyses of a subcase with any sets of loads and any excitations, every list of tables there were before, each method that the options allow", "why_tests_cant": "A response without the line for the table, or with the table of another load, is a valid file whose results are wrong at every frequency; tests use one excitation and the option for the modal method.", "anchors": ["Systus/SystusWriter.cpp: fillTables", "Systus/SystusDat.cpp: writeDynaModalAnalysis", "Systus/SystusWriter.cpp: fillLoads, writeDat", "Commandline/VegaCommandLine.cpp: systus.DynamicMethod"]}
{"id": "C158", "title": "A sliding contact for Systus ties each slave node to the nearest master face", "statement": "When a sliding contact between two surfaces is translated for Systus, each node of the slave surface gets one cell made of the nodes of the master face nearest to it, in order, and of the node. The group and the element set of the contact have these cells and no others; the cells, the nodes and the other groups of the model are unchanged.", "quantifier": "every mesh, every pair of surfaces made of faces of solid cells of any size and position, every way in which the search breaks ties", "why_tests_cant": "A node tied to a wrong face gives a valid mesh and a contact at the wrong place; a test with flat surfaces parallel to the axes cannot show it, since their faces and the boxes around them are the same.", "anchors": ["Abstract/Constraint.cpp: SurfaceSlide::makeCellsFromSurfaceSlide", "Abstract/Model.cpp: makeCellsFromSurfaceSlide", "Abstract/ConfigurationParameters.cpp: getModelConfiguration"]}
{"id": "C159", "title": "Each cell has the orientation it was given, in the Code_Aster file", "statement": "When cells are given coordinate systems, the cells of each system, and no others, are put in one group, whose name no other system has; the groups of the model keep their cells. In the Code_Aster file of a model with beams, discrete elements or shells, each cell with a relative system gets the vector of its own system and no other; a cell with a system of another kind, or without, gets none. If a name is not free the translation stops.", "quantifier": "every list of cells in any order, with any coordinate systems, and every groups the model has", "why_tests_cant": "A beam with the orientation of another one is a valid model with other stiffnesses; which cells share a group depends on the whole history of cells and systems.", "anchors": ["Abstract/Mesh.cpp: getOrCreateCellGroupForCS, addCell, createCellGroup", "Abstract/MeshComponents.cpp: CellContainer::addCellId", "Aster/AsterWriter.cpp: writeAffeCaraElem"]}
{"id": "C160", "title": "The files of element matrices for Systus hold the matrices, and each subcase has access to its own files", "statement": "When matrices are written to files for Systus, each subcase has one file for each kind of matrices the model has; a file can be read in one way only, and has the matrices in their order, numbered from 1, each with the coefficients it was given. No file overwrites another. The commands of a subcase give access to exactly its own files, with the number of the kind that elements refer to.", "quantifier": "every number of subcases, every list of matrices of each kind, with any numbers of nodes and degrees of freedom", "why_tests_cant": "The names of the files are kept from one subcase to the next, and the layout has no separators: a wrong count shifts everything after it. The result is only seen by the solver.", "anchors": ["Systus/SystusWriter.cpp: writeMatrixFiles, writeDat, writeModel", "Systus/SystusAsc.cpp: operator<<(SystusMatrix), operator<<(SystusMatrices)"]}
{"id": "C161", "title": "The displacements of beams are reported in their own axes", "statement": "For a static analysis of a model with beams, or with trusses and large displacements, the Code_Aster file asks, for each cell with an orientation, once for the displacements at its two end nodes, in axes whose second direction is given by the orientation of this cell, and for nothing else.", "quantifier": "every list of cells with and without orientations, every groups and element sets", "why_tests_cant": "Which cells share a group depends on all the cells read; a wrong vector, node or group only changes numbers in a table that a solver writes.", "anchors": ["Aster/AsterWriter.cpp: writeAnalyses", "Abstract/Mesh.cpp: getOrCreateCellGroupForCS, addOrFindOrientation"]}
{"id": "C162", "title": "A property applies to the elements that refer to it, whatever sets the file has", "statement": "A Nastran file with elements, properties and sets (SET3), in any order, is read, and each property then applies to exactly the elements that refer to it by its number.", "quantifier": "every list of elements, properties and sets of elements or nodes, with any numbers and in any order", "why_tests_cant": "Elements, properties and sets may come in any order and with any numbers; a property that applies to too many elements gives a model that is well formed, with other stiffnesses.", "anchors": ["Nastran/NastranParser_geometry.cpp: addProperty, getOrCreateCellGroup", "Nastran/NastranParser.cpp: parseSET3", "Abstract/Mesh.cpp: createCellGroup, createNodeGroup, findGroup"]}
{"id": "C163", "title": "Rigid connections are read with all the nodes of their cards, or refused", "statement": "A card CRIGD1, RBE2 or RBE3 that is accepted in strict mode gives a connection with exactly the number, the master, the degrees of freedom, the weights and the slaves that the fields of the card say, in their order; anything else in the card makes it be refused, except a real at the end of an RBE2 and the third field of an RBE3.", "quantifier": "every list of fields, of any length, with any texts", "why_tests_cant": "Lists of nodes have any length, with blank fields, ranges and options; a connection with some of its nodes missing gives a model that runs.", "anchors": ["Nastran/NastranParser.cpp: parseCRIGD1, parseRBE2, parseRBE3, parseBULKSection", "Nastran/NastranTokenizer.cpp: isNextInt, nextInt, isNextDouble, nextDouble, isEmptyUntilNextKeyword"]}
{"id": "C164", "title": "The surfaces in contact are turned outward", "statement": "The Code_Aster file turns, after reading the mesh, the surfaces of every zone of contact and of every sliding contact, and no others, with the keyword for what they are: skins of solids with that for solids.", "quantifier": "every list of sets of constraints with any zones and sliding surfaces, and any degrees of freedom of the nodes", "why_tests_cant": "Which keyword is used depends on one node among all those of the zones; a contact whose normals are wrong is only seen in the results, or in an error of the solver.", "anchors": ["Aster/AsterWriter.cpp: writeLireMaillage", "Abstract/Constraint.cpp: ZoneContact::nodePositions"]}
{"id": "C165", "title": "The solid under a cell of the skin is found", "statement": "For a cell of the skin, the mesh gives a solid and the number of one of its faces that has exactly the nodes of the cell, when there is one, and fails when there is none.", "quantifier": "every list of cells of all types and sizes, and every cell of a skin with different nodes", "why_tests_cant": "The search goes through all faces of all solids; a face whose table has a wrong node is only missed for cells of that type and that face.", "anchors": ["Abstract/Mesh.cpp: volcellAndFaceNum_from_skincell", "Abstract/MeshComponents.cpp: nodeIdsByFaceNum"]}
