{"id": "C01", "title": "Lookup by index is exact whenever the container says its index is fresh", "statement": "For a mesh/snake element container, whenever its index flag says the lookup table is up to date, find(k) returns a position holding an element whose index is k, and returns -1 exactly when no element has index k; isearch(k) then returns such an element.", "quantifier": "for every history of public operations (Init, assign, push_back, element edit through [], remove, Concatenate, PopulateIndices, ChangeIndices, clear, HashArray, SetMaxIndex, PrepareForUse, read) from an empty container, every key, and every internal ordering of the hash table", "why_tests_cant": "the claim is about all operation histories and all hash bucket orders; tests only run a few scripted sequences with one standard library", "anchors": ["SRCC/incl/arraystructures.hpp:ArrayStruct", "SRCC/incl/arraystructures_incl.cpp:ArrayStruct::find, HashArray, push_back, remove, Concatenate, PopulateIndices, ChangeIndices, clear, PrepareForUse"]}
{"id": "C02", "title": "A new index obtained from the maximum index is unused", "statement": "Whenever the container says its maximum index is set, GetMaxIndex() is at least every stored index (and is 0 or an index actually present just after it is computed), so GetMaxIndex()+1 does not collide with any element.", "quantifier": "for every history of public container operations from an empty container", "why_tests_cant": "collision depends on the order of additions, removals and edits; tests cannot enumerate the histories", "anchors": ["SRCC/incl/arraystructures_incl.cpp:ArrayStruct::SetMaxIndex, push_back, clear, PopulateIndices, GetMaxIndex"]}
{"id": "C03", "title": "'Ready for use' means lookups are trustworthy", "statement": "If isready() returns true then the lookup table and the maximum index describe the current contents (so no lookup can be wrong or throw).", "quantifier": "for every history of public container operations", "why_tests_cant": "a stale flag shows only for particular histories (e.g. query between a removal and the next preparation)", "anchors": ["SRCC/incl/arraystructures.hpp:ArrayStruct::isready", "SRCC/incl/arraystructures_incl.cpp:ArrayStruct::remove, clear, push_back, PrepareForUse, checkready"]}
{"id": "C04", "title": "Parent lookups are exact after preparation", "statement": "After PrepareForUse(), findparent(k)/findsiblings(k)/countparent(k) on a snake element container report exactly the elements whose parent is k.", "quantifier": "for every history of public operations (including Init and read on a container that was already used) followed by PrepareForUse, every parent key, every hash order", "why_tests_cant": "whether the parent table is rebuilt depends on a flag left over from earlier use of the same object; fresh-object tests never see it", "anchors": ["SRCC/incl/snakstruct_incl.cpp:SnakStruct::HashParent, PrepareForUse, Init, clear, findparent, findsiblings, push_back", "SRCC/incl/arraystructures_incl.cpp:ArrayStruct::read, assign"]}
{"id": "C05", "title": "Removal deletes exactly the requested elements", "statement": "remove(list) deletes every element whose index is in the list and no other element; the remaining elements keep their contents and their relative order, and after preparation lookups agree with the smaller container.", "quantifier": "for every container content (including duplicate indices) and every list of indices (including duplicates and absent indices)", "why_tests_cant": "needs all contents and lists", "anchors": ["SRCC/incl/arraystructures_incl.cpp:ArrayStruct::remove"]}
{"id": "C06", "title": "Hashed vectors find what they contain", "statement": "After GenerateHash, and after any further push_back, find(x) returns a position holding x or -1 if x is absent, findall(x) returns exactly all positions of x, count(x) their number; the hash flag being true means this holds.", "quantifier": "for every vector content, key, and history of GenerateHash/push_back/assign/clear/element writes", "why_tests_cant": "the claim covers all histories; staleness appears only in some of them", "anchors": ["SRCC/incl/arraystructures.hpp:HashedVector", "SRCC/incl/arraystructures_incl.cpp:HashedVector::GenerateHash, find, findall, count"]}
{"id": "C07", "title": "Sub-list search returns positions in the list that was passed", "statement": "FindSubList(keys, list, table) returns for each key a position of that key in list, or -1 when the key is not in list.", "quantifier": "for every key list, target list and every table state the caller may pass (empty or previously filled)", "why_tests_cant": "depends on the hidden state of the table carried over from a previous call", "anchors": ["SRCC/incl/arraystructures_incl.cpp:FindSubList, HashVector, FindSub", "SRCC/src/snake/snake.cpp:snake::OrderOnEdge"]}
{"id": "C08", "title": "Modification tracking reports exactly the modified elements", "statement": "ReturnModifInd lists exactly the indices of the elements edited since the last SetNoModif, and ReturnModifLog gives true exactly at their positions.", "quantifier": "for every container content and every sequence of edits", "why_tests_cant": "all edit sequences; a wrong field is invisible when all indices are non-zero and all elements are modified", "anchors": ["SRCC/incl/snakstruct_incl.cpp:ModiftrackArray::ReturnModifInd, ReturnModifLog, SetNoModif"]}
{"id": "C09", "title": "Erasing a key/value pair removes it from the table", "statement": "EraseKeyPair(table,key,pos) removes that one pair from the caller's table and leaves the rest; DeHashParent(pos) removes exactly the entry of that position.", "quantifier": "for every table containing the pair, in every bucket order", "why_tests_cant": "all tables and bucket orders", "anchors": ["SRCC/incl/arraystructures_incl.cpp:EraseKeyPair", "SRCC/incl/snakstruct_incl.cpp:SnakStruct::DeHashParent"]}
{"id": "C10", "title": "Renumbering a mesh preserves its connectivity and the 'no cell' marker", "statement": "Shifting all indices of a mesh by per-type offsets keeps every incidence relation (element a lists b before iff shifted a lists shifted b after), keeps lookups unique, and keeps the marker 0 for 'outside' unchanged.", "quantifier": "for every mesh and every non-negative offsets", "why_tests_cant": "all meshes and offsets", "anchors": ["SRCC/src/grid/mesh.cpp:mesh::ChangeIndices, volu/surf/edge/vert::ChangeIndices, mesh::MakeCompatible_inplace"]}
{"id": "C11", "title": "Concatenating two meshes gives their disjoint union", "statement": "After MakeCompatible_inplace(b) followed by Concatenate(b), all indices of a type are pairwise distinct if they were distinct in each mesh, every incidence of either mesh is present, no incidence between the two meshes is created, and if each mesh had no dangling reference then neither has the result.", "quantifier": "for every pair of meshes with up-to-date maximum indices", "why_tests_cant": "all pairs of meshes", "anchors": ["SRCC/src/grid/mesh.cpp:mesh::MakeCompatible_inplace, mesh::Concatenate, mesh::ChangeIndices", "SRCC/incl/arraystructures_incl.cpp:ArrayStruct::Concatenate"]}
{"id": "C12", "title": "Merging a vertex into another leaves no reference to the merged vertex", "statement": "After SwitchIndex(1, old, new) no edge refers to old, every edge that referred to old refers to new, the new vertex lists every edge that refers to it, and if vertex-edge incidence was symmetric before it is symmetric after.", "quantifier": "for every mesh with symmetric vertex/edge incidence and every pair of distinct existing vertices", "why_tests_cant": "all meshes and vertex pairs", "anchors": ["SRCC/src/grid/mesh.cpp:mesh::SwitchIndex"]}
{"id": "C13", "title": "Detaching an element removes every reference to it", "statement": "After RemoveIndex(type, i) for edges, surfaces or volumes, no element of the neighbouring types refers to i, every other reference is kept, and symmetric incidence stays symmetric.", "quantifier": "for every mesh with symmetric incidence, every element type and every existing element index", "why_tests_cant": "all meshes and elements", "anchors": ["SRCC/src/grid/mesh.cpp:mesh::RemoveIndex"]}
{"id": "C14", "title": "The connectivity test returns zero exactly when there is no dangling reference", "statement": "TestConnectivity returns 0 if and only if every index referenced by an element exists in the mesh (0, 'no element', being allowed except as an edge of a surface) and no vertex or surface has an empty list of edges.", "quantifier": "for every mesh", "why_tests_cant": "all meshes", "anchors": ["SRCC/src/grid/mesh.cpp:mesh::TestConnectivity"]}
{"id": "C15", "title": "The two-way connectivity test reports one-way references", "statement": "TestConnectivityBiDir returns a non-zero count whenever some element a refers to b but b does not refer back to a.", "quantifier": "for every mesh", "why_tests_cant": "all meshes; a test with a good mesh passes even if the verdict is always 0", "anchors": ["SRCC/src/grid/mesh.cpp:mesh::TestConnectivityBiDir"]}
{"id": "C16", "title": "Cropping a mesh leaves no dangling reference", "statement": "After Crop(list, type) no remaining element refers to a removed volume, surface or edge.", "quantifier": "for every mesh with symmetric incidence and every crop list", "why_tests_cant": "the failure depends on which volumes are removed", "anchors": ["SRCC/src/grid/mesh.cpp:mesh::Crop"]}
{"id": "C17", "title": "Reordering a mesh is a renaming", "statement": "ReOrder renumbers elements 1..n such that incidences are those of the input mesh under the renumbering and 'outside' markers stay 0.", "quantifier": "for every mesh without dangling references and with unique indices", "why_tests_cant": "all meshes", "anchors": ["SRCC/src/grid/mesh.cpp:mesh::ReOrder"]}
{"id": "C18", "title": "A mesh written to file and read back is the same mesh", "statement": "Reading the text written for a mesh yields the same elements in the same order with the same indices, connectivity, fill/target values and flags that the format stores, consuming exactly what was written.", "quantifier": "for every mesh, in particular every number of connections including zero, whatever text follows", "why_tests_cant": "all meshes; framing errors appear only for certain list lengths", "anchors": ["SRCC/src/grid/mesh.cpp:volu/surf/edge/vert::write/read, mesh::write/read", "SRCC/incl/arraystructures_incl.cpp:ArrayStruct::write/read"]}
{"id": "C19", "title": "Tightening connectivity keeps the sets of neighbours", "statement": "TightenConnectivity leaves each connectivity list strictly increasing with the same set of members (padding zeros apart as documented by the code), and doing it twice is the same as once.", "quantifier": "for every mesh", "why_tests_cant": "all meshes", "anchors": ["SRCC/incl/mesh.hpp:TightenConnectivity", "SRCC/incl/arraystructures_incl.cpp:sort, unique"]}
{"id": "C20", "title": "Vertex block labels are the connected components", "statement": "ConnectedVertex returns n and labels in 1..n such that two vertices share a label iff they are joined by a path of edges, every label is used, and it terminates.", "quantifier": "for every mesh with valid vertex-edge incidence", "why_tests_cant": "quantifies over all graphs", "anchors": ["SRCC/src/grid/mesh.cpp:mesh::ConnectedVertex"]}
{"id": "C21", "title": "Volume block labels are the components not crossing boundary faces", "statement": "ConnectedVolumes without pre-set labels returns labels such that two volumes share a label iff they are joined by a path crossing only non-boundary faces; pre-set volumes are barriers and keep their label, and labels of distinct blocks are distinct.", "quantifier": "for every mesh, boundary-face list and pre-set label list", "why_tests_cant": "quantifies over all meshes and label lists", "anchors": ["SRCC/src/grid/mesh.cpp:mesh::ConnectedVolumes"]}
{"id": "C22", "title": "Border marks are exactly the elements touching the outside", "statement": "After SetBorders on a mesh with volumes a surface is marked iff one of its volumes is the outside, an edge iff it has a marked surface, a vertex iff it has a marked edge, a volume iff it has a marked surface or a marked vertex; without volumes an edge is marked iff one of its surfaces is the outside, a vertex iff it has a marked edge, a surface iff it has a marked edge or vertex. Nothing else changes, and the result does not depend on previous marks.", "quantifier": "for every mesh and every previous marking", "why_tests_cant": "all meshes and stale states", "anchors": ["SRCC/src/grid/mesh.cpp:mesh::SetBorders"]}
{"id": "C23", "title": "Ordering the edges of a surface yields the boundary walk", "statement": "Ordering an edge list that forms a simple closed loop returns a permutation of the list in which consecutive edges (cyclically) share a vertex; a list that is not a single closed loop is reported and not silently accepted.", "quantifier": "for every edge list", "why_tests_cant": "all lists and all hash orders", "anchors": ["SRCC/src/grid/mesh.cpp:OrderEdgeList, OrderList, surf::OrderEdges"]}
{"id": "C24", "title": "Relative orientation from ordered lists is consistent", "statement": "OrderMatchLists(list,a,b) is +1 or -1 according to whether b cyclically follows a directly or precedes it, changes sign when a and b are swapped and when the list is reversed; the old and new implementations agree.", "quantifier": "for every list with distinct entries and any two cyclically adjacent entries", "why_tests_cant": "all lists and positions, including the wrap-around position", "anchors": ["SRCC/src/grid/mesh.cpp:OrderMatchLists"]}
{"id": "C25", "title": "Edge and surface searches return a right element or -1", "statement": "EdgeFromVerts(v1,v2) returns an edge joining both vertices if one exists, else -1; SurfFromEdges(e1,e2) returns a surface containing both edges if one exists else -1.", "quantifier": "for every mesh with symmetric incidence", "why_tests_cant": "all meshes", "anchors": ["SRCC/src/grid/mesh.cpp:mesh::EdgeFromVerts, SurfFromEdges"]}
{"id": "C26", "title": "Scaling puts the mesh in the requested domain and can be undone", "statement": "After Scale(domain) the bounding box equals the domain in every direction in which the mesh has non-zero extent, and keeps its extent with lower corner at the domain's lower bound in flat directions; scaling to another domain and back gives the coordinates of the first scaling.", "quantifier": "for every non-empty list of vertices and all domains (exact arithmetic), also through the parent/child meshes", "why_tests_cant": "all coordinates; flat directions are a corner case", "anchors": ["SRCC/src/grid/mesh.cpp:mesh::Scale, LinearTransform, LinearTransformFamily, BoundingBox", "SRCC/src/rsvs/RSVSintegration.cpp:integrate::execute::Exporting"]}
{"id": "C27", "title": "Plane normals are perpendicular and flip with the vertex order", "statement": "PlaneNormal of three points is perpendicular to both spanning edges, changes sign when two of the points are exchanged, is unchanged by a common translation, and is zero exactly when the points are collinear; the signed distance of a vertex to the plane is zero iff coplanar.", "quantifier": "for all coordinates (exact arithmetic)", "why_tests_cant": "all coordinates", "anchors": ["SRCC/src/grid/mesh.cpp:PlaneNormal, VertexDistanceToPlane, coordvec::cross, coordvec::dot"]}
{"id": "C28", "title": "Distances of many points to a plane equal the individual distances", "statement": "VerticesDistanceToPlane returns for each listed point the same value VertexDistanceToPlane returns for it.", "quantifier": "for every list of points", "why_tests_cant": "lists of length one hide the error", "anchors": ["SRCC/src/grid/mesh.cpp:VerticesDistanceToPlane"]}
{"id": "C29", "title": "The centre returned for a volume is the length-weighted mean of its edge mid-points", "statement": "CalcCentreVolu returns a point inside the bounding box of the volume's vertices, and translating the mesh translates it by the same vector.", "quantifier": "for all coordinates", "why_tests_cant": "all coordinates; symmetric boxes around the origin hide the error", "anchors": ["SRCC/src/grid/mesh.cpp:mesh::CalcCentreVolu"]}
{"id": "C30", "title": "Block grid sizes and the Euler relation", "statement": "BuildBlockGrid(a,b,c) creates abc volumes, (a+1)(b+1)(c+1) vertices, and face/edge numbers such that V-E+F-C=1, with indices 1..n for every type.", "quantifier": "for all positive a,b,c (and for two-dimensional grids c=0)", "why_tests_cant": "all sizes", "anchors": ["SRCC/src/grid/voxel.cpp:BuildBlockGrid"]}
{"id": "C31", "title": "Block grid incidence is symmetric", "statement": "In the block grid every volume lists 6 distinct faces, and a face lists a volume iff that volume lists the face; every face lists 4 distinct edges and an edge lists a face iff the face lists the edge; every edge lists two distinct vertices and a vertex lists an edge iff the edge lists the vertex.", "quantifier": "for all positive dimensions and all cells", "why_tests_cant": "index arithmetic must be right for every size; tests check a few", "anchors": ["SRCC/src/grid/voxel.cpp:BuildBlockVolu, BuildBlockSurf, BuildBlockEdge, BuildBlockVert"]}
{"id": "C32", "title": "Block grid faces see the outside exactly on the boundary", "statement": "A face of the block grid has 'outside' as one of its two volumes iff it lies on the grid boundary, and otherwise lists the two cells on its two sides.", "quantifier": "for all positive dimensions and all faces", "why_tests_cant": "all sizes", "anchors": ["SRCC/src/grid/voxel.cpp:BuildBlockSurf"]}
{"id": "C33", "title": "Moving the snake keeps every snaxel on its edge", "statement": "After UpdateDistance every snaxel position lies in [0,1], and it moves by at most the given maximum step.", "quantifier": "for all positions in [0,1], velocities, time steps and maximum steps", "why_tests_cant": "all real inputs", "anchors": ["SRCC/src/snake/snake.cpp:snake::UpdateDistance"]}
{"id": "C34", "title": "The time step prevents snaxels from passing each other", "statement": "After CalculateTimeStep and UpdateDistance two snaxels on the same edge that were in a given order are still in that order (they may meet).", "quantifier": "for all numbers of snaxels per edge, positions, velocities and directions", "why_tests_cant": "all configurations; failures need three snaxels with particular speeds", "anchors": ["SRCC/src/snake/snake.cpp:snake::CalculateTimeStep, CalculateTimeStepOnEdge, SnaxImpactDt"]}
{"id": "C35", "title": "The distance limit applies to all snaxels", "statement": "With the shape-conserving limit, the common time step moves no snaxel by more than the requested maximum distance.", "quantifier": "for all velocities, positive or negative", "why_tests_cant": "all velocity vectors", "anchors": ["SRCC/src/snake/snake.cpp:snake::CalculateTimeStep"]}
{"id": "C36", "title": "Flipping a snake reverses direction and nothing else", "statement": "Flip leaves the position in space of every snaxel unchanged, reverses its velocity relative to the edge so that the spatial velocity is unchanged, toggles the flip state, and applying it twice gives the original snake.", "quantifier": "for every snake", "why_tests_cant": "all snakes", "anchors": ["SRCC/src/snake/snake.cpp:snake::Flip, UpdateCoord"]}
{"id": "C37", "title": "Arrivals and contacts on an edge are all reported", "statement": "Impact detection on an edge reports every snaxel that sits at an edge end and is outermost on that side as arrived at that end, and reports each neighbouring pair in contact in both orders; nothing else is reported.", "quantifier": "for every set of ordered snaxels on the edge, in both directions", "why_tests_cant": "all configurations, in particular snaxels travelling backwards on an edge with several snaxels", "anchors": ["SRCC/src/snake/snake.cpp:snake::DetectImpactOnEdge, SnaxImpactDetection"]}
{"id": "C38", "title": "Order numbers on an edge follow position", "statement": "After OrderOnEdge, the snaxels of every edge carry the numbers 1..n in order of increasing position measured from the edge's lower-index vertex.", "quantifier": "for every snake, any number of edges with several snaxels", "why_tests_cant": "needs at least two crowded edges", "anchors": ["SRCC/src/snake/snake.cpp:snake::OrderOnEdge"]}
{"id": "C39", "title": "Position validation enforces the order on the edge", "statement": "ValidateDistance moves a snaxel to the nearest position not passing any sibling, given siblings consistent with their order numbers, and leaves it unchanged when it already respects the order.", "quantifier": "for all numbers of siblings, positions and directions", "why_tests_cant": "all configurations", "anchors": ["SRCC/src/snake/snake.cpp:snax::ValidateDistance"]}
{"id": "C40", "title": "Joining two snakes combines their interiors as documented", "statement": "After Concatenate the set of internal mesh vertices is the union of the two for independent snakes and the intersection otherwise, expressed in the receiver's flip state; two snakes are independent iff they share no internal vertex.", "quantifier": "for all internal sets and flip states", "why_tests_cant": "all sets", "anchors": ["SRCC/src/snake/snake.cpp:snake::Concatenate, CompareSnakeInternalStatus"]}
{"id": "C41", "title": "Merging contacts never merges into a deleted snaxel", "statement": "MergeAllContactVertices deletes snaxels only by merging them into a snaxel that is kept: after it no edge refers to a deleted snaxel.", "quantifier": "for every impact list produced by impact detection", "why_tests_cant": "chains of three or more contacts in particular orders", "anchors": ["SRCC/src/snake/snakeengine.cpp:MergeAllContactVertices", "SRCC/src/grid/mesh.cpp:mesh::SwitchIndex"]}
{"id": "C42", "title": "A snake written to file and read back is the same snake", "statement": "Reading a written snake yields the same snaxels, snake edges and snake surfaces with the same positions on the edges and the same connectivity.", "quantifier": "for every snake", "why_tests_cant": "values needing more than six decimals", "anchors": ["SRCC/src/snake/snake.cpp:snax::write/read, snaxedge::write/read, snaxsurf::write/read, snake::write/read"]}
{"id": "C43", "title": "Command line modes cannot contradict each other", "statement": "Requesting no execution never leads to execution; requesting tests never runs an optimisation; contradictory requests are rejected; without options nothing runs; a failed parameter always prevents execution.", "quantifier": "for all combinations of options", "why_tests_cant": "decision table with all combinations and orders", "anchors": ["SRCC/src/main.cpp:CommandLineParser, RSVSExecution"]}
{"id": "C44", "title": "A partial configuration changes only what it mentions", "statement": "Updating a configuration from a file (or from a parameter string) changes exactly the values at the paths mentioned and leaves all others, later updates winning over earlier ones.", "quantifier": "for every configuration tree and every partial tree with compatible shape", "why_tests_cant": "all trees", "anchors": ["SRCC/src/interfaces/rsvsjson.cpp:flatupdate", "SRCC/src/parameters.cpp:io::read, io::updatefromstring"]}
{"id": "C45", "title": "Preparing parameters twice changes nothing more", "statement": "PrepareForUse on the parameters is idempotent: preparing a configuration which is already prepared leaves it unchanged.", "quantifier": "for every configuration", "why_tests_cant": "all configurations and repetition counts", "anchors": ["SRCC/src/parameters.cpp:ioout::PrepareForUse, files::PrepareForUse"]}
{"id": "C46", "title": "Target fill values repeat cyclically over the cells", "statement": "LoadTargetFill gives cell i the value number i modulo n of the n values in the file, for a file with any white space layout.", "quantifier": "for all numbers of cells, numbers of values and trailing white space", "why_tests_cant": "trailing newline handling depends on the count relation", "anchors": ["SRCC/src/grid/mesh.cpp:mesh::LoadTargetFill"]}
{"id": "C47", "title": "The fill option priority is file, then generated, then constant", "statement": "The cell targets are taken from the file if that is active, left alone if only generation is active, set to the constant if only that is active, else unchanged.", "quantifier": "for all option combinations and meshes", "why_tests_cant": "all combinations", "anchors": ["SRCC/src/rsvs/RSVSintegration.cpp:integrate::prepare::Snake"]}
{"id": "C48", "title": "Cells mapped to a coarse grid are represented by a cell of the same box", "statement": "CartesianMapping gives each cell the index of a cell in the same coarse box, two cells have the same image iff they lie in the same box, and mapping the image again gives itself.", "quantifier": "for all meshes with non-zero extents and all box counts", "why_tests_cant": "all meshes", "anchors": ["SRCC/src/grid/meshrefinement.cpp:CartesianMapping"]}
{"id": "C49", "title": "The SQP step satisfies the linearised optimality conditions", "statement": "With invertible systems the step d and multipliers l satisfy J d = -c and H d + g + J^T l = 0 when the multipliers are not limited; the returned flag is true iff the step could not be computed this way.", "quantifier": "for all matrices with the required inverses", "why_tests_cant": "all matrices", "anchors": ["SRCC/incl/SQPstep.hpp:SQPstep", "SRCC/src/rsvs/SQPstep.cpp:ResizeLagrangianMultiplier"]}
{"id": "C50", "title": "Limited multipliers are finite and within bounds, and limiting is reported", "statement": "After ResizeLagrangianMultiplier every multiplier lies in [-limit, limit] or is the value given, NaN entries become 0, and the flags say exactly whether a value was too large or NaN.", "quantifier": "for all multiplier vectors and limits", "why_tests_cant": "all vectors", "anchors": ["SRCC/src/rsvs/SQPstep.cpp:ResizeLagrangianMultiplier"]}
{"id": "C51", "title": "Chain-rule assembly of first and second derivatives", "statement": "Deriv1stChainScalar and Deriv2ndChainScalar return the gradient and Hessian of a composition from those of its parts; the Hessian result is symmetric if the given Hessians are.", "quantifier": "for all sizes and entries", "why_tests_cant": "all matrices", "anchors": ["SRCC/src/rsvs/matrixtools.cpp:Deriv1stChainScalar, Deriv2ndChainScalar, VecBy3DimArray"]}
{"id": "C52", "title": "The signed log scale keeps order and zero", "statement": "SignedLogScale is order preserving and maps 0 to 0, as documented.", "quantifier": "for all real inputs", "why_tests_cant": "all reals; the failure is in the interval (1e-16, machine epsilon]", "anchors": ["SRCC/src/warning.cpp:rsvs3d::SignedLogScale"]}
{"id": "C53", "title": "Time to contact is the first meeting time", "statement": "SnaxImpactDt is symmetric in its two snaxels and, when positive, moving both snaxels for that time at their velocities puts them at the same place and no earlier time does.", "quantifier": "for all positions, velocities and directions", "why_tests_cant": "all reals", "anchors": ["SRCC/src/snake/snake.cpp:SnaxImpactDt"]}
{"id": "C54", "title": "Snake flood fill of interior vertices terminates and does not cross the snake", "statement": "Two mesh vertices joined by a path of edges without snaxels get the same inside/outside status.", "quantifier": "for every mesh and set of snaxels", "why_tests_cant": "all meshes", "anchors": ["SRCC/src/snake/snake.cpp:snake::FindBlockSnakeMeshVerts, AssignInternalVerts"]}
{"id": "C55", "title": "Equilibrated positions stay between the limits", "statement": "The limits used when spreading snaxels around a spawn position bracket the spawn distance, the resulting position is within them, and a position already between them is left unchanged.", "quantifier": "for all spawn distances in (0,1)", "why_tests_cant": "all reals", "anchors": ["SRCC/src/snake/snake.cpp:ValidateEquilibrateD"]}
{"id": "C56", "title": "Output levels select the documented outputs", "statement": "Each logging level selects the documented set of outputs; a higher post-processing level never produces fewer final outputs than the logging level asked for.", "quantifier": "for all integer levels", "why_tests_cant": "all levels", "anchors": ["SRCC/src/rsvs/RSVSintegration.cpp:integrate::constants::outputs, integrate::execute::Logging, PostProcessing"]}
{"id": "C57", "title": "Lineage maps follow parent assignment", "statement": "After adding parents, the parent map reports for each cell the parent cell given for each generation, and the child's values summed by parent equal the parent values computed per cell.", "quantifier": "for every sequence of AddParent/RemoveParent", "why_tests_cant": "all sequences", "anchors": ["SRCC/src/grid/mesh.cpp:mesh::AddParent, RemoveParent, ReturnParentMap, MapVolu2Parent"]}
{"id": "C58", "title": "Template specialisation changes only the data file line", "statement": "The specialised layout equals the template except for the text from the first occurrence of the marker to the end of that line.", "quantifier": "for every template text", "why_tests_cant": "all texts; end-of-file handling", "anchors": ["SRCC/src/rsvs/RSVSintegration.cpp:integrate::utils::WriteModifiedTemplate"]}
{"id": "C59", "title": "Membership in the parent table is reported truthfully", "statement": "memberIsHashParent(pos) is true exactly when the parent table holds the entry of that position; after DeHashParent(pos) it is false for that position and unchanged for the others.", "quantifier": "for every container content and every table order in which equal keys are adjacent", "why_tests_cant": "all bucket orders", "anchors": ["SRCC/incl/snakstruct_incl.cpp:SnakStruct::memberIsHashParent, DeHashParent"]}
{"id": "C60", "title": "The key/value vector used for sparse derivatives is a map", "statement": "Starting empty, any sequence of assignments m(k)=v succeeds, each key is stored once, and reading a key gives the last value assigned to it or zero if it was never assigned.", "quantifier": "for every sequence of assignments and every key", "why_tests_cant": "all sequences; a stale position would only show for particular ones", "anchors": ["SRCC/incl/arraystructures.hpp:HashedVectorPair", "SRCC/incl/RSVScalc.hpp:TripletMap"]}
{"id": "C61", "title": "The time step of a snaxel is its first contact time", "statement": "CalculateTimeStep gives each snaxel the least of the default step and of its non-negative times of contact with the other snaxels of its edge, and never fails on a prepared snake.", "quantifier": "for every snake, any number of snaxels per edge, any order of the hash table", "why_tests_cant": "all positions, velocities, edge populations and table orders", "anchors": ["SRCC/src/snake/snake.cpp:snake::CalculateTimeStep, snaxarray::CalculateTimeStepOnEdge"]}
{"id": "C62", "title": "Vertices off the border are found from the border volumes", "statement": "GetOffBorderVert returns exactly the marked volumes meeting the asked condition on their parent values, and exactly those vertices of these volumes that are not marked.", "quantifier": "for every mesh, every marking, every parent value", "why_tests_cant": "all meshes; one of the two overloads calls itself", "anchors": ["SRCC/src/grid/mesh.cpp:mesh::GetOffBorderVert, mesh::GetOffBorderVert3D"]}
{"id": "C63", "title": "OrderedVerts lists the vertices of an ordered surface in order", "statement": "For a surface whose edge list goes round a simple loop, OrderedVerts returns the vertices of the loop, each once, entry k being the vertex between edges k-1 and k.", "quantifier": "for every mesh and every ordered loop of edges", "why_tests_cant": "loops of every length; a loop of two edges is a corner case", "anchors": ["SRCC/src/grid/mesh.cpp:surf::OrderedVerts"]}
{"id": "C64", "title": "ConnVertFromConnEdge gives the vertices along a loop of edges", "statement": "For a list of edges which goes round a simple loop, ConnVertFromConnEdge returns for each edge its vertex towards the next edge, so every vertex of the loop once.", "quantifier": "for every mesh and every ordered loop of edges", "why_tests_cant": "loops of every length and all directions of the edges", "anchors": ["SRCC/src/grid/mesh.cpp:ConnVertFromConnEdge"]}
{"id": "C65", "title": "Pseudo-centroids are length-weighted means", "statement": "surf::PseudoCentroid returns the mean of the mid-points of the edges weighted with their lengths; volu::PseudoCentroid returns the mean of the centroids of the surfaces weighted with their perimeters. Both are within the bounds of the vertices and move with the mesh.", "quantifier": "for all coordinates (exact arithmetic)", "why_tests_cant": "the perimeter is truncated to an int, which meshes with whole side lengths hide", "anchors": ["SRCC/src/grid/mesh.cpp:surf::PseudoCentroid, volu::PseudoCentroid, edge::GeometricProperties"]}
{"id": "C66", "title": "Pseudo-normals of surfaces", "statement": "CalcPseudoNormalSurf is unchanged by a translation, changes sign when the direction of the vertices is reversed, is perpendicular to every edge of a plane polygon, and is the unit normal of a triangle.", "quantifier": "for every number of vertices and all coordinates (exact arithmetic)", "why_tests_cant": "all coordinates and numbers of vertices", "anchors": ["SRCC/src/grid/mesh.cpp:mesh::CalcPseudoNormalSurf, coordvec::cross"]}
{"id": "C67", "title": "Exports are written in the physical domain", "statement": "Every su2 file written by Exporting has the snake in the physical domain, whatever the other exports and the engine.", "quantifier": "for every list of exports and every engine", "why_tests_cant": "all lists of exports; the order of the exports matters", "anchors": ["SRCC/src/rsvs/RSVSintegration.cpp:integrate::execute::Exporting"]}
{"id": "C68", "title": "A norm marked as up to date is the length of the vector", "statement": "After any sequence of operations on a coordvec, if the norm is marked as up to date then it is the Euclidean length of the entries.", "quantifier": "for every sequence of operations and all coordinates (exact arithmetic)", "why_tests_cant": "all sequences; the error needs a negative factor", "anchors": ["SRCC/src/grid/mesh.cpp:coordvec::CalcNorm, GetNorm, Normalize, mult, div, flipsign, assign"]}
{"id": "C69", "title": "Block grid geometry", "statement": "The vertices of the block grid have distinct coordinates in the unit cube; every edge is parallel to an axis with the length 1/d of this direction; the vertices of a cell are the eight corners of a box with these side lengths.", "quantifier": "for all positive dimensions and all vertices, edges and cells", "why_tests_cant": "all sizes; float is used where double is needed, which shows only in grids with more than 2^24 vertices", "anchors": ["SRCC/src/grid/voxel.cpp:BuildBlockVert, BuildBlockEdge, BuildBlockVolu"]}
{"id": "C70", "title": "The active sub-problem", "statement": "The lists of active variables and constraints hold exactly the active positions, in increasing order. The active sparse matrices have the coefficients of the active rows and columns, and are the same as those of full maths.", "quantifier": "for all masks of active variables and constraints, all sizes and all matrices", "why_tests_cant": "all masks and matrices", "anchors": ["SRCC/src/rsvs/RSVScalc_SQP.cpp:RSVScalc::PrepareMatricesForSQP, PrepareMatricesForSQPFull, PrepareMatricesForSQPSparse"]}
{"id": "C71", "title": "The stored step solves the active problem", "statement": "ComputeSQPstep ends and does not fault; with regular systems the stored step and multipliers meet the linearised conditions of the active variables and constraints. Variables that are not active keep their step, constraints that are not active get the multiplier 0; without active variables the step is zero.", "quantifier": "for all solvers, matrices, masks and methods", "why_tests_cant": "all matrices and masks; with sparse matrices the fault needs a decomposition that fails", "anchors": ["SRCC/src/rsvs/RSVScalc_SQP.cpp:RSVScalc::ComputeSQPstep, RSVScalc::CheckAndCompute", "SRCC/incl/SQPstep.hpp:SQPstep_sparse"]}
{"id": "C72", "title": "Sensitivities are derivatives of the step", "statement": "The column of sensDv of an active constraint is the derivative of the step with respect to the target of this constraint.", "quantifier": "for all regular systems", "why_tests_cant": "all matrices and multipliers", "anchors": ["SRCC/src/rsvs/RSVScalc_SQP.cpp:RSVScalc::PrepareMatricesForSQPSensitivity, RSVScalc::ComputeSQPsens", "SRCC/incl/SQPstep.hpp:SQPsens"]}
{"id": "C73", "title": "Sparse matrices of triplets hold what was added", "statement": "After any sequence of additions in range a SparseMatrixTriplet holds at every position the sum of what was added there, whether it is read directly, listed or copied to a dense matrix; every position is listed once. Positions out of range throw.", "quantifier": "for all sizes and all sequences of additions", "why_tests_cant": "all sequences; the failure needs more than 2^31 coefficients", "anchors": ["SRCC/incl/RSVScalc.hpp:SparseMatrixTriplet", "SRCC/src/rsvs/RSVScalc.cpp:SparseMatrixTriplet::SetEqual, operator[]"]}
{"id": "C74", "title": "Volume of a cone over a triangle", "statement": "Volume::Calc and Volume2::Calc give the signed volume of the cone from the origin over a triangle up to one fixed sign, and the first and second derivatives stored with it are the derivatives of this volume with respect to the nine coordinates or the three positions along edges.", "quantifier": "for all points, edges and positions", "why_tests_cant": "the derivatives are generated code; tests compare them at single points with finite differences", "anchors": ["SRCC/src/rsvs/RSVSmath.cpp:Volume::Calc, Volume2::Calc", "SRCC/src/rsvs/RSVSmath_automatic.cpp:Volume_f, Volume_df, Volume_ddf, Volume2_f, Volume2_df, Volume2_ddf"]}
{"id": "C75", "title": "Area of a triangle", "statement": "Area::Calc gives the area of a triangle, and the first and second derivatives stored with it are the derivatives of this area.", "quantifier": "for all triangles of nonzero area", "why_tests_cant": "all triangles; the difference between value and derivative is 1e-10 under a root", "anchors": ["SRCC/src/rsvs/RSVSmath.cpp:Area::Calc", "SRCC/src/rsvs/RSVSmath_automatic.cpp:Area_f, Area_df, Area_ddf", "SRCC/incl/RSVSmath_automatic.hpp:rsvsmath_automatic_eps_surf"]}
{"id": "C76", "title": "Length of an edge", "statement": "LengthEdge::Calc gives the distance of two points, and the first and second derivatives stored with it are the derivatives of this distance.", "quantifier": "for all pairs of distinct points", "why_tests_cant": "all pairs of points", "anchors": ["SRCC/src/rsvs/RSVSmath.cpp:LengthEdge::Calc", "SRCC/src/rsvs/RSVSmath_automatic.cpp:LengthEdge_f, LengthEdge_df, LengthEdge_ddf"]}
{"id": "C77", "title": "Centroid of the edges of a polygon and its Jacobian", "statement": "SurfCentroid::Calc gives the mean of the midpoints of the edges of a polygon weighted by length; its Jacobian holds the derivative of each coordinate of it with respect to each coordinate of each vertex.", "quantifier": "for all polygons of at least four vertices and nonzero edges", "why_tests_cant": "all sizes of polygon; three of the sizes have generated code of their own", "anchors": ["SRCC/src/rsvs/RSVSmath.cpp:SurfCentroid::Calc", "SRCC/src/rsvs/RSVSmath_automatic.cpp:SurfCentroid4_df, SurfCentroid5_df, SurfCentroid6_df, SurfCentroidSelf_df"]}
{"id": "C78", "title": "Hessian of the centroid of a polygon", "statement": "The Hessian of SurfCentroid::Calc holds the second derivatives of each coordinate of the centroid of the edges of a polygon with respect to each pair of coordinates of vertices.", "quantifier": "for all polygons of at least four vertices and nonzero edges", "why_tests_cant": "the blocks of two vertices are read from the wrong columns of the generated array; tests compare no Hessian of a centroid", "anchors": ["SRCC/src/rsvs/RSVSmath.cpp:SurfCentroid::Calc", "SRCC/src/rsvs/RSVSmath_automatic.cpp:SurfCentroidSelf_ddf, SurfCentroidConnec_ddf, SurfCentroidNoConnec_ddf"]}
{"id": "C79", "title": "What a triangle adds are the derivatives of its volume and its area", "statement": "The values that CalcTriangle computes for a triangle are its signed volume and its area as functions of the positions of the active snaxels along their edges, and the gradients and Hessians it computes are the first and second derivatives of these functions.", "quantifier": "for all triangles with corners on the mesh, on edges of snaxels and at centres of surfaces, all positions and all sets of variables", "why_tests_cant": "all kinds of corner and all positions; the Hessian lacks the curvature of the centre, which only shows in the step of the optimiser", "anchors": ["SRCC/src/rsvs/RSVScalc_core.cpp:RSVScalc::CalcTriangle, RSVScalc::CalcTriangleFD", "SRCC/src/rsvs/RSVScalctools.cpp:TrianglePositionDerivatives, TriangleActiveDesignVariables, TrianglePointerCoordinates", "SRCC/src/snake/triangulate.cpp:SurfaceCentroid_TriangleSurf, SurfaceCentroid_SnakeSurf"]}
{"id": "C80", "title": "Objective, constraints and their derivatives are those of the whole triangulation", "statement": "After CalculateTriangulation the objective is the area of the moving triangles, each constraint is the volume that the triangles enclose in its cell as a share of the cell, and the stored gradient, Jacobian and Hessians hold their derivatives with respect to every variable; variables and constraints that no triangle depends on are inactive.", "quantifier": "for all triangulations, positions, maps of variables and constraints and multipliers, in both modes of storage", "why_tests_cant": "all triangulations; in sparse mode numbers are dropped by their size one by one", "anchors": ["SRCC/src/rsvs/RSVScalc.cpp:RSVScalc::CalculateTriangulation, RSVScalc::BuildMathArrays", "SRCC/src/rsvs/RSVScalc_core.cpp:RSVScalc::CalcTriangle", "SRCC/src/rsvs/RSVScalctools.cpp:AssignConstraintDerivativesFullMath, AssignConstraintDerivativesSparseMath"]}
{"id": "C81", "title": "The triangles of a surface cover it", "statement": "TriangulateContainer gives every polygon of at least three points its fan of triangles, with its own new centre if it has more than three points; indices stay distinct, earlier triangles and points are kept, the triangles have the boundary of the polygon, and for surfaces that close the volume of the triangles does not depend on the origin.", "quantifier": "for all lists of polygons and all earlier triangles and points", "why_tests_cant": "all sizes of polygon and all numberings; the volume is a global sum", "anchors": ["SRCC/src/snake/triangulate.cpp:TriangulateContainer, TriangulateSurface, TriangulateTriSurface"]}
{"id": "C82", "title": "The triangulation follows the snake", "statement": "After every step MaintainTriangulateSnake leaves each surface of the snake with its fan of triangles and no triangle or centre of a surface that is gone, keeps what belongs to the mesh, gives new triangles the cell and sign of their surface, covers the pieces of surfaces the snake cuts, and makes active exactly the triangles of the surfaces of the mesh that are not cut and begin with a vertex inside.", "quantifier": "for all sequences of snakes whose unmodified surfaces keep their polygons, all pieces and all starting triangulations whose triangles and centres fit together", "why_tests_cant": "an invariant over all steps; stale triangles and centres show only after many steps", "anchors": ["SRCC/src/snake/triangulate.cpp:MaintainTriangulateSnake, triangulation::CleanDynaTri, triangulation::SetConnectivity, triangulation::SetActiveStaticTri"]}
{"id": "C85", "title": "Merging the cells of a mesh", "statement": "CoarsenMesh replaces each cell by the cell it is mapped to, removes exactly the surfaces, edges and vertices that are inside a merged cell, keeps all lists in agreement with this, and gives a sound mesh.", "quantifier": "for all sound meshes of dimension 2 and 3 and all mappings of cells to cells that are mapped to themselves", "why_tests_cant": "all meshes and mappings; merging a single pair of neighbours in space reads past the end of a list, which no test notices", "anchors": ["SRCC/src/grid/meshrefinement.cpp:CoarsenMesh", "SRCC/src/grid/mesh.cpp:mesh::SwitchIndex, mesh::RemoveIndex, mesh::TightenConnectivity"]}
{"id": "C86", "title": "No mesh of the family refers to a destroyed mesh", "statement": "Whatever is done with meshes, every parent and child a mesh refers to exists, parents and children agree on their links, and no operation on the family reads a destroyed mesh.", "quantifier": "for all sequences of creating, linking, copying and destroying meshes", "why_tests_cant": "all sequences; reading a destroyed mesh rarely fails in a test", "anchors": ["SRCC/src/grid/mesh.cpp:mesh::RemoveFromFamily, meshdependence::RemoveChild, meshdependence::RemoveParent, mesh::AddParent, mesh::AddChild", "SRCC/incl/mesh.hpp:mesh::~mesh"]}
{"id": "C87", "title": "Joining snakes and merging snaxels keeps the layers of a snake in step", "statement": "The snaxels, their edges and their surfaces stay in the same places and have the same indices as the vertices, edges and surfaces of the connectivity of the snake, after two snakes are joined and after snaxels that touch are merged; the indices are distinct and the connectivity is sound.", "quantifier": "for all snakes in step with sound connectivity, and all reports of the impact detection", "why_tests_cant": "all snakes; the positions of one layer are used in another in many places, and a shift gives plausible values", "anchors": ["SRCC/src/snake/snake.cpp:snake::Concatenate, snake::MakeCompatible_inplace, snake::ChangeIndices", "SRCC/src/snake/snakeengine.cpp:MergeAllContactVertices"]}
{"id": "C83", "title": "Walking along a cut surface of the mesh reaches the next point", "statement": "From a snaxel FollowSnaxelDirection goes to the nearest snaxel behind it on its edge, or to the vertex it came from; from a vertex FollowVertexConnection leaves along the other edge of the surface, to the first snaxel on it or to its other end.", "quantifier": "for all snaxels on all edges and all vertices that belong to two edges of a surface", "why_tests_cant": "edges with several snaxels, in every order of a hash map and seen from both ends, are rare in tests", "anchors": ["SRCC/src/snake/triangulate.cpp:FollowSnaxelDirection, FollowVertexConnection"]}
{"id": "C84", "title": "The pieces of surfaces that the snake cuts use every edge of the snake once", "statement": "BuildTriSurfGridSnakeIntersect ends, and the pieces it makes run along edges of the mesh and edges of the snake of one surface from point to point; every edge of the snake on a surface of the parents is in exactly one piece, once; pieces are numbered from 1 and are closed.", "quantifier": "for all snakes on a mesh with a sound connectivity", "why_tests_cant": "all shapes of snake and mesh; a walk that misses its start runs into edges of other pieces", "anchors": ["SRCC/src/snake/triangulate.cpp:BuildTriSurfGridSnakeIntersect, FollowSnaxEdgeConnection"]}
{"id": "C88", "title": "Design variables are the snaxels that can move, and each gets its own step", "statement": "The design variables are exactly the snaxels that are free or have an edge to a free one, each once and in order of index; after the step every variable has its own entry of the step as velocity, all other snaxels have velocity 0, and nothing else changes.", "quantifier": "for all snakes in step with a sound connectivity and all steps", "why_tests_cant": "all patterns of frozen snaxels and all numberings; a shift by one gives plausible velocities", "anchors": ["SRCC/src/rsvs/RSVScalc.cpp:RSVScalc::PrepTriangulationCalc, RSVScalc::SnakDVcond, RSVScalc::BuildDVMap, RSVScalc::ReturnVelocities"]}
{"id": "C89", "title": "Exported gradients belong to their snaxels", "statement": "ReturnGradient gives every snaxel the scaled derivative that is asked for (objective, Lagrangian, diagonals of the Hessians, step, constraint) with respect to its own variable and the scaled 0 if it is none; it throws for numbers out of range.", "quantifier": "for all arrays of the sizes set by BuildMathArrays, after any number of iterations", "why_tests_cant": "with many variables a matrix of an earlier iteration is read; small cases do not show it", "anchors": ["SRCC/src/rsvs/RSVScalc.cpp:RSVScalc::ReturnGradient, RSVScalc::BuildMathArrays"]}
{"id": "C90", "title": "A snake spawned at a vertex is the closed dual of the vertex", "statement": "SpawnAtVertex makes, around a vertex off the border, one snaxel on each edge of the vertex, at the vertex and heading to the other end, one edge in each surface and (in space) one surface in each volume that touches the vertex, with the incidence of the mesh turned over; the connectivity is sound and encloses one volume (in the plane: one surface bounded by all edges), only that vertex is inside, and joining it to the snake keeps the layers in step and adds exactly that vertex to those inside. At a vertex on the border an exception is thrown and the snake is unchanged.", "quantifier": "all sound meshes in which edges have two vertices and each surface at the vertex has two of its edges, all vertices and all snakes on them", "why_tests_cant": "tests spawn on a few block grids; they cannot cover every valence and numbering of the elements around a vertex", "anchors": ["SRCC/src/snake/snakeengine.cpp:23-216"]}
{"id": "C91", "title": "Arrived snaxels spawn around the vertex they reach", "statement": "SpawnArrivedSnaxels makes, at every vertex off the border that a snaxel arrived at, one new snaxel on each edge of the vertex (beyond it when the snaxel came to it, before it when the snaxel went back to it), freezes the snaxels that arrived at the border, keeps layers and connectivity sound, and updates the vertices inside: those that snaxels went back to are no longer inside, those that snaxels came to are, the others keep their status.", "quantifier": "all sound meshes whose border is marked, all snakes in step on them, all lists of impacts", "why_tests_cant": "the tests spawn in growing snakes; shrinking ones, and several vertices reached at once from both sides, are reached only by chance", "anchors": ["SRCC/src/snake/snakeengine.cpp:278-405", "SRCC/src/snake/snake.cpp:486-579"]}
{"id": "C92", "title": "Close vertices are merged exactly along paths of short edges", "statement": "GroupCloseVertices gives two vertices the same number exactly when a path of edges shorter than the tolerance joins them, and -1 exactly to the vertices without a short edge; GroupCloseSnaxels gives the same number exactly to the snaxels within the tolerance of the same vertex. MergeGroupedVertices merges each numbered group into one of its members in whatever order the hash table is, reports the vertices that are merged, replaces them in the edges, deletes them if asked, and leaves the mesh sound.", "quantifier": "all sound meshes in space whose edges have two different ends, all tolerances, all orders of the hash table", "why_tests_cant": "depends on chains of short edges and on the order of a hash table; the tests merge a few vertices on one grid", "anchors": ["SRCC/src/grid/meshprocessing.cpp:252-365", "SRCC/src/grid/mesh.cpp:4420-4470"]}
{"id": "C93", "title": "Hole points lie inside the body they are found from", "statement": "FindVertexHole, started at a vertex, gives a vertex that is inside the snake, is not uncertain, and is joined to the start by edges between vertices inside, or -1 if there is none. FindHolesInSnake gives different such vertices, at most one for each volume of the snake, and leaves a volume without one only if the certain vertices its snaxels come from are points already.", "quantifier": "all sound meshes, sets of inside and of uncertain vertices and orders of the hash table, all snakes on them", "why_tests_cant": "the search beyond the first vertex happens only when snaxels are close to a vertex, and the indices that are confused agree in part for the usual numbering", "anchors": ["SRCC/src/grid/meshprocessing.cpp:115-182", "SRCC/src/grid/meshprocessing.cpp:367-430"]}
{"id": "C94", "title": "Stored edge lengths are current", "statement": "After any sequence of preparing a mesh for use, setting its edge lengths, moving its vertices (snake::UpdateCoord), transforming it linearly and copying it, edge::Length of every edge is the distance between its two ends, and whenever the mesh says that its lengths are set every edge has one. Holds without changes of scale, and the second part without copies; a change of scale leaves lengths stale and a copy loses them.", "quantifier": "For all meshes with consistent vertex-edge incidence, all coordinates in an ordered field, all sequences of operations", "why_tests_cant": "Stale lengths only show after particular orders of scaling, copying and moving; a test of one operation on one mesh sees fresh lengths", "anchors": ["SRCC/src/grid/mesh.cpp:edge::Length", "SRCC/src/grid/mesh.cpp:mesh::SetEdgeLengths", "SRCC/src/grid/mesh.cpp:mesh::InvalidateEdgeLength", "SRCC/src/snake/snake.cpp:snake::UpdateCoord", "SRCC/src/grid/mesh.cpp:mesh::LinearTransform", "SRCC/incl/mesh.hpp:edge"]}
{"id": "C95", "title": "Shortest, longest and mean edge at a vertex", "statement": "CalculateVertexMinEdgeLength and CalculateVertexMaxEdgeLength give for every vertex the least and the greatest length among its edges, and infinity (or its negative) for a vertex without edges; CalculateVertexMeanEdgeLength gives the mean of these lengths. The first two hold; the mean is infinite for every vertex of every mesh because its sum starts at infinity.", "quantifier": "For all meshes with consistent vertex-edge incidence whose stored lengths are current, coordinates in an ordered field", "why_tests_cant": "The mean is only shown by a viewer and looks like a missing value; the other two fail only with stale lengths or unusual incidence", "anchors": ["SRCC/src/grid/meshprocessing.cpp:CalculateVertexMinEdgeLength", "SRCC/src/grid/meshprocessing.cpp:CalculateVertexMaxEdgeLength", "SRCC/src/grid/meshprocessing.cpp:CalculateVertexMeanEdgeLength", "SRCC/src/grid/meshprocessing.cpp:CalculateEdgeLengths"]}
{"id": "C96", "title": "Curvature is geometric, conserved by smoothing, and gives metrics between the two lengths", "statement": "The curvature of an edge lies between 0 and the number of pairs of its surfaces and depends only on the geometry of the mesh; the curvature of a vertex is the sum of those of its edges; smoothing conserves the total over all vertices and keeps values from becoming negative; the point metrics derived from it lie between the two surface edge lengths. The order in which an edge lists its ends changes curvatures, and where all curvatures are zero the metrics are not finite.", "quantifier": "For all sound meshes whose edges have two distinct ends, all coordinates, all numbers of smoothing steps, all lists of edge curvatures", "why_tests_cant": "Conservation over any number of smoothing steps on any mesh is a global identity; the dependence on the order of ends needs two descriptions of one geometry", "anchors": ["SRCC/src/grid/meshprocessing.cpp:PseudoSurfaceAngle", "SRCC/src/grid/meshprocessing.cpp:CalculateEdgeCurvature", "SRCC/src/grid/meshprocessing.cpp:CalculateVertexCurvature", "SRCC/src/grid/mesh.cpp:Get3PointsInSurface", "SRCC/src/grid/mesh.cpp:PlanesDotProduct", "SRCC/src/interfaces/tetgenrsvs.cpp:PointCurvature2Metric"]}
{"id": "C97", "title": "Points placed in cells lie in the hull of their corners", "statement": "The points placed in volumes are the centres of the volumes followed, for each volume, each of its corners once and each layer, by the point that divides the way from the corner to the centre; the points of a cell lie in the convex hull of the corners of the cell; a negative number of layers is refused. The point that CoordInVolume gives for a volume is a third of the mean of its corners and may lie outside, and the points in surfaces are given twice for each corner.", "quantifier": "For all sound meshes, all coordinates, all centres in the hulls of their cells, all numbers of layers", "why_tests_cant": "Being in a hull is a statement about all half spaces for meshes of any size; tests near the origin do not see the wrong factor", "anchors": ["SRCC/src/grid/meshprocessing.cpp:CoordInVolume", "SRCC/src/grid/meshprocessing.cpp:VolumeInternalLayers", "SRCC/src/grid/meshprocessing.cpp:SurfaceInternalLayers", "SRCC/src/grid/mesh.cpp:vertind"]}
{"id": "C98", "title": "Spawned snaxels go the same way from their vertex and do not pass others", "statement": "The first step after spawning moves every new snaxel away from the nearer end of its edge by the step length times the shortest edge at that end, so that all snaxels of a vertex are at one distance, and leaves all other snaxels; steps below the tolerance do nothing and steps of a half or more are refused; no snaxel leaves its edge, passes another snaxel of its edge, or stops short when no other is in its way. Passing and stopping short are not prevented when snaxels share an edge.", "quantifier": "For all sound meshes, all positive edge lengths, all snakes and all steps below one half", "why_tests_cant": "The claim is about every vertex of every mesh and every set of edge lengths; snaxels that share an edge arise only for rare spawn patterns", "anchors": ["SRCC/src/snake/snake.cpp:TakeSpawnStep"]}
{"id": "C99", "title": "Spawned snaxels are placed on one sphere and on their edges", "statement": "IntersectLineSphere gives exactly the parameters of the points of a line that lie on a sphere, in order, and infinities when there is none. SmoothStep_sphere puts the snaxels around a vertex, up to one scale, on one sphere, except that edges that point against the normal get the height of the sphere above the vertex and that every snaxel keeps a least distance; the farthest goes the whole step and all stay on their edges. Spheres below the tolerance are missed, and a snaxel on an edge that is much shorter than the longest one leaves its edge.", "quantifier": "For all line vectors, normals, offsets, radii, steps below one half and any number of snaxels", "why_tests_cant": "The claim is about all real geometries; the least distance exceeds an edge only for large ratios of lengths", "anchors": ["SRCC/src/grid/meshprocessing.cpp:IntersectLineSphere", "SRCC/src/snake/snake.cpp:SmoothStep_sphere"]}
{"id": "C100", "title": "The tetrahedral mesher is given the right points, facets, marks and metrics", "statement": "Mesh2Tetgenio writes each entry of the arrays it allocates and nothing outside them: the points of the geometry with mark 1, then those of the domain with mark -1, and facets with marks 1 and 2 whose corners are the points of the vertices of the surfaces in order. RSVS2CFD then gives the points of each box the edge length of the box, marks the facets of all boxes but the last with 0, and is meant to give each point of the geometry the metric of its own curvature. It gives all of them the metric of the first point; RSVSGRIDS with a boundary always throws.", "quantifier": "For all sound geometry and domain meshes with ordered surfaces, all lists of boxes and edge lengths and all metrics", "why_tests_cant": "The metric of single points is lost without any error, and meshes that are still valid come out; tests that mesh a body pass", "anchors": ["SRCC/src/interfaces/tetgenrsvs.cpp:MeshData2Tetgenio", "SRCC/src/interfaces/tetgenrsvs.cpp:Mesh2Tetgenio", "SRCC/src/interfaces/tetgenrsvs.cpp:RSVS2CFD", "SRCC/src/interfaces/tetgenrsvs.cpp:RSVSGRIDS", "SRCC/src/interfaces/tetgenrsvs.cpp:SpecifyTetPointMetric"]}
{"id": "C101", "title": "The boxes around the geometry are nested and complete", "statement": "BuildCutCellDomain returns a sound mesh of nSteps separate boxes, each a renumbered copy of the unit box with 8 vertices, 12 edges and 6 faces; the first has the inner bounds (expanded by 0.1), the last the outer bounds and those between are spaced in equal steps, and the list of numbers of vertices matches. Each box is meant to be strictly inside of the next; the first one sticks out of the second when the steps are not larger than 0.1. The indices double with each box, so from 29 boxes on they do not fit in an int.", "quantifier": "For all proper inner and outer bounds and all numbers of boxes", "why_tests_cant": "The bounds are continuous and the number of boxes is free; intersecting boxes only appear for many boxes or a narrow domain", "anchors": ["SRCC/src/grid/meshprocessing.cpp:BuildDomain", "SRCC/src/grid/meshprocessing.cpp:BuildCutCellDomain", "SRCC/src/grid/meshprocessing.cpp:DomInter"]}
{"id": "C102", "title": "The SU2 file of a tetrahedral mesh holds the mesh", "statement": "tetgen::output::SU2 writes all points, all tetrahedra with corners counted from 0 whichever number the mesher started from, and for each marker except 0 that some face has, exactly one group with exactly the faces of this marker in order. All counts in the file agree with the lines that follow, so a reader of the format finds the same mesh, and no array is read outside of its length.", "quantifier": "For all outputs of the mesher with arrays as long as their counts say, any number of points, cells, faces and markers", "why_tests_cant": "The markers and their order are free; the counting relies on a position after a search loop which is off by one in one of two branches, and a test sees only one order of markers", "anchors": ["SRCC/src/interfaces/tetgenrsvs.cpp:tetgen::output::SU2"]}
{"id": "C103", "title": "The output of the tetrahedral mesher becomes a sound mesh with the same connections", "statement": "tetgen::output::TET2MESH gives a mesh with the points, edges, faces and tetrahedra of the output, numbered from 1 whether the mesher counts from 0 or from 1. Each connection in the lists of the mesher is there and no other, all connections go both ways, nothing is dangling or listed twice, and the outside (0) is listed exactly by the faces that are used once by a tetrahedron. Without the list of faces of tetrahedra it throws.", "quantifier": "For all complete outputs of the mesher with numbers in range, counted from 0 or from 1, of any size", "why_tests_cant": "Two different corrections of the numbers are applied, one for positions and one for indices, and a mistake in one only shows for one way of counting and for some connections", "anchors": ["SRCC/src/interfaces/tetgenrsvs.cpp:tetgen::output::TET2MESH", "SRCC/src/grid/mesh.cpp:TightenConnectivity"]}
{"id": "C104", "title": "Rays and edges that leave a box are ended where they leave it", "statement": "tetgen::output::GetBoundBox gives the smallest box around the points of the output. The infinite rays of a Voronoi diagram are ended at the last point of the ray in the box, which is on a side of the box, and meshhelp::PlaceBorderVertex places the vertex between a vertex in the box and one outside of it at the last point of their edge in the box, without throwing. Directions that are parallel to sides, for which the quotients are infinite or not numbers, change nothing.", "quantifier": "For all boxes, all directions that are not zero with any parallel components, and all starting points in or out of the box, for all lists of points", "why_tests_cant": "The quotients for parallel directions depend on the order of arguments of std::min and std::max with values that are not numbers, which only shows for points exactly on a side", "anchors": ["SRCC/incl/tetgenrsvs.hpp:tetgen::internal::ProjectRay", "SRCC/src/interfaces/tetgenrsvs.cpp:tetgen::output::GetBoundBox", "SRCC/src/grid/mesh.cpp:PlaceBorderVertex", "SRCC/src/interfaces/tetgenrsvs.cpp:CloseVoronoiMesh"]}
{"id": "C105", "title": "A Voronoi diagram becomes a sound mesh of closed cells", "statement": "tetgen::output::VORO2MESH with tetgen::internal::CloseVoronoiMesh turns the Voronoi diagram of the mesher into a mesh that has the vertices, edges, facets and cells of the diagram with exactly their connections, a vertex at the end of each infinite ray, an edge between the ends of the two rays of each open facet and a face over the open side of each open cell, which lists the outside (0). All connections go both ways, nothing is dangling or zero, each face of the mesh is a closed chain of edges and each cell is closed. A diagram without points, with an open facet that does not have two rays or with an open cell with fewer than three open facets makes it throw. This is the mesh before TightenConnectivity and the merging of close vertices.", "quantifier": "For all diagrams with numbers in range, counted from 0 or from 1, with any number of rays, open facets and open cells, and any rule for the ends of the rays", "why_tests_cant": "The closing finds rays, open facets and open cells by hashed searches over lists that grow while it runs, and a wrong link only shows for some arrangement of infinite cells", "anchors": ["SRCC/src/interfaces/tetgenrsvs.cpp:tetgen::output::VORO2MESH", "SRCC/src/interfaces/tetgenrsvs.cpp:CloseVoronoiMesh"]}
{"id": "C106", "title": "The numbers of snaxels on an edge are 1, 2, ... after new snaxels came", "statement": "snaxarray::ReorderOnEdge gives the snaxels of each edge the numbers 1, 2, ... by their positions from the lower-index vertex, when those that were there were numbered by position and the new ones, with the number -1, are at the ends of the edge. It changes nothing but the numbers.", "quantifier": "For all snakes, all numbers of snaxels on any number of edges, with at most one new snaxel at each end of an edge, also after others were removed", "why_tests_cant": "The numbers are only used to find neighbours that meet, and gaps only come after snaxels between others were removed", "anchors": ["SRCC/src/snake/snake.cpp:snaxarray::ReorderOnEdge", "SRCC/src/snake/snake.cpp:snaxarray::DetectImpactOnEdge", "SRCC/src/snake/snake.cpp:snaxarray::PrepareForUse"]}
{"id": "C107", "title": "The parts of a snake in given cells are removed whole, and nothing else is", "statement": "RemoveSnakeInVolu and RemoveSnakeInSurf remove, for border 1, exactly the connected parts of the snake with a vertex on a surface (edge in two dimensions) whose parent is among the given cells, and for border 0 exactly the other parts: every vertex of such a part goes with all edges and surfaces on it, everything else stays with its incidence and places, the snake stays sound, the containers beside the mesh follow, and no element is left empty.", "quantifier": "For all sound snakes, all lists of cells and both values of the border, any number of parts and cells, also when parts share no cell or pass through several", "why_tests_cant": "The tests run the start of a snake on a few meshes only, where no part of the snake passes through more than one kind of cell", "anchors": ["SRCC/src/rsvs/RSVSalgorithm.cpp:RemoveSnakeInVolu", "SRCC/src/rsvs/RSVSalgorithm.cpp:RemoveSnakeInSurf"]}
{"id": "C108", "title": "The surfaces between cells of the parents are found exactly, and with them the places where a snake starts", "statement": "SurfOnParentBound lists exactly the surfaces between two volumes of which one is in a parent cell at the bound (0 or 1) and the other in a cell of the same parent which is not, with the surfaces to the outside when asked for, and the volumes on the side at the bound. EdgeOnParentBound does the same for edges and surfaces in two dimensions. FindSpawnVerts gives exactly the vertices off the border which are on such a surface or on a wanted volume at the border, each once and in increasing order; ParentElementIndex is the parent cell of an element, and throws for elements and parents which do not exist.", "quantifier": "For all sound meshes, any number of parents in step with the mesh, all targets, both bounds, with and without the border", "why_tests_cant": "The tests start snakes on a few regular grids with one parent, and only print what is found; with other targets or several parents the choice of the first parent which tells two cells apart matters", "anchors": ["SRCC/src/grid/mesh.cpp:SurfOnParentBound", "SRCC/src/grid/mesh.cpp:EdgeOnParentBound", "SRCC/src/grid/mesh.cpp:SurfInParent", "SRCC/src/grid/mesh.cpp:ParentElementIndex", "SRCC/src/rsvs/RSVSalgorithm.cpp:FindSpawnVerts"]}
{"id": "C109", "title": "Surfaces of the snake in one cell which are joined by shared edges are merged into one", "statement": "IdentifyMergSurfConnec puts together the surfaces of the snake which lie in the same cell of the parent mesh and are joined by a chain of shared edges: after the edits two surfaces are the same exactly when such a chain joins them, each surface is removed at most once, a surface which is kept is never removed, and no edit is empty or out of order. The recursion ends and reads nothing out of range, for any order in which the hash tables return their entries.", "quantifier": "For all meshes with unique surface indices, all placements of the surfaces in cells, any number of surfaces and of surfaces on one edge, all orders of the hash tables", "why_tests_cant": "The tests clean up a few snakes and look at whether the mesh is still connected; chains which are explored in an unlucky order, edges with three surfaces or the same edge twice in a surface do not come up", "anchors": ["SRCC/src/snake/snakeengine.cpp:IdentifyMergSurfConnec", "SRCC/src/snake/snakeengine.cpp:IdentifyMergeSurfGeneral", "SRCC/src/snake/snakeengine.cpp:IdentifyMergeSurfRecursive"]}
{"id": "C110", "title": "Edges of the snake which follow each other in one surface of the parent are joined chain by chain", "statement": "IdentifyMergEdgeConnec looks in each surface of the parent mesh for chains of snake edges, each sharing a vertex with the next. Every chain of two or more edges gets exactly one edit: one edge is kept and all others are removed, each once; the vertices inside the chain are removed, each once; and one end is kept. Closed loops lose all their edges and vertices. The walks end and read nothing out of range, for any order in which the hash tables return their entries.", "quantifier": "For all meshes with unique edge indices and two distinct ends on each edge, all placements of the edges in surfaces of the parent, any number and length of chains and loops, all orders of the hash tables, and any set of edges taken out of the table of parents", "why_tests_cant": "The tests clean up a few snakes and look at whether the mesh is still connected; long chains in an unlucky order, loops, three edges at a snaxel and edges taken out of the table in the same pass do not come up", "anchors": ["SRCC/src/snake/snakeengine.cpp:IdentifyMergEdgeConnec", "SRCC/src/snake/snakeengine.cpp:IdentifyMergeEdgeGeneral", "SRCC/src/snake/snakeengine.cpp:IdentifyMergeEdgeGeneralChain"]}
{"id": "C111", "title": "Edges of the snake in one surface of the parent and on one surface of the snake are joined", "statement": "IdentifyMergEdgeSameSurfConnec looks for edges of the snake in the same surface of the parent mesh which are on the same surface of the snake and joins the chains among them: each edit is one whole chain of edges on one surface, no edge is in two edits (so no edge is taken out of the table of parents twice), and every chain gets its edit. IndentifyEdgeSameSurf returns exactly the edges on the first shared surface and never reads outside its vectors.", "quantifier": "For all meshes with unique edge indices, two distinct ends on each edge and no repeated surface on an edge, all placements in parent surfaces, any number of edges and surfaces, all orders of the hash tables, any set of edges out of the table of parents", "why_tests_cant": "The tests run the clean-up on a few snakes; a read one place past the end of a small vector goes unnoticed, and edges which share two surfaces with others are rare", "anchors": ["SRCC/src/snake/snakeengine.cpp:IdentifyMergEdgeSameSurfConnec", "SRCC/src/snake/snakeengine.cpp:IndentifyEdgeSameSurf"]}
{"id": "C112", "title": "Volumes of the snake around a vertex to remove are merged", "statement": "ModifyMergVoluConnec renames volumes so that volumes joined by a chain of vertices to remove become one, called by the least of the chain, and no others are joined; the outside is never merged. Afterwards there is at most one volume around each vertex to remove, volumes still list the surfaces which list them, and the edits remove exactly the volumes which changed their name, each once.", "quantifier": "For all meshes whose indices are unique and whose listed elements exist, any number of vertices to remove, in any order", "why_tests_cant": "The tests run the clean-up on a few snakes; chains of volumes through several vertices, and the bookkeeping in which a kept volume is itself removed later, do not show in them", "anchors": ["SRCC/src/snake/snakeengine.cpp:ModifyMergVoluConnec"]}
{"id": "C113", "title": "Snaxels on the same edge of the parent mesh are joined in pairs", "statement": "SnaxEdgeConnecDetection and the pass of CleanupSnakeConnec behind it join snaxels which are on the same edge of the parent mesh and joined by an edge of the snake. The pairs joined have no snaxel in common, so no kept snaxel is removed by another edit, and no touching pair could be added, so each pass makes progress. Afterwards the ends of all edges have their new names, exactly the edges with equal ends are gone from the mesh, from the surfaces and from the table of parents (each once), and the edits name exactly these. The edges which are later checked for equal ends have two ends.", "quantifier": "For all snakes in which vertices and edges list each other, any number of snaxels on an edge, rows and loops of them, several edges between the same two snaxels, edges from a snaxel to itself", "why_tests_cant": "The tests run the clean-up on a few snakes; rows of touching snaxels and double edges are rare there, and the read of a cleared vector returns the old values and goes unnoticed", "anchors": ["SRCC/src/snake/snakeengine.cpp:SnaxEdgeConnecDetection", "SRCC/src/snake/snakeengine.cpp:CleanupSnakeConnec", "SRCC/incl/snakstruct_incl.cpp:DeHashParent"]}
{"id": "C114", "title": "Surfaces of a flat snake which share an edge are merged", "statement": "In a flat mesh ModifyMergSurf2DConnec renames surfaces so that surfaces joined by a chain of shared edges become one, called by one of the chain, and no others are joined; the outside is never merged. Afterwards each edge has at most one surface beside it, surfaces still list the edges which list them and no edges of other chains, and the edits remove exactly the surfaces which changed their name, none of which is used by a later edit.", "quantifier": "For all flat meshes whose indices are unique and whose listed elements exist, with any number of edges and of surfaces per edge", "why_tests_cant": "The tests run flat snakes in which at most two surfaces meet on an edge; chains, repeated entries and zeros between the entries do not show in them", "anchors": ["SRCC/src/snake/snakeengine.cpp:ModifyMergSurf2DConnec"]}
{"id": "C115", "title": "The check before edges are removed reports the edges which must not go", "statement": "CheckSnakeRemovalsEdge reports an edge to remove exactly when it breaks the rule of its comment: an edge can be removed if it is connected to one surface or to one vertex.", "quantifier": "For all meshes with unique edge indices and all lists of existing edges", "why_tests_cant": "The check only prints; no test reads the output or calls it with an edge which should be reported", "anchors": ["SRCC/src/snake/snakeengine.cpp:CheckSnakeRemovalsEdge"]}
{"id": "C116", "title": "A mesh printed for Tecplot shows the mesh and agrees with its header", "statement": "PrintMesh prints a zone with as many values as its header declares: one per node and per element on each line, counts of face nodes which add up to TOTALNUMFACENODES, node numbers between 1 and NODES and element numbers between 0 and ELEMENTS. For volumes each line of nodes goes round its face in order and the elements on the left and right are the two volumes of the surface, 0 for none; for flat meshes and lines each edge has its two vertices. With a list of volumes the zone shows these volumes, each of their faces and vertices once, and 0 for other volumes.", "quantifier": "For all sound meshes, of any size and with faces of any number of edges, and all lists of volumes", "why_tests_cant": "The tests write files which are looked at by eye; a face map which names a wrong vertex or volume is accepted by the run", "anchors": ["SRCC/src/postprocessing.cpp:PrintMesh", "SRCC/src/postprocessing.cpp:VolFaceMap", "SRCC/src/postprocessing.cpp:SurfFaceMap", "SRCC/src/postprocessing.cpp:VolDataBlock"]}
{"id": "C117", "title": "Points printed for Tecplot are the points asked for", "statement": "With type 4 PrintMesh prints the vertices of the list of indices it is given, in that order, or the vertices with a mark if it is given marks for all vertices, or all vertices without a list; and PrintSnakeInternalPts prints exactly the vertices inside the snake.", "quantifier": "For all sound meshes, lists of indices, lists of marks, and sets of inside vertices, including none and all", "why_tests_cant": "The tests print the inside points of a snake which encloses some but not all of the vertices; the cases of no vertex and of all vertices do not come up, and the files are not read back", "anchors": ["SRCC/src/postprocessing.cpp:PrintMesh", "SRCC/src/postprocessing.cpp:VertDataBlock", "SRCC/src/postprocessing.cpp:PrintSnakeInternalPts"]}
{"id": "C118", "title": "The check of a snake reports exactly its faults", "statement": "snake::CheckConnectivity reports each pair of snaxels on one edge of the mesh joined by a snake edge, each snaxel which does not have as many edges as there are surfaces around its edge of the mesh, each pair of snake edges in one surface with a common end and each pair of snake surfaces in one volume with a common edge, and nothing else; the total it prints is the number of faults reported.", "quantifier": "For all snakes whose parts have unique indices in the order of the mesh of the snake, whose edges have two ends and whose snaxels are on edges of the mesh; all orders of the siblings in the hashed containers", "why_tests_cant": "The check only prints to cerr, which no test reads; the tests run it on snakes with as many edges as snaxels and do not compare the total with the counts", "anchors": ["SRCC/src/snake/snake.cpp:CheckConnectivity"]}
{"id": "C119", "title": "Step limits of snaxels are the same in length inside a cell", "statement": "snake::SetEdgeStepLimits gives each edge of the mesh of the snake the mean, over the cells of the parent meshes it is in, of the least length of an edge of the cell divided by its own length (1 for edges in no cell); the limits are in (0, 1] and, times the length of the edge, are the same for all edges of a cell; SnaxStepLimit gives a snaxel the limit of its edge.", "quantifier": "For all meshes with unique indices and nothing dangling, all parent meshes and lists of parents, all positive lengths, all orders of the hashed lists of children", "why_tests_cant": "The tests only run the snake with and without scaled steps and look at the result by eye; no test looks at the limits, at edges shared by cells or at flat meshes", "anchors": ["SRCC/src/snake/snake.cpp:SetEdgeStepLimits", "SRCC/src/snake/snake.cpp:SnaxStepLimit", "SRCC/incl/mesh.hpp:ChildIndices"]}
{"id": "C120", "title": "Smoothing of the spawn step takes exactly the snaxels near a vertex", "statement": "snake::TakeSmoothSpawnStep smooths once at each vertex a new snaxel is near to; FindSnaxInds takes, each once, the snaxels on the edges of that vertex which are nearer to it than to the other end by less than 1.1 times the spawn distance, so that every new snaxel is smoothed; without a spawn distance or without a known name nothing changes.", "quantifier": "For all meshes with unique indices, all snakes, all vertices, all spawn distances and names, all orders of the hashed lists of snaxels", "why_tests_cant": "The tests only run the smoothing on one snake and print the distances; no test looks at which snaxels are taken", "anchors": ["SRCC/src/snake/snake.cpp:FindSnaxInds", "SRCC/src/snake/snake.cpp:TakeSmoothSpawnStep", "SRCC/src/snake/snake.cpp:SmoothStep", "SRCC/src/snake/snake.cpp:CloseToVertex"]}
{"id": "C121", "title": "Planar smoothing puts snaxels in the plane of their neighbours", "statement": "SmoothStep_planematching moves each snaxel with an edge to a vertex outside the group along its edge, to the mean of the places where the edge meets the planes through the outside vertices of it and of a neighbour and the middle of the two (EquilibrateEdge); other snaxels stay.", "quantifier": "For all snakes with unique indices and edges and vertices listing each other, all groups of snaxels, all coordinates, all results of find", "why_tests_cant": "The tests run the smoothing on one snake and print the distances; no test looks at planes, or at snaxels with two neighbours or two outside vertices", "anchors": ["SRCC/src/snake/snake.cpp:SmoothStep_planematching", "SRCC/src/snake/snake.cpp:EquilibrateEdge"]}
{"id": "C122", "title": "Laplacian smoothing keeps snaxels on their edges and in order", "statement": "SmoothStep_itersmooth ends, moves only the snaxels of the group, by at most a third of the spawn distance scaled by the limit of the edge in each iteration, leaves them on their edges and behind none of the snaxels they were before, and is given up if the edges of a snaxel of the group cannot be ordered.", "quantifier": "For all snakes with snaxels on their edges, all groups, all directions of the laplacian, all limits, all spawn distances up to 5", "why_tests_cant": "The tests run the smoothing on one snake and print the distances; no test has snaxels pushed off their edge, several snaxels on an edge or an order that is not found", "anchors": ["SRCC/src/snake/snake.cpp:SmoothStep_itersmooth", "SRCC/src/snake/snake.cpp:ValidateDistance"]}
{"id": "C123", "title": "Triangulating the faces of a mesh keeps it a sound mesh of the same shape", "statement": "MeshTriangulation replaces each surface with more than one triangle by as many triangles as it has edges, around a new vertex: the mesh stays sound (indices unique, connectivity complete and symmetric), all other elements stay, the volumes on the two sides and the Euler characteristic are kept; after TriangulateAllFaces all surfaces have three edges, and what is on the border is marked as on the border.", "quantifier": "For all sound meshes whose surfaces are simple loops of edges in order, all triangulations, all numbers of edges, all orders of the hashed lists of triangles", "why_tests_cant": "The tests triangulate a few snakes and write them to a file; no test checks the connectivity of the mesh, with shared edges of several replaced surfaces or with border marks", "anchors": ["SRCC/src/snake/triangulate.cpp:MeshTriangulation", "SRCC/src/grid/meshprocessing.cpp:TriangulateAllFaces"]}
{"id": "C124", "title": "The search for the volume of a point finds the volume the point is in", "statement": "mesh::VertexInVolume walks from volume to volume across the surfaces which have the point on the other side.  For each point of the list the number it gives is the index of a volume which contains the point, or 0 if no volume contains it; the result for a point does not depend on the other points of the list or on the stored direction of edges.", "quantifier": "For all sound convex meshes of bounded volumes with flat faces, all lists of points and all numbers of coordinates per point, over exact arithmetic with a tolerance", "why_tests_cant": "The tests only locate points of a regular grid, all inside of the mesh; the sign convention is guessed from the first point, so points outside first, other edge directions or faces with collinear corners are never exercised", "anchors": ["SRCC/src/grid/mesh.cpp:mesh::VertexInVolume", "SRCC/src/grid/mesh.cpp:meshhelp::VertexInVolume", "SRCC/src/grid/mesh.cpp:Get3PointsInSurface"]}
{"id": "C125", "title": "The surfaces of a mesh are oriented: the normals go from the first to the second volume", "statement": "mesh::OrientSurfaceVolume and snake::OrientSurfaceVolume exchange the two volumes of some surfaces, and change nothing else, so that the normal of every surface goes from the first to the second volume in its list.  The flooding in OrientRelativeSurfaceVolume makes neighbouring surfaces agree and numbers the blocks of joined surfaces; then one dot product for each block decides whether the block is exchanged.", "quantifier": "For all sound meshes of volumes with surfaces as closed rings in order, all orders of the two volumes at the start, all numbers of blocks and all dot products", "why_tests_cant": "The meshes of the tests are blocks of a regular grid next to the origin with one orientation at the start; the wrong centre of the volume, volumes which touch themselves and blocks without a usable dot product give a wrong orientation which no test looks at", "anchors": ["SRCC/src/grid/mesh.cpp:mesh::OrientSurfaceVolume", "SRCC/src/grid/mesh.cpp:mesh::OrientRelativeSurfaceVolume", "SRCC/src/grid/mesh.cpp:surf::FlipVolus", "SRCC/src/snake/snake.cpp:snake::OrientSurfaceVolume"]}
{"id": "C126", "title": "The normal at a vertex is the mean of the normals around it and points outwards", "statement": "VertexNormal gives the mean of the unit normals of the triangles around a centre, weighted with their angles at the centre, and the sum of the angles between following normals; triangles without area are left out, and the point at which the list starts does not matter.  vert::Normal gives this normal with length one, out of the volume if the surfaces at the vertex are between a volume and the outside.", "quantifier": "For all lists of points around a centre, all sound meshes with coherent orientation and all vertices of the boundary of a volume", "why_tests_cant": "The normals are written to output files and used for the first step of new snaxels; no test compares them with a known normal, and lists which start at a triangle without area or at the centre, or surfaces between two volumes, do not occur in the tests", "anchors": ["SRCC/src/grid/mesh.cpp:VertexNormal", "SRCC/src/grid/mesh.cpp:meshhelp::NormalShouldFlip", "SRCC/src/grid/mesh.cpp:vert::Normal", "SRCC/src/grid/mesh.cpp:vert::SurroundingCoords"]}
{"id": "C127", "title": "The Laplacian at a vertex points where the area shrinks and belongs to its vertex", "statement": "VertexLaplacianVector gives the sum of the directions in which the areas of the triangles around a vertex shrink fastest, divided by the sum of their weights, or zero where this is shorter than the tolerance; it does not depend on the edge at which the ring starts or on its direction, it is zero in a flat ring, and MeshLaplacians gives for each vertex its own Laplacian.  MeshUnitNormals gives finite vectors.", "quantifier": "For all sound meshes, all vertices whose edges make a ring of triangles with an area, and all coordinates", "why_tests_cant": "The Laplacians are only plotted or used to smooth new snaxels; no test compares the weights with the gradient of the area, and the value kept from the vertex before for a vertex without a ring looks like any other vector", "anchors": ["SRCC/src/grid/meshprocessing.cpp:CotanLaplacianWeight", "SRCC/src/grid/meshprocessing.cpp:VertexLaplacianVector", "SRCC/src/grid/meshprocessing.cpp:MeshLaplacians", "SRCC/src/grid/meshprocessing.cpp:MeshUnitNormals"]}
{"id": "C128", "title": "Closing the containers gives each connected part of a mesh one volume and keeps the mesh sound", "statement": "ForceCloseContainers replaces the volumes of a mesh by one volume for each connected part; each surface is then between the volume of its part and the outside, and every list agrees with the lists of its neighbours.  In two dimensions it does the same with surfaces and edges.  Vertices and the rest of the elements are not changed.", "quantifier": "For all sound meshes whose edges have two vertices", "why_tests_cant": "The tests run it on snakes after a merge, where surfaces are triangles or loops; a surface without edges, a surface with edges in two parts or an edge without a surface do not come up, and a list of a volume which does not agree with the surfaces shows only much later", "anchors": ["SRCC/src/grid/mesh.cpp:ForceCloseContainers"]}
{"id": "C129", "title": "Ordering the edges of all surfaces puts each in the order of a loop and splits those of several loops", "statement": "After OrderEdges on a mesh the edges of each surface are in the order of one closed loop and each surface is marked as ordered.  A surface whose edges make several loops is split: each loop becomes a surface of its own with the data and the volumes of the first, no edge is lost or shared by two parts, every list agrees with the lists of its neighbours, and each new surface is reported with the one it comes from.", "quantifier": "For all sound meshes in which the edges of each surface make closed loops, and all capacities of the vector of surfaces", "why_tests_cant": "Tests use meshes whose surfaces are single loops; splitting needs a snake which has merged with itself, and whether the vector moves while a surface is split depends on the capacity it happens to have", "anchors": ["SRCC/src/grid/mesh.cpp:mesh::OrderEdges", "SRCC/src/grid/mesh.cpp:surf::SplitSurface"]}
{"id": "C130", "title": "Points around a domain enclose it and follow its edges", "statement": "POINTGRIDS makes points around a box before tetgen builds a mesh on a set of points: each corner of the box, each corner moved outwards by distanceTol of the side in each of the three directions, and points along the edges moved outwards. No point is strictly inside of the box. Along each edge, moved out in either direction across it, no position is further than distanceTol of its length from a point. Points2Mesh gives one vertex for each group of nProp >= 3 values, in order, and tetgen gets the points around the domain and then those of the domain. Outside of the unit box the positions along the edges are not scaled by the box, so they are not on its edges; a distance of 0 makes the number of steps undefined.", "quantifier": "for all boxes (edges: the unit box only), all distances other than 0, all lists of points and all domain meshes", "why_tests_cant": "One box and one distance are used in the tests (the defaults) and no test looks at the points themselves.", "anchors": ["SRCC/src/interfaces/tetgenrsvs.cpp:299-400", "SRCC/src/interfaces/tetgenrsvs.cpp:119-156", "SRCC/src/grid/mesh.cpp:6293-6314"]}
{"id": "C131", "title": "Velocity engines release frozen snaxels and never send them past the end of their edge", "statement": "setVelocityEngine accepts six names, each for another engine, and refuses all others. Each engine but the RSVS itself keeps the number and place of all snaxels and releases those that are frozen. A frozen snax at the end of its edge never gets a velocity past it: the random engines send it to the middle of its edge with a bounded speed, unit stops it and unit-reflect turns it back at a fifth of its speed. The random engines change the speed of a free snax by a factor between 0.8 and 1.2 or 0.5 and 1.5. After CalculateNoNanSnakeVel all velocities are finite; those that were finite are the same and others are towards the middle of their edge.", "quantifier": "for all lists of snaxels, all values of rand(), all engines (held at the end: all but fast)", "why_tests_cant": "The tests call one engine from random values and look at the final snake only; no test has a snax frozen at the border.", "anchors": ["SRCC/src/rsvs/RSVSclass.cpp:10-29", "SRCC/src/snake/triangulate.cpp:19-126"]}
{"id": "C132", "title": "After flattening, every face of the border is a triangle or lies across an axis", "statement": "FlattenBoundaryFaces finds the surfaces of the border with more than three edges whose corners have no coordinate in common (to 1e-9) and replaces each by triangles around a new vertex at its centre. Afterwards each surface of the border has three edges or its corners are in one plane across an axis; surfaces inside, triangles and surfaces exactly in such a plane are as before; vertices, edges and volumes stay, all connections are consistent and the Euler characteristic is the same. A plane face which is not across an axis is replaced too, and the new edges and vertices are not marked as on the border.", "quantifier": "for all sound meshes whose border surfaces are simple loops of ordered edges, with any coordinates", "why_tests_cant": "Tests run it inside of a Voronoi pipeline and look only at whether tetgen accepts the result.", "anchors": ["SRCC/src/grid/meshprocessing.cpp:15-80", "SRCC/src/snake/triangulate.cpp:186-338", "SRCC/src/snake/triangulate.cpp:606-768"]}
{"id": "C133", "title": "The end of a clean-up pass removes what is left over and leaves a sound snake", "statement": "At the end of a pass CleanupSnakeConnec looks for kept edges which have collapsed, detaches them, detaches the surfaces this leaves without edges, looks for vertices without edges and removes all of these together with what the edits named for removal. When the elements which are not named are consistently connected among themselves, the snake left is consistent: it has exactly the elements which were not named, less the collapsed kept edges and the surfaces and vertices without any other edge, each connected as before; every vertex and surface left has an edge, no kept edge joins a vertex to itself, and the snaxels, snake edges and snake surfaces match the mesh. Volumes are not looked at: one whose surfaces all vanish stays with no surface.", "quantifier": "for all snakes, all lists of kept edges with two ends which are not to be removed, and all lists of elements to remove", "why_tests_cant": "The merging tests run whole simulations and count errors printed by the connectivity test; which combination of collapsed edges, emptied surfaces and stale lists occurs depends on the geometry.", "anchors": ["SRCC/src/snake/snakeengine.cpp:473-492", "SRCC/src/snake/snakeengine.cpp:782-886", "SRCC/src/grid/mesh.cpp:2333-2416"]}
{"id": "C134", "title": "Switching an edge, a surface or a volume for another keeps the rest of the mesh consistent", "statement": "mesh::SwitchIndex with type 2, 3 or 4 puts the new element in the place of the old one in the lists of the elements around, and gives it the connections of the old one. For surfaces and volumes it always succeeds, and the mesh without the old element is as consistent as before, whatever other elements are already waiting to be removed. For edges the same holds, but the ends of the new edge are not changed: what is left is consistent exactly when each end of the old edge is an end of the new one. Switching an edge for one with the same two ends and then running the end of the clean-up pass gives a consistent mesh of all the elements but the old edge. In a mesh with volumes, an edge which lists surface 0, the outside, cannot be switched: the call throws.", "quantifier": "for all meshes, all lists of elements waiting to be removed, and all pairs of different elements not among them", "why_tests_cant": "The tests run whole merges on a few meshes; the connections which a switch must rewrite, and whether the elements already waiting have stale lists, depend on the order of the edits.", "anchors": ["SRCC/src/grid/mesh.cpp:2054-2098", "SRCC/src/grid/mesh.cpp:2099-2148", "SRCC/src/grid/mesh.cpp:2149-2178", "SRCC/src/snake/snakeengine.cpp:660-720"]}
{"id": "C135", "title": "Removing degenerate edges, surfaces and volumes leaves a consistent mesh without them", "statement": "mesh::RemoveSingularConnectors, on a mesh which is consistent without the vertices to remove, whose edges have two ends, and in which no edge lists surface 0 (or which has no volumes), returns a consistent mesh in which no edge joins a vertex to itself, no surface has fewer than three edges and no volume has fewer than four surfaces. Vertices which were joined by an edge are still joined, each surface which is not degenerate has one with the same outline, and the volumes kept are exactly those with at least four such surfaces, and have these. It throws exactly if it is asked to report volumes left with three surfaces and there is one. The edges of a surface and the surfaces of a volume which are kept should be different.", "quantifier": "for all meshes and all lists of vertices to remove", "why_tests_cant": "Degenerate elements come from merges of close vertices, which the tests run on a few meshes; which merges make further elements degenerate depends on the order of the elements.", "anchors": ["SRCC/src/grid/mesh.cpp:4473-4618", "SRCC/src/grid/mesh.cpp:5681-5828", "SRCC/src/interfaces/tetgenrsvs.cpp:832"]}
{"id": "C136", "title": "The collapse of the short edges of a mesh is the quotient of its graph", "statement": "The steps after the closing of a Voronoi mesh (groups of close vertices merged, degenerate elements removed, lists tightened), on a consistent mesh in space whose edges have two different ends, and in which no edge lists surface 0 (or which has no volumes), return a consistent mesh without repeated neighbours whose vertices are one of each group of vertices joined by paths of short edges. Two of them are joined by an edge exactly if an edge joined their groups. Each surface left with three edges or more becomes one whose sides are its sides moved, and the volumes with at least four such surfaces are kept, with these. Surfaces left should be closed, and the call should return.", "quantifier": "for all meshes, tolerances and orders of the hash table", "why_tests_cant": "The groups depend on the tolerance and on the whole graph; the tests build a few Voronoi meshes and check no more than the consistency of the result.", "anchors": ["SRCC/src/interfaces/tetgenrsvs.cpp:828-835", "SRCC/src/grid/mesh.cpp:4473-4618", "SRCC/src/grid/mesh.cpp:5681-5828"]}
{"id": "C137", "title": "Of the snaxels about to reach a vertex, the nearest is put on it", "statement": "snake::SnaxAlmostImpactDetection, on snaxels whose edges have their ends in the snake mesh, returns. For each vertex on which at least two snaxels close (nearer than the range, not there, not moving away), one of the nearest of these is put on the vertex, at the end of its edge where the vertex is, and is appended to the impacts with the mark of that end, in the order of the vertices. No other snaxel moves. The order of the snaxels on an edge should still be that of their distances.", "quantifier": "for all snakes, ranges and lists of impacts", "why_tests_cant": "Which snaxels close on the same vertex depends on the positions and velocities at every step; the tests run whole snakes and do not look at single calls, and the range is 0.2 or 0.01 in all of them.", "anchors": ["SRCC/src/snake/snake.cpp:2415-2486", "SRCC/src/rsvs/RSVSintegration.cpp:65", "SRCC/src/rsvs/RSVSintegration.cpp:175"]}
{"id": "C138", "title": "The impacts reported on a whole snake are the contacts and arrivals on its edges", "statement": "snake::SnaxImpactDetection, on a snake whose hash table of edges is up to date, returns. Two snaxels are reported as a pair exactly when they are neighbours in order on the same edge and touch. A snaxel is reported as arrived at its origin (-1) or destination (-2) exactly when it is there, does not move back, and is the outermost one on its edge at that end. Nothing else is reported. A snaxel which SnaxAlmostImpactDetection has put on a vertex is reported with the same mark by the detection which follows.", "quantifier": "for all snakes with distinct positive indices, all hash tables in any order, all tolerances below one half", "why_tests_cant": "The loop marks snaxels as done edge by edge and takes one of two tests by the number of snaxels on the edge; the order is that of a hash table. The tests of the repository only look at the snake after whole steps.", "anchors": ["SRCC/src/snake/snake.cpp:2367-2414", "SRCC/src/snake/snake.cpp:2415-2486", "SRCC/src/rsvs/RSVSintegration.cpp:170-181"]}
{"id": "C139", "title": "Triangles are made into a sound mesh of separate triangles", "statement": "TriarrayToMesh returns a sound mesh with one surface for each triangle. Each surface has three vertices and three edges of its own, around it in the order of the corners, with the coordinates of the points of the triangle (of the mesh, the snake or the triangulation). The volumes of the surface are those of the constraints of the cells of the triangle, first the one on the side with factor -1.", "quantifier": "for all lists of triangles, points, constraints and orders of the hash table", "why_tests_cant": "The tests run it on whole triangulations and only write the meshes to files; a wrong index, a missing volume or two swapped sides show in a picture only, and the read past the end of celltarg shows in no output.", "anchors": ["SRCC/src/snake/triangulate.cpp:513-604", "SRCC/src/snake/triangulate.cpp:1317-1335", "SRCC/incl/arraystructures_incl.cpp:748-753"]}
{"id": "C140", "title": "Each cell of a grid gets the volume inside its surfaces", "statement": "RSVScalc::CalculateMesh followed by ReturnConstrToMesh, as run on both grids before the snake starts, writes to each cell the sum of the volumes of the triangles of its surfaces, counted positive where it is the second cell of the surface and negative where it is the first. Nothing else of the cells changes. The volumes of all cells add up to the volume inside the surfaces which have a cell on one side only.", "quantifier": "for all lists of cells with distinct indices in any order, and all surfaces with two cells at most", "why_tests_cant": "The value of a cell is accumulated through a map from indices to positions and written back through another list; a value given to the wrong cell shows only on grids whose indices are not 1 to n in order and whose cells differ in volume, which the grids of the tests are not.", "anchors": ["SRCC/src/rsvs/RSVScalc.cpp:294-332", "SRCC/src/rsvs/RSVScalc.cpp:429-441", "SRCC/src/rsvs/RSVScalc.cpp:505-522", "SRCC/src/rsvs/RSVScalc_core.cpp:87-97", "SRCC/src/grid/mesh.cpp:1090-1102"]}
{"id": "C141", "title": "Edges which go out of the box are split where they do", "statement": "The first part of mesh::AddBoundary finds exactly the edges with one end inside the box and one outside, and splits each of them by a vertex of its own, placed from its two ends. The edge keeps its inner end, a new edge on the same surfaces goes on to the outer one. The mesh stays sound, no edge goes from an inner vertex to an outer one any more, and the other edges, the surfaces of the old edges, the volumes and the positions of the old vertices do not change.", "quantifier": "for all sound meshes with two vertices on each edge and no surface 0 on an edge, all boxes, and all placements which do not fault from a point in the box to one beyond it", "why_tests_cant": "The indices of both halves are rewritten in three containers while the list of edges to split was taken before; an end rewritten on the wrong half, or an outer vertex which keeps the inner half, gives a mesh whose lists disagree only around the cut, and the tests look at the mesh as a whole after cropping.", "anchors": ["SRCC/src/grid/mesh.cpp:5398-5428", "SRCC/src/grid/mesh.cpp:5445-5454", "SRCC/src/grid/mesh.cpp:5464-5531"]}
{"id": "C142", "title": "The edge which closes a cut surface joins the points where its border goes out", "statement": "When mesh::AddBoundary has cut the edges, meshhelp::SplitBorderSurfaceEdgeind shares out the edges of a surface into inner and outer ones without losing any, and meshhelp::FindVertInFromEdgeOut finds from them exactly the vertices where the border of the surface goes through the box, each once and in order: as many as the surface has edges which crossed. An edge which is not in the mesh is refused.", "quantifier": "for all sound meshes, all boxes, and all surfaces of the mesh after its edges were cut", "why_tests_cant": "The function takes one way when two vertices are found and another when not, and both must give the same set; surfaces crossed four times or touched at one vertex are rare in the grids of the tests, and a wrong pair gives an edge across the surface which is found only when the mesh is used.", "anchors": ["SRCC/src/grid/mesh.cpp:5551-5556", "SRCC/src/grid/mesh.cpp:6352-6383", "SRCC/src/grid/mesh.cpp:6490-6540"]}
