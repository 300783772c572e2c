# Formal model of RSVS3D: design

The source under study is `/repo` (payoto/rsvs3d at the pinned commit, C++).
It is read as text only. The model and the proofs are in Lean 4 (4.33.0) with
Mathlib, under `lean/Verif/`.

## Layout

* `Verif/Model/*.lean`: the model. Every definition cites file and lines in
  `/repo` and says what was simplified.
* `Verif/Spec/*.lean`: small specifications used to state the properties.
  They do not mention the helpers of the model.
* `Verif/Lemmas/*.lean`: helper lemmas.
* `Verif/Props/*.lean`: the property theorems, each with a concrete `example`
  that meets its hypotheses.

## Conventions

* `Except Fault α` is the result of code which may fail. `Fault.throws` is a C++
  exception, `Fault.ub` is undefined behaviour (out-of-range access with the
  checks off, dereference of an end iterator, ...), `Fault.diverges` a loop or
  recursion that does not end.
* The default build (makelinux.mk:109) defines `SAFE_ACCESS` and `SAFE_ALGO`,
  so container accesses out of range throw.  The model follows that build.
* `std::unordered_multimap` is a list of pairs up to permutation.  Theorems
  quantify over every permutation, i.e. over every bucket order.
* `int` is modelled by `Int` (or `Nat` for positions): no overflow.
  `double` is modelled by rationals or an arbitrary linear ordered field: no
  rounding, no NaN unless stated.
* A theorem whose name ends in `_partial` proves less than the property says;
  the missing part is stated beside it.  Where the code contradicts the
  property, a theorem whose name contains `_violated` proves the
  negation on a concrete witness and a `_partial` theorem proves what does hold.

## Trusted base

The Lean kernel; the axioms `propext`, `Classical.choice`, `Quot.sound`
(checked with `#print axioms`); the reading of the C++ source described in the
comments of `Verif/Model`.  Not modelled: floating-point rounding, integer
overflow, memory allocation failure, console output, Eigen's solvers (taken to
solve exactly the systems they are given), tetgen, polyscope/imgui, the file
system (files are strings).  The library nlohmann/json is not in the repository:
its `flatten`, `unflatten`, `update` and JSON pointers are taken as documented.

## Plan per property

| id | model | proof |
|----|-------|-------|
| C01 | `Model/Container`: `ArrayStruct` with elements, flags, table; step relation for each public operation, table order arbitrary | invariant by induction over histories |
| C02 | same | same invariant |
| C03 | same | violated (removal keeps the flag): witness history; partial for histories where each removal is followed by preparation |
| C04 | `Model/Container`: `SnakStruct` | violated by reuse of a container (`Init`/`read` keep the flag): witness; partial for histories without those |
| C05 | `remove` | list induction (`filter`) |
| C06 | `HashedVector` | invariant over histories; assign leaves a stale table (flag false) |
| C07 | `FindSubList` with carried table | proved for fresh or matching tables, violated for a stale table |
| C08 | `ModiftrackArray` | index list proved; log violated |
| C09 | `EraseKeyPair`, `DeHashParent` | violated for the former (by-value table); proved for the latter |
| C10 | `Model/Mesh`: lists of four element types | structural |
| C11 | `Concatenate`, `MakeCompatible_inplace` | structural, from C10 |
| C12 | `SwitchIndex` type 1 | fold invariant |
| C13 | `RemoveIndex` | fold invariant |
| C14 | `TestConnectivity` | counting argument |
| C15 | `TestConnectivityBiDir` | violated: witness |
| C16 | `Crop` | violated: witness; partial when the guard of the list holds, also with the removal of degenerate elements (`C16_crop_whole_partial`) |
| C17 | `ReOrder` | structural |
| C18 | character model of `fprintf`/`fscanf` (Model/Text) and of write/read (Model/MeshIO) | structure always exact; values exact if multiples of 10^-16 or at least one half in size; violated for 2^-60 |
| C19 | sort and unique | list lemmas |
| C20 | flood fill with level queues | invariant, termination by unvisited count |
| C21 | flood fill | invariant; label collision violated: witness |
| C22 | `Model/Border`: `SetBorders` | lookups succeed in a sound mesh; equality of meshes from equal marks |
| C23 | `Model/Order`: `OrderList`, `OrderEdgeList`, `surf::OrderEdges`, `vert::OrderEdges` | invariant of the walk in terms of edge ends (two ends per vertex); counting for the converse; general walk invariant with errors on; violated for open paths and without errors |
| C24 | `Model/Order`: `OrderMatchLists` | sums of positions; case analysis of the sign |
| C25 | `Model/Order`: `EdgeFromVerts`, `SurfFromEdges` | list induction; violated where an edge lists surface 0 |
| C26 | `Model/Geometry`: `BoundingBox`, `Scale`, `LinearTransform`, family recursion with fuel, `snake::Scale` | box attained (list induction), algebra; forests: siblings have disjoint relatives; violated for degenerate domains, diamonds and cycles |
| C27 | `Model/Geometry`: `cross`, `dot`, `PlaneNormal`, `VertexDistanceToPlane` | ring; determinant for coplanar points |
| C28 | `Model/Geometry`: `VerticesDistanceToPlane` | violated: undefined behaviour from two points on; partial for one |
| C29 | `Model/Geometry`: `CalcCentreVolu` for any length function | violated: twice the mean; exact formula proved |
| C30 | Model/Voxel.lean | all sizes |
| C31 | Model/Voxel.lean, flDiv models float and double division | partial: up to 2^24 vertices; violated above |
| C32 | Model/Voxel.lean, boundary stated with coordinates | partial: up to 2^24 vertices |
| C33 | `UpdateDistance` over an ordered field | case analysis |
| C34 | `CalculateTimeStepOnEdge` | violated for three snaxels; partial for two |
| C35 | `CalculateTimeStep` | violated for negative velocity; partial for non-negative |
| C36 | `Flip`, `UpdateCoord` | algebra |
| C37 | `DetectImpactOnEdge` | violated for backward snaxels; partial for forward |
| C38 | `OrderOnEdge` | violated for two crowded edges; partial for one |
| C39 | `ValidateDistance` | induction over siblings |
| C40 | Model/SnakeJoin.lean, Spec/SnakeJoin.lean, Lemmas/SnakeJoin.lean | proved |
| C41 | the same, reports of the detection in any order of the hash table | proved: no report is into what an earlier one removes |
| C42 | the same with six decimals | structure exact, values within 10^-6; exact on the grid of six decimals; violated for 2^-21 |
| C43 | option counts and the outcome of reading the parameters → what the program does | violated for noexec with interactive; all other parts proved |
| C44 | `Model/Json`: JSON trees, flatten/update/unflatten, file and string updates | proved for configurations without empty containers and members named 0, and updates which mention existing values only; violated for flat files which leave out elements of arrays, for empty arrays, and for unknown keys which are no pointers |
| C45 | parameters for input and output, `put_time` as a parameter | violated with a path pattern; partial: without patterns, and the output directory in general |
| C46 | `ifstream >> double` on characters with the end-of-file flag | violated for trailing white space; partial with the exact behaviour of that case |
| C47 | configuration of the fills, mesh → mesh | proved, file values by C46 |
| C48 | `Model/Refine.lean` (`cartesianMapping`) | `C48_mapping`: all meshes with valid references and non-empty cells, all box counts, non-zero extents; `C48_flat`: an extent equal to zero is undefined behaviour |
| C49 | Model/Sqp.lean, doubles with NaN and infinity | partial: multipliers within the limit; flag violated |
| C50 | Model/Sqp.lean | partial: limit not negative; violated for negative limits |
| C51 | Model/MatTools.lean, Spec/Calculus.lean: gradients and Hessians of real functions by `HasFDerivAt` | partial: at least one intermediate value; violated without any |
| C52 | Model/LogScale.lean: reals with `Real.logb`, results may be infinite | partial: order kept above machine epsilon and below 1e-16; violated between |
| C53 | ordered field | algebra |
| C54 | flood fill with snaxels as barriers | violated: stops early; partial by the flood fill invariant |
| C55 | ordered field, real powers | violated |
| C56 | levels → list of outputs | documented levels proved; exact condition for the final outputs; violated |
| C57 | `Model/Lineage.lean` | `C57_map_partial`, `C57_sum_partial`: parents with complete maps that are not destroyed before their children; `C57_remove_violated`, `C57_replace_violated`, `C57_plain_violated`, `C57_missing_violated`, `C57_child_violated`: everything else |
| C58 | text → text, line by line | marker lines proved; violated at the end of the template |
| C59 | `memberIsHashParent` | list induction |
| C60 | `HashedVectorPair` | refinement to a map |
| C61 | `CalculateTimeStep` | loop invariants, minimum over a set |
| C62 | `Model/Border`: `GetOffBorderVert` | list induction; the non-const overload violated |
| C63 | `Model/Order`: `surf::OrderedVerts` | induction along the loop; violated for two edges |
| C64 | `Model/Order`: `ConnVertFromConnEdge` | induction along the loop; violated for two edges |
| C65 | `Model/Geometry`: `PseudoCentroid` of surfaces and volumes | weighted means; violated: perimeter truncated to `int` |
| C66 | `Model/Geometry`: `CalcPseudoNormalSurf` | sums over a cycle, reflection of the range |
| C67 | `Model/Geometry`: domain changes in `Exporting` | list induction; violated for engines other than `rsvs` |
| C68 | `Model/Geometry`: `coordvec` operations on norm and flag | invariant; violated for negative factors |
| C69 | Model/Voxel.lean | partial: up to 2^24 vertices |
| C70 | Model/Sqp.lean, Model/Triplet.lean | proved |
| C71 | Model/Sqp.lean | partial: multipliers within the limit, decompositions that succeed; violated for sparse matrices |
| C72 | Model/Sqp.lean | partial: times minus the multiplier; violated as stated |
| C73 | Model/Triplet.lean on Model/Hash.lean | partial: up to 2^31 coefficients; violated beyond |
| C74 | Model/RsvsMath.lean (translated line by line from the generated C++), Spec/Triangle.lean, Spec/Calculus.lean | proved |
| C75 | Model/RsvsMath.lean, Spec/Triangle.lean | partial: derivatives right for equal eps; violated as called, since the value has eps 0 |
| C76 | Model/RsvsMath.lean, Spec/Triangle.lean | partial: distinct points |
| C77 | Model/Centroid.lean, Spec/Centroid.lean, Lemmas/CentroidAuto.lean | partial: eps 0; violated with any positive eps |
| C78 | Model/CentroidHess.lean, Lemmas/CentroidHess.lean, Lemmas/CentroidSecond.lean | partial: the blocks of one vertex, eps 0; violated for the blocks of two vertices |
| C79 | Model/CalcTriangle.lean, Spec/Snake.lean, Lemmas/CalcTriangle.lean | partial: value and gradient, eps 0 in the centre; the Hessian where no corner is a moving centre, and what it lacks otherwise; violated for moving centres |
| C80 | Model/CalcTriangle.lean, Lemmas/CalcAssembly.lean, Props/CalcAssembly.lean | partial: full storage, Hessian without moving centres; violated in sparse storage |
| C81 | Model/Triangulate.lean, Spec/Triangulate.lean, Lemmas/Triangulate.lean, Props/Triangulate.lean | proved |
| C82 | Model/Triangulate.lean, Spec/TriangMaintain.lean, Lemmas/TriangMaintain.lean, Props/TriangMaintain.lean | proved |
| C85 | `Model/Refine.lean` (`coarsenMesh`) | `C85_plane_partial`: all sound meshes in the plane and all mappings to cells mapped to themselves; `C85_solid_partial`: in space when no surface is inside a merged volume; `C85_solid_violated`: in space otherwise; `C85_exchange_violated`: mappings not idempotent |
| C86 | `Model/Lineage.lean` | `C86_family_partial`: all sequences without copies; `C86_copy_violated`: a copy keeps its destroyed parent |
| C87 | the same | proved |
| C83 | Model/GridCut.lean, Spec/GridCut.lean, Lemmas/GridCut.lean, Props/GridCut.lean | partial: edges with at most one snaxel for the walk from a vertex; `_violated` beyond |
| C84 | Model/GridCut.lean, Spec/GridCut.lean, Lemmas/GridCut.lean, Props/GridCut.lean | partial: all but that pieces are closed |
| C88 | Model/DesignVars.lean, Spec/DesignVars.lean, Props/DesignVars.lean | proved |
| C89 | Model/DesignVars.lean, Spec/DesignVars.lean, Props/DesignVars.lean | partial: dense matrices; `_violated` for sparse ones |
| C90 | Model/Spawn.lean, Spec/Spawn.lean, Lemmas/Spawn.lean, Props/Spawn.lean | proved |
| C91 | Model/Spawn.lean, Spec/Arrive.lean, Props/Arrive.lean | partial: status of vertices needs a vertex that stays inside; `_violated` without |
| C92 | Model/Close.lean, Spec/Close.lean, Props/Close.lean | proved |
| C93 | Model/Holes.lean, Spec/Holes.lean, Props/Holes.lean | partial: right from certain vertices; `_violated` from uncertain ones |
| C94 | `edge::Length`, `SetEdgeLengths`, `InvalidateEdgeLength`, `UpdateCoord`, `LinearTransform`, copies of edges | `Model/EdgeLength.lean`: a mesh with stored lengths and its flag, five operations; `Spec/EdgeLength.lean`: length from the coordinates, stored lengths right, flag right; invariant over sequences of operations |
| C95 | `CalculateEdgeLengths`, `CalculateVertexMin/Max/MeanEdgeLength` | `Model/EdgeMetric.lean` on the meshes of C94; least and greatest element of the lengths around a vertex |
| C96 | `Get3PointsInSurface`, `PlanesDotProduct`, `PseudoSurfaceAngle`, `CalculateEdgeCurvature`, `CalculateVertexCurvature`, `PointCurvature2Metric` | `Model/Curvature.lean`; double counting of edges and ends for the total, Cauchy's inequality for the range |
| C97 | `CoordInVolume`, `volu::vertind`, `VolumeInternalLayers`, `SurfaceInternalLayers` | `Model/InnerPoints.lean`; the hull is stated by half spaces, the points are means with weights |
| C98 | `snax::TakeSpawnStep`, `snake::TakeSpawnStep` | `Model/SpawnStep.lean`; induction over the snaxels with the part already moved kept in view |
| C99 | `IntersectLineSphere`, `SmoothStep_sphere` from the normal on | `Model/SphereStep.lean`; the vertex is inside of the sphere, so the two parameters have opposite signs |
| C100 | `MeshData2Tetgenio`, `Mesh2Tetgenio`, `SpecifyTetPointMetric`, `SpecifyTetFacetMetric`, `RSVS2CFD` from the arrays on, `RSVSGRIDS` with a boundary | `Model/TetInput.lean`; arrays are lists with `none` where nothing was written |
| C101 | `BuildDomain`, `BuildCutCellDomain`, `DomInter` on top of `BuildBlockGrid`, `Scale`, `MakeCompatible_inplace` and `Concatenate` | `Model/BoxDomain.lean`; coordinates are rational, `PrepareForUse` is left out |
| C102 | `tetgen::output::SU2` | `Model/Su2.lean`; the file is a list of lines, numbers are written exactly (not with 16 digits), the failure to open the file is left out |
| C103 | `tetgen::output::TET2MESH` | `Model/TetMesh.lean`; coordinates are rational, `PrepareForUse` at the end and the unused result of the connectivity test are left out |
| C104 | Rays and edges that leave a box (`Model/Ray`) | Values with infinities and not-a-number; invariant of the loop over the directions: the result is the largest of the entries so far |
| C105 | Model/Voronoi: `start`, `edgeStep`, `facetStep`, `rayStep`, `faceClose`, `cellClose`, `closeVoronoi`, `voroMesh`; Spec/Voronoi | the loops of the translation and of the closing are followed list by list; soundness and closedness are proved from the specification |
| C106 | Model/Reorder: `maxStep`, `placeNew`, `newStep`, `incStep`, `reorderOne`, `reorderOnEdge`; Spec/Reorder | the loops change each snaxel once, so the number in the end is a function of the snaxels of the edge; counting by cases |
| C107 | `RemoveSnakeInVolu`, `RemoveSnakeInSurf` | Model/SpawnRemove: the vertices in the cells, `connectedVertex` (Model/Flood), the marks of the blocks, the lists, `removeSurf`/`removeEdge`, the removal and tightening. Spec/SpawnRemove: parts by paths of edges, `PartsLeft`. The counting follows C20. |
| C108 | Surfaces between parent cells, spawn vertices: Model/Spec/Lemmas/Props ParentBound | partial: three dimensions exactly; in two dimensions nothing inside is found |
| C109 | the surfaces of a cell which share edges are merged chain by chain and nothing else is | proved; C109_none for the case without shared edges |
| C110 | edges of the snake in one parent surface are joined chain by chain, loops included | partial: C110_join_partial, C110_once_partial; C110_once_violated, C110_three_violated |
| C111 | edges in one parent surface and on one snake surface are joined; the search for them stays in range | partial: C111_join_partial, C111_find, C111_end; C111_end_violated, C111_second_violated |
| C112 | volumes of the snake around a vertex to remove are merged chain by chain | C112_merge, C112_one, C112_none |
| C113 | snaxels on the same parent edge are joined in disjoint pairs, collapsed edges go, each once | partial: C113_pass, C113_no_loop, C113_progress; C113_collapsed_violated |
| C114 | flat snake: surfaces on one edge merged (`ModifyMergSurf2DConnec`) | C114_merge, C114_one, C114_none |
| C115 | check of edges to remove (`CheckSnakeRemovalsEdge`) | C115_reported_partial, C115_inverted, C115_rule_violated |
| C116 | Tecplot zones of a mesh: header, coordinates, values, face maps of volumes, surfaces and lines, and of listed volumes (`Model/Tecplot.lean`). The formatting of numbers and breaks of lines are left out. | `C116_volumes_partial`, `C116_surfaces_partial`, `C116_lines`, `C116_some_volumes_partial`, `C116_two_edges_violated`, `C116_one_side_violated` |
| C117 | Tecplot zones of points, by a list or by marks, and the points inside a snake (`Model/Tecplot.lean`) | `C117_listed_partial`, `C117_no_list`, `C117_inside_partial`, `C117_all_violated`, `C117_marks_violated`, `C117_none_inside_violated`, `C117_all_inside_violated` |
| C118 | The check of a snake reports exactly its faults | C118_reported_partial, C118_silent_partial, C118_total_violated, C118_throws_violated |
| C119 | Step limits of snaxels are the same in length inside a cell | C119_limits, C119_range, C119_same_step_partial, C119_snaxel, C119_same_step_violated, C119_flat, C119_flat_violated |
| C120 | Smoothing of the spawn step takes exactly the snaxels near a vertex | C120_near, C120_vertices, C120_new, C120_none, C120_ways |
| C121 | Planar smoothing puts snaxels in the plane of their neighbours | C121_plane, C121_sum_partial, C121_in_plane_partial, C121_two_edges_violated, C121_two_links_violated |
| C122 | Laplacian smoothing keeps snaxels on their edges and in order | C122_on_edges, C122_step, C122_move, C122_passes_none_partial, C122_ordering, C122_ordering_violated, C122_passes_violated |
| C123 | `MeshTriangulation` and `TriangulateAllFaces`: surfaces replaced by triangles around a new vertex | `C123_fan_partial`, `C123_all_partial`, `C123_ordered`, `C123_border_violated`, `C123_sides_violated` |
| C124 | `VertexInVolume`: the walk from volume to volume to find where a point lies | `C124_points_partial`, `C124_defined_partial`, `C124_degenerate_partial`, `C124_first_violated`, `C124_direction_violated`, `C124_empty_violated`, `C124_line_violated` |
| C125 | `Model/Orient`: the flooding of surfaces to orient them, and the direction of the blocks, for meshes and snakes | `C125_relative_partial`, `C125_mesh_partial`, `C125_snake_partial`, `C125_centre_violated`, `C125_small_violated`, `C125_pinched_violated`, `C125_flat_violated` |
| C126 | `Model/VertNormal`: the normal at a vertex, the choice of its sign | `C126_normal_partial`, `C126_rotate_partial`, `C126_flip`, `C126_refuses`, `C126_outward_partial`, `C126_start_violated`, `C126_centre_violated`, `C126_between_violated` |
| C127 | The Laplacian at a vertex (`VertexLaplacianVector`, `MeshLaplacians`): the direction in which the area shrinks, zero in a flat ring | C127_vertex_partial, C127_ring, C127_flat, C127_height, C127_mesh_partial, C127_stale_violated, C127_normals_violated |
| C128 | ForceCloseContainers: one container for each connected part | C128_volumes_partial, C128_surfaces, C128_rings, C128_bare_violated, C128_split_violated, C128_zero_violated |
| C129 | mesh::OrderEdges with surf::SplitSurface and SwitchIndex type 6; the capacity of the vector is part of the state | C129_one_loop, C129_two_loops_partial, C129_ordered_partial, C129_capacity_violated, C129_moved_violated, C129_pairs_violated, C129_twice_violated |
| C130 | Points around a domain (POINTGRIDS, Points2Mesh, Mesh2TetgenioPoints) | `C130_some`, `C130_corners`, `C130_outside`, `C130_only_partial`, `C130_cover_partial`, `C130_points`, `C130_list`, `C130_scaled_violated`, `C130_zero_violated`, `C130_short_violated` |
| C131 | Velocity engines other than the RSVS (setVelocityEngine, CalculateSnakeVel*, CalculateNoNanSnakeVel) | `C131_names`, `C131_released`, `C131_middle`, `C131_speed`, `C131_reflect`, `C131_rest`, `C131_finite`, `C131_held_partial`, `C131_fast_violated` |
| C132 | Flattening the faces of the border (FlattenBoundaryFaces) | `C132_flat_partial`, `C132_ordered`, `C132_plane_violated`, `C132_border_violated` |
| C133 | the end of a pass of the clean-up of a snake removes what is left over (Model/EndPass, Spec/EndPass: `SoundWithout`, `PassEnded`) | `C133_end_pass_partial`, `C133_nothing_bare`, `C133_empty_volume_violated` |
| C134 | `SwitchIndex` types 2–4 among elements waiting to be removed | `C134_surface`, `C134_volume`, `C134_edge_partial`, `C134_merge_edges`, `C134_ends_violated`, `C134_outside_violated` |
| C135 | `RemoveSingularConnectors` (`removeSingular`), on its own and at the end of `Crop` | `C135_degenerate_partial`, `C135_repeated_violated`, `C135_faces_violated`, `C135_outside_violated`, `C16_crop_whole_partial` |
| C136 | collapse of the short edges: merge of close vertices, removal of degenerate elements, tightening | `C136_collapse_partial`, `C136_open_violated`, `C136_prism_violated` |
| C137 | snaxels about to reach a vertex | `C137_almost_partial`, `C137_range_violated`, `C137_order_violated` |
| C138 | detection of impacts on a whole snake: contacts, arrivals, and what follows the snaxels put on vertices | `C138_detection_partial`, `C138_arrives_partial` |
| C139 | triangles made into a mesh: soundness, shape and volumes of the surfaces | `C139_soup_partial`, `C139_inside_violated`, `C139_outside_violated` |
| C140 | volumes of the cells of a grid: accumulation over surfaces, writing back, total | `C140_volumes`, `C140_total` |
| C141 | edges with one end in and one end out of a box are split, the mesh stays sound, no edge crosses any more (first part of `AddBoundary`) | `C141_cut_partial`, `C141_split`, `C141_same_side_throws`, `C141_edge_sides_partial` |
| C142 | the ends found for the edge which closes a cut surface are the points where its border goes through the box, each once | `C142_closing_partial`, `C142_unknown_throws` |

## Disagreements between code and properties

Each is proved with a concrete witness in a theorem with suffix `_violated`.

* C03: `remove` leaves the ready flag set, so a container can claim to be ready with a stale hash table.
* C04: reading or initialising a prepared snake container leaves the old parent table; lookups give old positions or throw.
* C06: writing into a `HashedVector` directly leaves `isHash` set.
* C07: `FindSubList` uses a non-empty table as it is, even when filled from another list.
* C08: `ReturnModifLog` reports `index != 0` instead of the modification mark.
* C09: `EraseKeyPair` receives the table by value, so nothing is erased.
* C11: a reference 0 in the lists without guard (edges of a vertex, vertices of an edge, edges of a surface) is shifted by
  `ChangeIndices` and becomes a reference to the last element of the other mesh.
* C12: `SwitchIndex` type 1 changes one end only of an edge from the vertex to itself.  Two merges in a row reach this.
* C15: `TestConnectivityBiDir` returns `errTot` only; one-way references are counted in `errTotBiDir`, which is printed.  The
  message uses `edges(jj)` with `jj` the place in the list, which can throw.
* C16: `Crop` decreases the number of volumes to detach even if no 0 was erased, so the last volume stays referenced.
* C18: values are written with 16 decimals after the point, not 16 significant digits: a coordinate 2^-60 is read back
  as 0. The field `isordered` is not stored. The last `fscanf` also swallows white space of the text which follows.
* C21: `ConnectedVolumes` numbers new blocks from 1 whatever labels were given, so a new block can have the label of a
  barrier.
* C23: `OrderList` and `OrderEdgeList` do not test that the walk returns to its start: an open path which starts at an
  inner vertex of the list is reported as ordered. Without `errout`, after a dead end the walk goes on from the other
  end of the first edge and appends there, so that the list is not in the order of a walk although the flag is
  ordered; and the iterator is incremented past the range of the vertex, so that for edges that do not touch the
  result depends on the order of the hash table or is undefined.
* C25: `SurfFromEdges` looks up every entry of the list of surfaces of an edge, also the marker 0 of the outside; the
  access throws.
* C26: A scaling to a domain without extent cannot be undone. `_LinearTransformGeneration` does not mark visited
  meshes: a mesh which is a parent in two ways is transformed twice, and a cycle of parents recurses without end.
* C27: `VertexDistanceToPlane` returns the distance multiplied by the length of the normal, not the distance its
  comment states; zero and sign are right.
* C28: `VerticesDistanceToPlane` assigns an empty range (`begin() + 3 * i` twice) to the test vertex from the second
  point on, then reads three entries of it (mesh.cpp:460).
* C29: `CalcCentreVolu` adds both ends of an edge without halving: the value is twice the weighted mean of the mid-
  points, outside of the mesh unless the mesh is around the origin.
* C31: BuildBlockVert and BuildBlockVolu divide in `float` (voxel.cpp:423, 128) where the other builders divide in
  `double`. From index 16777217 on the position can be wrong: in a grid of 256^3 cells vertex 16777218 is given the
  edges of another vertex, so incidence is not symmetric.
* C34: snaxels get individual time steps, so on an edge with three snaxels one can pass another.
* C35: `fabs(v > eps)` ignores negative velocities in the shape-conserving limit.
* C37: `DetectImpactOnEdge` compares the order number, counted from the lower-index vertex, as if counted from `fromvert`.
* C38: `OrderOnEdge` never clears `hashOrder`: with two crowded edges the second reads out of range. Coincident snaxels and
  snaxels left alone on an edge keep old numbers.
* C42: `snax::write`, `snaxedge::write` and `snaxsurf::write` use `%lf`, six decimals: a snaxel at 2^-21 is read back
  at 0.
* C43: `--noexec` together with `--interactive` is accepted and `execFlow` becomes 2: the optimisation runs
  (main.cpp:213-217). `C43_violated`.
* C44: A flat file which sets elements 0 and 2 of an array but not 1 makes element 1 null (the file is unflattened
  before the update, parameters.cpp:558-569); `from_json` then throws. `C44_flat_violated`. `readflat` does not have
  this fault (`C44_readflat_partial`). An empty array of the configuration becomes null in every update
  (`C44_empty_violated`). A parameter string whose key is unknown and does not start with `/` is counted as a failure,
  but leaves a null under this key, which makes `unflatten` throw: no string is applied (`C44_strings_violated`).
* C45: `ioout::PrepareForUse` appends the time to `pathoutdir` and `basenameoutdir` again at each call, and the second
  call overwrites `pattern`, which loses the case name appended by `files::PrepareForUse`. Only `outdir` is protected.
  `C45_violated` (every configuration with a path pattern), `C45_default_violated`.
* C46: the loop of `LoadTargetFill` tests `eof` before reading: if the file ends with white space (a last new line),
  and there are more cells than values, the last value is used twice in each repetition.
* C48: `CartesianMapping` (meshrefinement.cpp:221-228) makes `dims` positive before it tests `dims > 0` to widen a
  flat direction, so the widening never happens. Every mesh with a zero extent (all two-dimensional meshes in a plane)
  then divides by zero and converts the result to `int`, which is undefined (`C48_flat`).
* C49: `SQPstep` sets `isLarge` to false right after the multipliers are limited (SQPstep.hpp:169), so a step with
  limited multipliers, which misses the linearised constraints, is reported as a success. Example: H = J = 1, residual
  10, limit 5.
* C50: With a negative limit every multiplier is moved out of bounds: 0 becomes 1 with the limit -1. The limit comes
  from the configuration and is not checked.
* C51: `VecBy3DimArray` computes `nCol / nVec` before its size check (matrixtools.cpp:55), so a function of no
  intermediate values divides by zero: undefined behaviour instead of an empty Hessian (C51_violated).
* C52: `SignedLogScale` is documented as order preserving, but positive inputs between 1e-16 and machine epsilon are
  mapped to negative numbers, because `logeps` is -15 where the constant used makes the sign change at 1e-16
  (C52_between, C52_violated).
* C54: `FindBlockSnakeMeshVerts` stops when every snaxel has been met, not when the queue is empty: interior vertices
  further away keep label 0 and count as outside. If the starting vertex of a snaxel does not list its edge the loop
  never ends.
* C55: in `ValidateEquilibrateD` the limit called minimum is the larger one.
* C56: the final outputs use the maximum of both levels, but the levels are not ordered by content: level 6 writes
  neither the snake nor the gradients, levels 5 to 7 not the full data; with logging at level 5 the output level is
  used even if it is lower. `C56_final_partial` lists the pairs, `C56_violated` gives two.
* C57: `meshdependence::RemoveParent` (mesh.cpp:906-917) erases the parent but not its map, so that the maps of later
  parents are exchanged (`C57_remove_violated`, `C57_replace_violated`); `AddParent` without a map (mesh.cpp:881-888)
  pushes an empty map and does not count the parent (`C57_plain_violated`); `mesh::AddChild` (mesh.cpp:970-978) sets
  the elements of the parent instead of those of the child and throws (`C57_child_violated`); a cell the parent does
  not have is taken for the last cell of the parent before (`C57_missing_violated`).
* C58: `WriteModifiedTemplate` writes a line end after every line it reads, so a template whose last line is read (no
  marker, or the marker on a last line without a new line) gets an additional new line. `C58_violated`.
* C62: the overload of `GetOffBorderVert` which is not `const` calls itself instead of the `const` one: endless
  recursion. Only the `const` one is called in the program.
* C63: `surf::OrderedVerts` picks the first vertex of the past edge that the current edge has; for two edges between
  the same two vertices this may be the same vertex twice.
* C64: `ConnVertFromConnEdge` has the same weakness for two edges between the same two vertices.
* C65: `surf::PseudoCentroid` returns its perimeter as `int`; `volu::PseudoCentroid` uses it as weight, so surfaces
  with a perimeter below one have no weight.
* C67: After a `snake` export the snake is scaled back to the physical domain only for the engine `rsvs`; with another
  engine later `su2` files are written in the computational domain.
* C68: `coordvec::mult(double)` multiplies the stored norm by a factor which may be negative and keeps the flag.
* C71: In the sparse `ComputeSQPstep` the variable `isLarge` has no initial value (RSVScalc_SQP.cpp:419).
  `SQPstep_sparse` returns early when a decomposition fails (SQPstep.hpp:197-216) and `isLarge` is then read without a
  value.
* C72: The right hand side of the sensitivity system holds the multipliers instead of 1 (RSVScalc_SQP.cpp:203-207) and
  the result is negated (SQPstep.hpp:252), so column i is minus the multiplier i times the derivative of the step.
* C73: The key `row + nRow * column` is an `int`: with 65536 rows and columns the position (0, 32768) overflows. The
  Hessian of 65536 variables is such a matrix.
* C75: `Area_f` has the default `eps` 0, `Area_df` and `Area_ddf` have `rsvsmath_automatic_eps_surf`
  (RSVSmath_automatic.hpp:34-39), and `Area::Calc` relies on the defaults: the stored derivatives are those of another
  function, shorter than the gradient of the area by a factor between 0 and 1.
* C77: `SurfCentroid::Calc` throws for fewer than four vertices, so there is no centroid of a triangle. The generated
  derivatives add `eps_centre` under some roots only, so for a polygon on a line the Jacobian differs from the
  derivative for any positive value.
* C78: `SurfCentroid::Calc` reads the blocks of two vertices with the stride 3 per function (RSVSmath.cpp:687-690,
  729-732), but the generated arrays have the stride 6 and the order x2 x3 y2 y3 z2 z3, so it copies entries that were
  never assigned. For a square the second derivative of the y coordinate with respect to the x coordinates of two
  neighbours is 1/16 and the code has 0. The loop for vertices that are not connected also treats the first and the
  last of the polygon.
* C79: `TrianglePositionDerivatives` leaves `HPos` zero unless `useSurfCentreHessian` is set (RSVScalctools.cpp:131),
  so the Hessian of a triangle at the centre of a surface lacks the second derivatives of that centre;
  `C79_missing_partial` says which term is missing and `C79_violated` has a square face where it is not zero. The sign
  of the volume is that of C74.
* C80: `AssignConstraintDerivativesSparseMath` drops each number smaller than DBL_EPSILON before it is added
  (RSVScalctools.cpp:320 and 329), and `CalcTriangle` does the same for the Hessian of the objective
  (RSVScalc_core.cpp:159), so in sparse mode the stored derivative of a small triangle is 0 (`C80_violated`).
* C83: `FollowVertexConnection` should take the first snaxel of the edge as seen from the vertex. It sets `currSnax`
  to `snaxTemp[0]` each time it finds a better one (triangulate.cpp:953, 964 have `snaxTemp[0]` where the condition
  has `snaxTemp[ii]`), so it takes the first one of a hash map whichever end it comes from. In addition the test for
  the direction (943) compares the vertex with itself.
* C85: `CoarsenMesh` (meshrefinement.cpp:107-117) compares `voluind[0]` with `voluind[1]` after `TightenConnectivity`
  removed repeated volumes, so in space each surface inside a merged volume is read past its end and is not
  recognised; the merge only works if there is nothing to remove (`C85_solid_violated`, `C85_solid_partial`). Indices
  are changed one after the other, so a mapping that exchanges two cells merges them and keeps both
  (`C85_exchange_violated`).
* C86: A copy of a mesh copies the pointers to its parents without becoming their child, so that it refers to
  destroyed meshes (`C86_copy_violated`).
* C89: With at least `sparseDVcutoff` variables `BuildMathArrays` sets up the sparse Jacobian only
  (RSVScalc.cpp:473-485), but `ReturnGradient` reads the dense `dConstr` (199, 289): that of an earlier iteration,
  which has fewer columns, or an empty one. The read is undefined for the last variable.
* C91: When all the vertices inside a snake are left in the same step (`SpawnArrivedSnaxels`, snakeengine.cpp:278-317)
  the flipped snake `bwdSnake` has nothing inside in common with the snake, so `Concatenate` (snake.cpp:530-555)
  treats the two as independent and takes the union: every vertex of the mesh is then marked as inside, instead of
  none (`C91_violated`).
* C93: `FindVertexHole` (meshprocessing.cpp:423) passes the indices of the edges of an uncertain vertex to
  `ConcatenateVectorField`, which takes positions. The search goes on at the ends of other edges: it can give a vertex
  that is not joined to the start, miss a neighbour that is inside, or throw when an index is past the end
  (`C93_violated`). It also reads `isMeshVertIn` without regard to the flip of the snake, so the theorem is for snakes
  that are not flipped.
* C94: `mesh::LinearTransform` and `mesh::Scale` do not invalidate the stored lengths of edges, so after a change of
  scale `edge::Length` gives the old length. The copy constructor of `edge` copies the index and the connectivity
  only: a copied mesh has no lengths and no border marks on its edges but keeps `edgesLengthsAreSet` and
  `borderIsSet`, so `PrepareForUse` does not set them again and `GetLength` gives -1 (`C94_violated`).
* C95: `CalculateVertexMeanEdgeLength` starts its sum at `INFINITY`, so the mean is infinite at every vertex
  (`C95_mean_violated`).
* C96: `Get3PointsInSurface` takes the ends of the first edge in the order in which that edge lists them and not in
  the direction of the surface, so `PseudoSurfaceAngle` has the wrong sign for about half of the surfaces: the edge
  inside a flat square has curvature 0 or 1 by the order of the ends of another edge. `PointCurvature2Metric` divides
  by the largest curvature, which is zero when all are; the metrics are then not finite (`C96_violated`).
* C97: `CoordInVolume` (`meshprocessing.cpp:812-823`) raises its count of points once for each coordinate, so the
  point it gives is a third of the mean of the corners and lies outside of volumes that are away from the origin. It
  is used when a snake is loaded (`RSVSintegration.cpp:444`) to find the parents of volumes. `SurfaceInternalLayers`
  does not make the corners unique, so each point is given twice (`C97_violated`).
* C98: `snax::TakeSpawnStep` (`snake.cpp:2173-2178`) compares the distance of the other snaxel from the middle of the
  edge with the distance of this snaxel from its start, and does not account for snaxels of opposite direction. A
  snaxel at 0 that steps 2/5 passes one at 3/10; one that steps 1/10 is put on the other at 3/10 (`C98_violated`).
* C99: `IntersectLineSphere` takes every discriminant below `DBL_EPSILON` for zero (`meshprocessing.cpp:1082-1086`),
  so that for small spheres the one parameter it gives is not on the sphere. `SmoothStep_sphere` computes
  `minEdgeLength` with `max` (`snake.cpp:1707-1713`), so it is the longest edge and not the shortest as the comment
  says; the least distance of a tenth of the step times the longest edge is beyond the end of an edge that is short
  enough, and `ValidateDistance` then throws (`C99_violated`).
* C100: `SpecifyTetPointMetric` reads at most `numberofpointmtrs` entries of the list it is given
  (`tetgenrsvs.cpp:1542`), and that number is 1 (`tetgenrsvs.cpp:109`), so `RSVS2CFD` gives all points of the geometry
  the metric of the first point (`C100_first`, `C100_violated`); `SpecifyIndividualTetPointMetric` would do it but is
  not called. `RSVSGRIDS` passes the end in place of the count (`tetgenrsvs.cpp:287`), so with a boundary it always
  throws (`C100_grids`).
* C101: the first box of `BuildCutCellDomain` is expanded by 0.1 (`meshprocessing.cpp:531`) and the others are not, so
  with steps of 0.1 or less the first box sticks out of the second and the faces given to the mesher intersect
  (`C101_violated`). `meshtemp` is renumbered in place in each turn (`meshprocessing.cpp:547`) and never reset, so
  indices double with each box and overflow from 29 boxes on (`C101_numbers`). With no step the list of numbers of
  vertices is not cleared (`meshprocessing.cpp:521-526`).
* C104: `ProjectRay` limits the parameter to `minDist` = 0, so a ray of the Voronoi diagram that starts outside of the
  box and does not enter it is ended where it starts: its new vertex is outside of the box and coincides with the
  first one. `C104_violated` has the witness.
* C106: `ReorderOnEdge` only numbers new snaxels and lone ones. When two snaxels between others meet and are removed,
  the others keep their numbers, say 1 and 4, `DetectImpactOnEdge` only compares snaxels whose numbers differ by one,
  and the contact of the two is not found. `OrderOnEdge`, which would count again, is called nowhere.
* C107: The volumes (RemoveSnakeInVolu) or surfaces (RemoveSnakeInSurf) of a removed part are not removed: they stay
  in `snakeconn` with empty lists. `C107_empty_violated` shows it with two tetrahedra.
* C108: `mesh::EdgeOnParentBound` (mesh.cpp:1364-1416) calls `SurfInParent(edges(ii)->index)`, which takes the index
  of a surface and looks at its volumes. In a mesh without volumes the answer is -1 for every edge, so no inner edge
  is listed however the targets of the parents differ (`C108_edges_none`, `C108_edges_violated`). `FindSpawnVerts`
  (RSVSalgorithm.cpp:45-62) would also look up the edges found as surfaces.
* C110: `IdentifyMergEdgeConnec` (snakeengine.cpp:1041-1071) does not ask `memberIsHashParent`, so an edge which was
  taken out of the table of parents (snakeengine.cpp:633, 652, 674) and comes after its siblings starts the search in
  its surface again and every edit there is pushed twice (`C110_once_violated`). With three edges at a snaxel
  (snakeengine.cpp:1203-1214) the walk goes on over the vertex without removing it, so two edges are joined and the
  third is left hanging on a vertex inside the joined edge (`C110_three_violated`).
* C111: `while (tempCount[stepCheck] < 2 && stepCheck <= nTemp)` (snakeengine.cpp:1025-1028) passes over the closing 0
  and reads `tempCount[nTemp + 1]`, past the end, whenever the edge shares no surface with another edge of its parent
  surface (`C111_end`). Only the first shared surface is looked at, because the loop over `stepCheck`
  (snakeengine.cpp:969, 984) is commented out, so chains on the others are missed (`C111_second_violated`).
* C113: `CleanupSnakeConnec` removes degenerate edges with `RemoveIndex`, which clears `vertind`, and later in the
  same turn compares `vertind[0]` and `vertind[1]` of the kept edge of every edit of an edge
  (snakeengine.cpp:785-795).  The edits of the removed edges are among them, with the removed edge as the kept one, so
  the comparison reads an empty vector whenever the pass has removed an edge (C113_collapsed_violated).  With the
  usual libraries the old values are still in memory and are equal, which hides it.
* C115: `CheckSnakeRemovalsEdge` (snakeengine.cpp:1512-1593) has its flags the wrong way round: `cond1vert` and
  `cond1surf` become true when two *different* ends or surfaces are found, yet an edge is reported when both are
  false. It therefore reports collapsed edges with one surface, which by its own comment can be removed, and never
  reports an edge with two different ends and two different surfaces. The effect is on the messages only.
* C116: `VolFaceMap` (postprocessing.cpp:393-461) prints the first end of the previous edge whenever the present edge
  has it. For a face of two edges in the same direction both turns print the same vertex, so the face is `1 1`.
  `SurfFaceMap` (350-375) reads `surfind[1]` of every edge without a test, so an edge with one entry is undefined
  behaviour.
* C117: `PrintMesh` (postprocessing.cpp:621-632) takes a list as long as the mesh for marks and prints as many points
  as the sum of its entries, but `VertDataBlock` (294-304) takes every list that is not empty for indices; its branch
  for marks is never reached. A list of all the indices is therefore read past its end, and marks are searched as
  indices. `PrintSnakeInternalPts` (872-894) passes such a list when every vertex is inside, and an empty list when
  none is inside, which prints all vertices.
* C118: `CheckConnectivity` sets `errTot` to 0 before the third and before the fourth check (snake.cpp:702 and 744),
  so the total printed is that of the last check only and nothing is printed when only the others fail. The first
  check (648) compares `snaxedges` at positions of `snaxs`; with fewer snake edges than snaxels the access throws
  instead of a report.
* C119: `SetEdgeStepLimits` (snake.cpp:902-962) is said to give "consistant real step size limits inside a single
  design variable". Edges which are in several cells get the mean of their limits, which is that of none of the cells;
  and in two dimensions, where the design variables are surfaces, the loops over volumes find nothing and all limits
  are 1 whatever the lengths.
* C121: `SmoothStep_planematching` (snake.cpp:1844-1942) divides the sum of the new distances of a snaxel by 2 because
  each edge is in the list twice, once from each end; so the values of the edges are added. A snaxel with two
  neighbours in the group is moved to the sum of the two distances: three snaxels in one plane with everything around
  them do not stay (`C121_two_edges_violated`). A snaxel with two edges out of the group is in `externalPts` twice;
  values are added at the place which `find` returns, and the last place is written last (`C121_two_links_violated`).
* C122: in `SmoothStep_itersmooth` `succesOrdering` is overwritten by each snaxel (snake.cpp:1963-1967), so a failure
  is forgotten unless it is the last (`C122_ordering_violated`). A snaxel whose step leaves the edge is put at a fifth
  of the spawn distance from the end without a check (2036-2041) and can pass another snaxel (`C122_passes_violated`).
* C123: `MeshTriangulation` (triangulate.cpp:606-768) sets the border mark of no new edge or vertex, and
  `PrepareForUse` sets marks only once for a mesh (`borderIsSet`, mesh.cpp:3061-3064), so that new edges and vertices
  of a surface on the border are not marked (`C123_border_violated`).
* C123: `TightenConnectivity` at the end of `TriangulateAllFaces` and `FlattenBoundaryFaces` (meshprocessing.cpp:76 and 110) sorts the
  volumes of each surface, so which of them comes first (the side which the edges go around) is lost (`C123_sides_violated`).
* C124: `mesh::VertexInVolume` decides from the first point alone whether to flip the side of all surfaces
  (mesh.cpp:515-518): if that point is outside of the mesh and the sign was right, every other point gets a wrong
  number. The normal of a surface is taken from the stored order of the vertices of its first edge
  (mesh.cpp:6585-6590) and not from the order around the surface which `OrientSurfaceVolume` uses, so the stored
  direction of one edge changes the result. With an empty list of points three numbers past its end are read
  (mesh.cpp:517). If the first three corners of a surface are on one line its normal is zero and the surface is passed
  over; a point far outside is then inside.
* C125: `mesh::OrientSurfaceVolume` takes the direction of a block from one surface and the centre of a volume, which
  `CalcCentreVolu` gives twice as far from the origin as it is (C29, mesh.cpp:5011): all surfaces of a tetrahedron
  away from the origin are turned the wrong way round. Where a volume touches itself along an edge the flooding
  compares surfaces which are not next to each other, and the orientation is mixed (mesh.cpp:5115-5147). If all dot
  products of a block are below the tolerance, the block stays as it is. For a mesh of dimension below 3 with
  surfaces, `isFlip[-1]` is read (mesh.cpp:5023).
* C126: `VertexNormal` looks for the first point which makes a triangle with area with the last point, and starts its
  loop there: the triangles before that point are left out though they may have an area (`C126_start_violated`), so
  the normal depends on the point at which the list starts.  If the last point is at the centre no such triangle
  exists and it throws, though other triangles have an area (`C126_centre_violated`).  `NormalShouldFlip` asks for one
  zero and one other volume, but its test (an exclusive or) accepts all pairs of different volumes; for two volumes it
  then throws, outside of the `try` in `vert::Normal`, which returns its other failures as a value
  (`C126_between_violated`).
* C127: `MeshLaplacians` keeps one vector for all vertices and ignores the result of `VertexLaplacianVector`, which
  returns before it clears the vector if the edges cannot be ordered: such a vertex gets the Laplacian of the vertex
  before it. `MeshUnitNormals` ignores the failure of `vert::Normal` too and divides a zero vector by its length.
* C128: `mesh::ForceCloseContainers` (mesh.cpp:4331-4418) takes the surfaces from the edges of the vertices: a surface
  without edges keeps the index of a volume which is gone, a surface with edges in two parts ends with the volume of
  the last one while both list it (only a message is printed), and an edge which lists surface 0 gives the position -1
  to `surfs.elems`.
* C129: `surf::SplitSurface` splits only if the vector of surfaces has room, else it reserves half as much again
  (nothing for one surface) and leaves it to the next pass: a mesh of one surface with two loops and a full vector
  throws at the end of `mesh::OrderEdges` (`C129_capacity_violated`).  It orders the new surface by a recursive call;
  if that call finds the vector full the vector moves and the outer call goes on with its old address
  (`C129_moved_violated`).  Of a surface with three loops only the second part is reported, so `snake::OrderEdges`
  makes no `snaxsurf` for the third (`C129_pairs_violated`).  Both `SwitchIndex` and `SplitSurface` add the new
  surface to the volumes, which list it twice (`C129_twice_violated`).
* C130: `POINTGRIDS` (tetgenrsvs.cpp:358, 370) pushes the position along an edge as a fraction of 1, not of the box:
  `edgeModif[l]` is never multiplied by `upperB[l] - lowerB[l]` nor moved by `lowerB[l]`. For bounds other than 0 and
  1 these points are not along the edges. A `distanceTol` of 0 makes `ceil(1.0 / 0)` an integer (line 352).
  `Points2Mesh` (mesh.cpp:6293-6314) with `nProp` 1 or 2 passes its check and reads past the end of the list.
* C131: `CalculateSnakeVelFast` (triangulate.cpp:87-102) sets the velocity of a frozen snax to 0, releases it and then
  sets the velocity of every snax to 4, so a snax which has arrived at the border is sent on past the end of its edge.
* C132: `FlattenBoundaryFaces` (meshprocessing.cpp:15-80) takes a face as flat only if its corners have one coordinate
  in common (line 53), so plane faces across no axis are replaced by triangles too. The spokes and the centre it makes
  on the border are not marked `isBorder`.
* C133: A volume whose surfaces all vanish when their edges collapse is not removed at the end of a pass of
  CleanupSnakeConnec (snakeengine.cpp:782-886): vertices, edges and surfaces left bare are looked for, volumes are
  not.
* C134: `SwitchIndex` type 2 does not give the new edge the ends of the old one although the vertices there then list
  it (mesh.cpp:2059-2069), and tests `subList[ii] != -1 || is3DMesh` (mesh.cpp:2074), so that with volumes a surface 0
  in the list of the edge is looked up and throws.
* C135: `RemoveSingularConnectors` counts entries. When two edges are merged, a surface which lists both lists one of
  them twice and is kept with its old number of entries. When two faces are merged, the one kept lists each edge
  twice, because `SwitchIndex` appends the edges of the old face. In a mesh with volumes, a degenerate face whose
  second edge lists surface 0 makes the call throw.
* C136: The collapse of the short edges of a mesh (`tetgenrsvs.cpp:828-835`) can leave a surface whose sides do not
  close: when two of its sides are merged and a third entry keeps it above the limit, the merged side is in the list
  once after tightening although the outline runs along it twice (`C136_open_violated`). It also throws on a prism
  with a short edge in each of its triangles, as three surfaces are left, although they bound a volume
  (`C136_prism_violated`).
* C137: `snake::SnaxAlmostImpactDetection` (`snake.cpp:2415-2486`) puts a snaxel on a vertex although another snaxel
  is between them on the edge, after which the distances are not in the order of the numbers on the edge
  (`C137_order_violated`; a comment in the code, 2464-2465, says so). With a range over one half it decides the end of
  the edge from the distance to the first end only, and puts a snaxel which closes on the second end on the first
  (`C137_range_violated`).
* C138: As C37, on the whole snake: on an edge with several snaxels, the arrivals of those which travel to the vertex
  with the lower index are tested against the wrong order number (`C37_backward_violated`).
* C139: `TriarrayToMesh` reads `celltarg[1]` of every triangle,
  and the triangles of the snake inside one cell have one cell only (`C139_inside_violated`). For triangles on the
  outside of the grid the cell comes first whichever side it is on (`C139_outside_violated`).
