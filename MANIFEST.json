{
 "claims": [
  {
   "property": "C01",
   "status": "proved",
   "theorems": [
    "RSVS.Props.C01_find_exact",
    "RSVS.Props.C01_find_notfound",
    "RSVS.Props.C01_isearch",
    "RSVS.Props.C01_find_exact_snake"
   ],
   "note": "proved for every history and table order, mesh and snake containers"
  },
  {
   "property": "C02",
   "status": "proved",
   "theorems": [
    "RSVS.Props.C02_max_index",
    "RSVS.Props.C02_next_index_unused",
    "RSVS.Props.C02_prepare_sets"
   ],
   "note": "proved for every history"
  },
  {
   "property": "C03",
   "status": "partial",
   "theorems": [
    "RSVS.Props.C03_ready_violated",
    "RSVS.Props.C03_ready_partial"
   ],
   "note": "violated by remove (ready flag kept); proved for histories without a removal since the last preparation or check"
  },
  {
   "property": "C04",
   "status": "partial",
   "theorems": [
    "RSVS.Props.C04_parent_violated",
    "RSVS.Props.C04_old_parent_throws_violated",
    "RSVS.Props.C04_parent_partial"
   ],
   "note": "violated when a prepared container is read or initialised again; proved otherwise"
  },
  {
   "property": "C05",
   "status": "proved",
   "theorems": [
    "RSVS.Props.C05_remove_exact",
    "RSVS.Props.C05_remove_mem",
    "RSVS.Props.C05_lookup_after"
   ],
   "note": "proved"
  },
  {
   "property": "C06",
   "status": "partial",
   "theorems": [
    "RSVS.Props.C06_after_generate",
    "RSVS.Props.C06_flag_violated",
    "RSVS.Props.C06_flag_write_violated",
    "RSVS.Props.C06_flag_partial",
    "RSVS.Props.C06_safe"
   ],
   "note": "proved after GenerateHash and for HashedVectorSafe; the flag of HashedVector is violated by direct writes"
  },
  {
   "property": "C07",
   "status": "partial",
   "theorems": [
    "RSVS.Props.C07_stale_violated",
    "RSVS.Props.C07_stale_faults_violated",
    "RSVS.Props.C07_find_sub_list_partial",
    "RSVS.Props.C07_find_sub_list_const_partial"
   ],
   "note": "violated for a table filled from another list; proved for empty or matching tables"
  },
  {
   "property": "C08",
   "status": "partial",
   "theorems": [
    "RSVS.Props.C08_marks",
    "RSVS.Props.C08_modif_indices",
    "RSVS.Props.C08_modif_log_violated",
    "RSVS.Props.C08_modif_log_partial"
   ],
   "note": "marks and index list proved; ReturnModifLog violated (it reports index != 0)"
  },
  {
   "property": "C09",
   "status": "partial",
   "theorems": [
    "RSVS.Props.C09_erase_key_pair_violated",
    "RSVS.Props.C09_erase_key_pair_partial",
    "RSVS.Props.C09_dehash_parent",
    "RSVS.Props.C09_erase_absent_violated"
   ],
   "note": "DeHashParent proved; EraseKeyPair violated (table passed by value)"
  },
  {
   "property": "C10",
   "status": "proved",
   "theorems": [
    "RSVS.Props.C10_change_indices"
   ],
   "note": "proved"
  },
  {
   "property": "C11",
   "status": "partial",
   "theorems": [
    "RSVS.Props.C11_concatenate_partial",
    "RSVS.Props.C11_concatenate_sound",
    "RSVS.Props.C11_zero_reference_violated"
   ],
   "note": "violated when the second mesh lists 0 as an edge or vertex (the 0 is shifted to the largest index of the first mesh); proved otherwise, and sound meshes give a sound mesh"
  },
  {
   "property": "C12",
   "status": "partial",
   "theorems": [
    "RSVS.Props.C12_merge_vertex_partial",
    "RSVS.Props.C12_loop_violated",
    "RSVS.Props.C12_chain_violated"
   ],
   "note": "violated for an edge that joins the merged vertex to itself, also reached by two merges in a row; proved otherwise"
  },
  {
   "property": "C13",
   "status": "proved",
   "theorems": [
    "RSVS.Props.C13_detach_edge",
    "RSVS.Props.C13_detach_surf",
    "RSVS.Props.C13_detach_volu"
   ],
   "note": "proved for edges, surfaces and volumes"
  },
  {
   "property": "C14",
   "status": "proved",
   "theorems": [
    "RSVS.Props.C14_test_connectivity"
   ],
   "note": "proved"
  },
  {
   "property": "C15",
   "status": "partial",
   "theorems": [
    "RSVS.Props.C15_two_way_test_partial",
    "RSVS.Props.C15_no_one_way_partial",
    "RSVS.Props.C15_one_way_violated",
    "RSVS.Props.C15_throws_violated"
   ],
   "note": "violated: the count of one-way references is printed but not returned, and the message can throw; both totals are characterised"
  },
  {
   "property": "C16",
   "status": "partial",
   "theorems": [
    "RSVS.Props.C16_crop_partial",
    "RSVS.Props.C16_crop_violated",
    "RSVS.Props.C16_crop_whole_partial"
   ],
   "note": "Violated when no 0 is among the volumes collected (one volume is not detached); proved otherwise for the body of Crop, and for the whole of Crop, the removal of degenerate elements included, if no edge lists surface 0."
  },
  {
   "property": "C17",
   "status": "proved",
   "theorems": [
    "RSVS.Props.C17_reorder",
    "RSVS.Props.C17_reorder_incidence"
   ],
   "note": "proved for every order of sorting"
  },
  {
   "property": "C18",
   "status": "partial",
   "theorems": [
    "RSVS.Props.C18_structure_partial",
    "RSVS.Props.C18_round_trip_partial",
    "RSVS.Props.C18_violated"
   ],
   "note": "Violated for values needing more than 16 decimals (C18_violated). Proved: structure for every mesh and every following text with values within 10^-16; exact values if multiples of 10^-16 or at least 1/2 in size. White space which follows is swallowed."
  },
  {
   "property": "C19",
   "status": "proved",
   "theorems": [
    "RSVS.Props.C19_tighten",
    "RSVS.Props.C19_tighten_throws"
   ],
   "note": "proved; edges with more than two vertices are refused"
  },
  {
   "property": "C20",
   "status": "proved",
   "theorems": [
    "RSVS.Props.C20_vertex_blocks",
    "RSVS.Props.C20_vertex_blocks_preset",
    "RSVS.Props.C20_wrong_length"
   ],
   "note": "also with labels given in advance and for the error on a wrong length"
  },
  {
   "property": "C21",
   "status": "partial",
   "theorems": [
    "RSVS.Props.C21_volume_blocks",
    "RSVS.Props.C21_volume_blocks_preset_partial",
    "RSVS.Props.C21_label_reused_violated"
   ],
   "note": "proved without labels given in advance; with them the new labels can collide with the given ones (violated)"
  },
  {
   "property": "C22",
   "status": "proved",
   "theorems": [
    "RSVS.Props.C22_borders_3d",
    "RSVS.Props.C22_borders_2d",
    "RSVS.Props.C22_previous_marks",
    "RSVS.Props.C22_idempotent",
    "RSVS.Props.C22_edge_without_surface"
   ],
   "note": "3D and 2D, success and exact marks for every sound mesh (3D: no edge lists the surface 0, otherwise it throws, proved), independence of stale marks, idempotence."
  },
  {
   "property": "C23",
   "status": "partial",
   "theorems": [
    "RSVS.Props.C23_loop",
    "RSVS.Props.C23_several_loops",
    "RSVS.Props.C23_ordered_is_walk_partial",
    "RSVS.Props.C23_surface",
    "RSVS.Props.C23_surface_any_partial",
    "RSVS.Props.C23_vertex",
    "RSVS.Props.C23_open_violated",
    "RSVS.Props.C23_no_errout_violated",
    "RSVS.Props.C23_past_end_violated",
    "RSVS.Props.C23_order_dependent_violated"
   ],
   "note": "Proved: a list which can be arranged in a simple loop is returned in such an order with flag ordered, for all hash orders (also for surfaces and vertices of a mesh); several disjoint loops give the complete first loop and the right flag; with errout any list gives an error or a walk of different edges, all of them if ordered. Violated: an open path is accepted as ordered (closing not tested); without errout a path is reported as ordered though consecutive edges do not touch, and disjoint edges read past the end of the table or are called ordered, depending on the hash order."
  },
  {
   "property": "C24",
   "status": "proved",
   "theorems": [
    "RSVS.Props.C24_direction",
    "RSVS.Props.C24_antisymmetric",
    "RSVS.Props.C24_old_new",
    "RSVS.Props.C24_relative",
    "RSVS.Props.C24_error_iff"
   ],
   "note": "Sign -1 if b directly follows a in the cycle, 1 if it directly precedes it (lists of three or more different entries); antisymmetric under swap and reversal for any two entries; old and new versions equal on all inputs; the error exactly when the number of occurrences is not two."
  },
  {
   "property": "C25",
   "status": "partial",
   "theorems": [
    "RSVS.Props.C25_edge",
    "RSVS.Props.C25_surface_partial",
    "RSVS.Props.C25_outside_violated"
   ],
   "note": "EdgeFromVerts exact in every sound mesh. SurfFromEdges exact for edges without the outside marker 0; violated on the border, where surface 0 is looked up."
  },
  {
   "property": "C26",
   "status": "partial",
   "theorems": [
    "RSVS.Props.C26_scale",
    "RSVS.Props.C26_roundTrip_partial",
    "RSVS.Props.C26_degenerate_violated",
    "RSVS.Props.C26_family_partial",
    "RSVS.Props.C26_snake_partial",
    "RSVS.Props.C26_snake_roundTrip_partial",
    "RSVS.Props.C26_diamond_violated",
    "RSVS.Props.C26_cycle_violated"
   ],
   "note": "Box after Scale proved for all meshes with vertices; round trips for non-degenerate second domains and families without diamonds or cycles; the excluded cases are shown to fail."
  },
  {
   "property": "C27",
   "status": "partial",
   "theorems": [
    "RSVS.Props.C27_perpendicular",
    "RSVS.Props.C27_exchange",
    "RSVS.Props.C27_translate",
    "RSVS.Props.C27_zero_iff",
    "RSVS.Props.C27_distance_zero_iff",
    "RSVS.Props.C27_distance_size",
    "RSVS.Props.C27_distance_scale_violated"
   ],
   "note": "All parts proved; the value is not a distance but a multiple of it, shown separately."
  },
  {
   "property": "C28",
   "status": "partial",
   "theorems": [
    "RSVS.Props.C28_one_partial",
    "RSVS.Props.C28_violated"
   ],
   "note": "Undefined behaviour for every list of two points or more; right for one."
  },
  {
   "property": "C29",
   "status": "partial",
   "theorems": [
    "RSVS.Props.C29_twice_partial",
    "RSVS.Props.C29_half_inside_partial",
    "RSVS.Props.C29_outside_violated",
    "RSVS.Props.C29_translate_violated"
   ],
   "note": "Twice the weighted mean, so outside of the bounds away from the origin."
  },
  {
   "property": "C30",
   "status": "proved",
   "theorems": [
    "RSVS.Props.C30_sizes"
   ],
   "note": "All sizes, also two-dimensional."
  },
  {
   "property": "C31",
   "status": "partial",
   "theorems": [
    "RSVS.Props.C31_incidence_partial",
    "RSVS.Props.C31_passes_test_partial",
    "RSVS.Props.C31_faces_ordered_partial",
    "RSVS.Props.C31_large_violated"
   ],
   "note": "For grids with up to 2^24 vertices: counts, soundness, the two-way test passes, faces are loops. Larger grids: violated, float division (voxel.cpp:128, 423)."
  },
  {
   "property": "C32",
   "status": "partial",
   "theorems": [
    "RSVS.Props.C32_boundary_partial",
    "RSVS.Props.C32_large_violated"
   ],
   "note": "For grids with up to 2^24 vertices, in terms of coordinates; false for larger ones (C32_large_violated): a face of the boundary has a vertex with wrong coordinates, because a float is used in the division."
  },
  {
   "property": "C33",
   "status": "proved",
   "theorems": [
    "RSVS.Props.C33_update_distance",
    "RSVS.Props.C33_update_distance_vec"
   ],
   "note": "proved for both overloads"
  },
  {
   "property": "C34",
   "status": "partial",
   "theorems": [
    "RSVS.Props.C34_three_snaxels_violated",
    "RSVS.Props.C34_same_step_partial",
    "RSVS.Props.C34_two_snaxels_partial"
   ],
   "note": "violated with three snaxels on an edge (each snaxel has its own step); proved for pairs with equal steps, in particular for edges with two snaxels"
  },
  {
   "property": "C35",
   "status": "partial",
   "theorems": [
    "RSVS.Props.C35_negative_velocity_violated",
    "RSVS.Props.C35_positive_velocity_partial"
   ],
   "note": "violated for negative velocities (fabs of the comparison); proved for positive ones"
  },
  {
   "property": "C36",
   "status": "proved",
   "theorems": [
    "RSVS.Props.C36_flip"
   ],
   "note": "proved"
  },
  {
   "property": "C37",
   "status": "partial",
   "theorems": [
    "RSVS.Props.C37_backward_violated",
    "RSVS.Props.C37_backward_wrong_report_violated",
    "RSVS.Props.C37_forward_partial",
    "RSVS.Props.C37_contacts_partial"
   ],
   "note": "violated for snaxels travelling towards the lower-index vertex; proved for the other direction, and contacts proved for both"
  },
  {
   "property": "C38",
   "status": "partial",
   "theorems": [
    "RSVS.Props.C38_two_crowded_edges_violated",
    "RSVS.Props.C38_coincident_violated",
    "RSVS.Props.C38_single_violated",
    "RSVS.Props.C38_one_crowded_edge_partial"
   ],
   "note": "violated with two crowded edges (table never cleared), coincident snaxels and lone snaxels; proved for one crowded edge with distinct positions"
  },
  {
   "property": "C39",
   "status": "proved",
   "theorems": [
    "RSVS.Props.C39_validate_distance",
    "RSVS.Props.C39_off_edge"
   ],
   "note": "proved"
  },
  {
   "property": "C40",
   "status": "proved",
   "theorems": [
    "RSVS.Props.C40_join",
    "RSVS.Props.C40_join_stated",
    "RSVS.Props.C40_other_mesh"
   ],
   "note": "Proved for all internal vectors of equal length and flip states, whether independence is computed or stated; snakes on different meshes throw."
  },
  {
   "property": "C41",
   "status": "proved",
   "theorems": [
    "RSVS.Props.C41_merge"
   ],
   "note": "Proved for the reports of SnaxImpactDetection followed by any arrivals, for all snakes in step with sound connectivity without loops, for any order of the hash table; says what each snaxel is merged into."
  },
  {
   "property": "C42",
   "status": "partial",
   "theorems": [
    "RSVS.Props.C42_structure_partial",
    "RSVS.Props.C42_round_trip_partial",
    "RSVS.Props.C42_violated"
   ],
   "note": "Violated (six decimals). Proved: structure for every snake, values within 10^-6; exact for six-decimal values."
  },
  {
   "property": "C43",
   "status": "partial",
   "theorems": [
    "RSVS.Props.C43_noexec_partial",
    "RSVS.Props.C43_tests",
    "RSVS.Props.C43_tests_only",
    "RSVS.Props.C43_rejected",
    "RSVS.Props.C43_nothing",
    "RSVS.Props.C43_failed",
    "RSVS.Props.C43_executes",
    "RSVS.Props.C43_violated"
   ],
   "note": "--noexec with --interactive is accepted and executes (witness proved); every other part is proved for all combinations of options. Reading the parameters is abstracted to its outcome."
  },
  {
   "property": "C44",
   "status": "partial",
   "theorems": [
    "RSVS.Props.C44_tree_partial",
    "RSVS.Props.C44_later_partial",
    "RSVS.Props.C44_nested",
    "RSVS.Props.C44_flat_partial",
    "RSVS.Props.C44_readflat_partial",
    "RSVS.Props.C44_flat_violated",
    "RSVS.Props.C44_empty_violated",
    "RSVS.Props.C44_strings_partial",
    "RSVS.Props.C44_strings_fail",
    "RSVS.Props.C44_strings_violated"
   ],
   "note": "Partial: proved for configurations without empty containers and without members named 0 (index 0 would make an array of them), and for updates mentioning existing values only. Missing/false: flat files with gaps in arrays (element becomes null), empty arrays, unknown non-pointer keys (exception). from_json is not modelled."
  },
  {
   "property": "C45",
   "status": "partial",
   "theorems": [
    "RSVS.Props.C45_partial",
    "RSVS.Props.C45_outdir_partial",
    "RSVS.Props.C45_violated",
    "RSVS.Props.C45_default_violated"
   ],
   "note": "Violated for every configuration with a path pattern (default included); proved without patterns, and in general for the output directory, the inputs and the patterns."
  },
  {
   "property": "C46",
   "status": "partial",
   "theorems": [
    "RSVS.Props.C46_cyclic_partial",
    "RSVS.Props.C46_trailing_partial",
    "RSVS.Props.C46_violated"
   ],
   "note": "Violated for files ending with white space and more cells than values. Proved: cyclic assignment in all other cases, and what happens in that one."
  },
  {
   "property": "C47",
   "status": "proved",
   "theorems": [
    "RSVS.Props.C47_priority",
    "RSVS.Props.C47_other"
   ],
   "note": "Proved for all combinations; for a file ending in white space the values are those of C46_trailing_partial."
  },
  {
   "property": "C48",
   "status": "proved",
   "theorems": [
    "RSVS.Props.C48_mapping",
    "RSVS.Props.C48_flat"
   ],
   "note": "For all meshes whose cells refer to elements of the mesh and use at least one vertex, all box counts and all non-zero extents: the mapping exists, each entry is the index of a cell of the same box which is mapped to itself, and entries agree exactly for cells of the same box (exact arithmetic). A zero extent is shown to be undefined behaviour."
  },
  {
   "property": "C49",
   "status": "partial",
   "theorems": [
    "RSVS.Props.C49_kkt_partial",
    "RSVS.Props.C49_inverse_partial",
    "RSVS.Props.C49_stationary_partial",
    "RSVS.Props.C49_minimises",
    "RSVS.Props.C49_flag_partial",
    "RSVS.Props.C49_fallback",
    "RSVS.Props.C49_violated"
   ],
   "note": "KKT conditions proved for multipliers within the limit; the flag does not report limited multipliers (C49_violated). Eigen solvers are parameters with their specification."
  },
  {
   "property": "C50",
   "status": "partial",
   "theorems": [
    "RSVS.Props.C50_limit_partial",
    "RSVS.Props.C50_bounds_partial",
    "RSVS.Props.C50_violated",
    "RSVS.Props.C50_default"
   ],
   "note": "for limits that are not negative; negative limits violate it"
  },
  {
   "property": "C51",
   "status": "partial",
   "theorems": [
    "RSVS.Props.C51_grad",
    "RSVS.Props.C51_hess_partial",
    "RSVS.Props.C51_array",
    "RSVS.Props.C51_ragged",
    "RSVS.Props.C51_symm",
    "RSVS.Props.C51_violated"
   ],
   "note": "the derivatives are real derivatives (HasFDerivAt) of the composed functions; needs at least one intermediate value, the code divides by zero without"
  },
  {
   "property": "C52",
   "status": "partial",
   "theorems": [
    "RSVS.Props.C52_zero",
    "RSVS.Props.C52_odd",
    "RSVS.Props.C52_order_partial",
    "RSVS.Props.C52_near_partial",
    "RSVS.Props.C52_between",
    "RSVS.Props.C52_violated"
   ],
   "note": "order preserving above machine epsilon and, for positive inputs, below 1e-16; odd; between the two the sign is wrong"
  },
  {
   "property": "C53",
   "status": "proved",
   "theorems": [
    "RSVS.Props.C53_symmetric",
    "RSVS.Props.C53_contact",
    "RSVS.Props.C53_first_meeting",
    "RSVS.Props.C53_no_contact"
   ],
   "note": "proved"
  },
  {
   "property": "C54",
   "status": "partial",
   "theorems": [
    "RSVS.Props.C54_snake_flood_partial",
    "RSVS.Props.C54_stops_early_violated",
    "RSVS.Props.C54_never_met_violated"
   ],
   "note": "violated: the loop stops when all snaxels are met and leaves joined vertices unlabelled; termination, no crossing and completeness of all blocks but the last are proved"
  },
  {
   "property": "C55",
   "status": "partial",
   "theorems": [
    "RSVS.Props.C55_limits_inverted_violated",
    "RSVS.Props.C55_within_partial"
   ],
   "note": "violated (limits inverted); the result is always one of the two limits"
  },
  {
   "property": "C56",
   "status": "partial",
   "theorems": [
    "RSVS.Props.C56_documented",
    "RSVS.Props.C56_final_partial",
    "RSVS.Props.C56_level_partial",
    "RSVS.Props.C56_violated"
   ],
   "note": "Documented levels proved; the exact set of pairs of levels for which the final outputs cover those of a step is proved, and two violating pairs."
  },
  {
   "property": "C57",
   "status": "partial",
   "theorems": [
    "RSVS.Props.C57_map_partial",
    "RSVS.Props.C57_sum_partial",
    "RSVS.Props.C57_remove_violated",
    "RSVS.Props.C57_replace_violated",
    "RSVS.Props.C57_plain_violated",
    "RSVS.Props.C57_missing_violated",
    "RSVS.Props.C57_child_violated"
   ],
   "note": "proved for programs whose parents have complete maps and outlive their children; destroying a parent, adding one without a map, naming missing cells and AddChild for a first parent violate it"
  },
  {
   "property": "C58",
   "status": "partial",
   "theorems": [
    "RSVS.Props.C58_marker_partial",
    "RSVS.Props.C58_last_partial",
    "RSVS.Props.C58_none_partial",
    "RSVS.Props.C58_forms",
    "RSVS.Props.C58_violated"
   ],
   "note": "Proved for templates with the marker on a line which ends; exact behaviour otherwise (an additional new line), which violates the claim."
  },
  {
   "property": "C59",
   "status": "proved",
   "theorems": [
    "RSVS.Props.C59_member_is_hash_parent",
    "RSVS.Props.C59_after_dehash"
   ],
   "note": "proved"
  },
  {
   "property": "C60",
   "status": "proved",
   "theorems": [
    "RSVS.Props.C60_pair_map"
   ],
   "note": "proved"
  },
  {
   "property": "C61",
   "status": "proved",
   "theorems": [
    "RSVS.Props.C61_time_step"
   ],
   "note": "proved"
  },
  {
   "property": "C62",
   "status": "partial",
   "theorems": [
    "RSVS.Props.C62_off_border_partial",
    "RSVS.Props.C62_unknown_outer",
    "RSVS.Props.C62_after_borders",
    "RSVS.Props.C62_nonconst_violated"
   ],
   "note": "The const overload (the one that is called) is exact. The overload that is not const calls itself without end (violated). The 2D version is not modelled."
  },
  {
   "property": "C63",
   "status": "partial",
   "theorems": [
    "RSVS.Props.C63_orderedVerts_partial",
    "RSVS.Props.C63_two_edges_violated",
    "RSVS.Props.C63_empty"
   ],
   "note": "Exact for loops of at least three edges; violated for two edges of the same direction (a vertex is listed twice, the other not); an empty list is undefined."
  },
  {
   "property": "C64",
   "status": "partial",
   "theorems": [
    "RSVS.Props.C64_connVert_partial",
    "RSVS.Props.C64_two_edges_violated",
    "RSVS.Props.C64_short"
   ],
   "note": "Exact for loops of at least three edges; violated for two edges of opposite direction; fewer than two edges are undefined."
  },
  {
   "property": "C65",
   "status": "partial",
   "theorems": [
    "RSVS.Props.C65_surface",
    "RSVS.Props.C65_surface_inside",
    "RSVS.Props.C65_volume_inside",
    "RSVS.Props.C65_volume_partial",
    "RSVS.Props.C65_truncated_violated"
   ],
   "note": "Surfaces proved; volumes proved for whole perimeters, bounds and translation for all; truncation shown to break the mean."
  },
  {
   "property": "C66",
   "status": "proved",
   "theorems": [
    "RSVS.Props.C66_translate",
    "RSVS.Props.C66_reverse",
    "RSVS.Props.C66_planar",
    "RSVS.Props.C66_triangle"
   ],
   "note": "Proved for Euclidean lengths over any ordered field."
  },
  {
   "property": "C67",
   "status": "partial",
   "theorems": [
    "RSVS.Props.C67_su2_partial",
    "RSVS.Props.C67_su2_first_partial",
    "RSVS.Props.C67_engine_violated"
   ],
   "note": "Proved for the engine rsvs and for lists without snake exports; fails otherwise."
  },
  {
   "property": "C68",
   "status": "partial",
   "theorems": [
    "RSVS.Props.C68_step_partial",
    "RSVS.Props.C68_made_partial",
    "RSVS.Props.C68_negative_violated"
   ],
   "note": "Proved without negative factors and without normalising the zero vector; a negative factor breaks it."
  },
  {
   "property": "C69",
   "status": "partial",
   "theorems": [
    "RSVS.Props.C69_vertices_partial",
    "RSVS.Props.C69_large_violated",
    "RSVS.Props.C69_edges_partial",
    "RSVS.Props.C69_cells_partial"
   ],
   "note": "For grids with up to 2^24 vertices; false for larger ones (C69_large_violated): two vertices have the same coordinates."
  },
  {
   "property": "C70",
   "status": "proved",
   "theorems": [
    "RSVS.Props.C70_lists",
    "RSVS.Props.C70_unique",
    "RSVS.Props.C70_sparse",
    "RSVS.Props.C70_same"
   ],
   "note": "Exact lists and coefficients of the active sub-problem, sparse and full."
  },
  {
   "property": "C71",
   "status": "partial",
   "theorems": [
    "RSVS.Props.C71_store",
    "RSVS.Props.C71_kkt_partial",
    "RSVS.Props.C71_none",
    "RSVS.Props.C71_sparse_partial",
    "RSVS.Props.C71_violated"
   ],
   "note": "KKT in full indices for multipliers within the limit; storage and termination for all inputs; sparse version reads isLarge uninitialised when a decomposition fails"
  },
  {
   "property": "C72",
   "status": "partial",
   "theorems": [
    "RSVS.Props.C72_scaled_partial",
    "RSVS.Props.C72_violated"
   ],
   "note": "the column is minus the multiplier times the derivative"
  },
  {
   "property": "C73",
   "status": "partial",
   "theorems": [
    "RSVS.Props.C73_sums_partial",
    "RSVS.Props.C73_range",
    "RSVS.Props.C73_violated"
   ],
   "note": "up to 2^31 coefficients; the int key overflows beyond"
  },
  {
   "property": "C74",
   "status": "proved",
   "theorems": [
    "RSVS.Props.C74_value",
    "RSVS.Props.C74_grad",
    "RSVS.Props.C74_hess",
    "RSVS.Props.C74_edge_value",
    "RSVS.Props.C74_edge_grad",
    "RSVS.Props.C74_edge_hess",
    "RSVS.Props.C74_calc",
    "RSVS.Props.C74_edge_calc",
    "RSVS.Props.C74_differences"
   ],
   "note": "The value, gradient and Hessian are proved against Mathlib's derivative over the reals; the sign of the value is minus that of the usual triple product."
  },
  {
   "property": "C75",
   "status": "partial",
   "theorems": [
    "RSVS.Props.C75_value",
    "RSVS.Props.C75_grad_partial",
    "RSVS.Props.C75_hess_partial",
    "RSVS.Props.C75_exact_partial",
    "RSVS.Props.C75_shortened",
    "RSVS.Props.C75_violated"
   ],
   "note": "C75_violated shows that the gradient as called is not that of the area for any positive eps; C75_shortened gives the exact relation."
  },
  {
   "property": "C76",
   "status": "partial",
   "theorems": [
    "RSVS.Props.C76_value",
    "RSVS.Props.C76_grad_partial",
    "RSVS.Props.C76_hess_partial",
    "RSVS.Props.C76_calc_partial"
   ],
   "note": "At coincident points the length has no derivative and the code divides by zero."
  },
  {
   "property": "C77",
   "status": "partial",
   "theorems": [
    "RSVS.Props.C77_few",
    "RSVS.Props.C77_partial",
    "RSVS.Props.C77_violated"
   ],
   "note": "For eps 0. C77_violated shows a polygon for which any positive eps gives a wrong Jacobian; fewer than four vertices throw (C77_few)."
  },
  {
   "property": "C78",
   "status": "partial",
   "theorems": [
    "RSVS.Props.C78_partial",
    "RSVS.Props.C78_violated"
   ],
   "note": "The blocks of one vertex are proved for every polygon with eps 0; C78_violated gives the wrong entry for a square, for every eps."
  },
  {
   "property": "C79",
   "status": "partial",
   "theorems": [
    "RSVS.Props.C79_partial",
    "RSVS.Props.C79_missing_partial",
    "RSVS.Props.C79_violated"
   ],
   "note": "The value, gradient and Hessian computed for a triangle are derivatives of its volume and area along the edges of the snaxels; the Hessian lacks the curvature of moving centres, stated exactly in C79_missing_partial and refuted by C79_violated. The length regularisation of the centre is 0 and the area is not 0."
  },
  {
   "property": "C80",
   "status": "partial",
   "theorems": [
    "RSVS.Props.C80_partial",
    "RSVS.Props.C80_inactive",
    "RSVS.Props.C80_violated"
   ],
   "note": "Proved for full storage: objective, constraints, gradient and Jacobian always, Hessians without moving centres; inactive variables have no effect. In sparse storage numbers below the tolerance are dropped (C80_violated)."
  },
  {
   "property": "C81",
   "status": "proved",
   "theorems": [
    "RSVS.Props.C81_fan",
    "RSVS.Props.C81_volume"
   ],
   "note": "Proved for all polygons: TriangulateContainer returns exactly if every polygon has three points, what it pushes is one fan for each polygon with a centre of its own, indices stay distinct, the boundary of the triangles is that of the polygons and the volume of closed polygons does not depend on the origin. GetMaxIndex is taken to be the largest index, as it is after PrepareForUse."
  },
  {
   "property": "C82",
   "status": "proved",
   "theorems": [
    "RSVS.Props.C82_maintain",
    "RSVS.Props.C82_run"
   ],
   "note": "Proved for every single step and, as an invariant, for all sequences of steps. That a surface not marked as modified keeps its polygon is a hypothesis on the snake; the pieces pushed by BuildTriSurfGridSnakeIntersect are an input with distinct indices. Coordinates of centres are computed elsewhere (C77)."
  },
  {
   "property": "C85",
   "status": "partial",
   "theorems": [
    "RSVS.Props.C85_plane_partial",
    "RSVS.Props.C85_solid_partial",
    "RSVS.Props.C85_solid_violated",
    "RSVS.Props.C85_exchange_violated"
   ],
   "note": "plane: proved for all sound meshes without loose parts and mappings to cells mapped to themselves; space: proved when no surface is inside a merged volume, undefined behaviour otherwise (violated); the final PrepareForUse is not modelled"
  },
  {
   "property": "C86",
   "status": "partial",
   "theorems": [
    "RSVS.Props.C86_family_partial",
    "RSVS.Props.C86_copy_violated"
   ],
   "note": "proved for all sequences of operations without copies of meshes; copies violate it"
  },
  {
   "property": "C87",
   "status": "proved",
   "theorems": [
    "RSVS.Props.C87_join",
    "RSVS.Props.C87_merge"
   ],
   "note": "Proved for Concatenate after MakeCompatible and for MergeAllContactVertices."
  },
  {
   "property": "C83",
   "status": "partial",
   "theorems": [
    "RSVS.Props.C83_direction",
    "RSVS.Props.C83_vertex_partial",
    "RSVS.Props.C83_vertex_violated"
   ],
   "note": "The walk from a snaxel is proved for all edges. The walk from a vertex is proved for edges with at most one snaxel; with several the code takes the same one from both ends (proved violated)."
  },
  {
   "property": "C84",
   "status": "partial",
   "theorems": [
    "RSVS.Props.C84_pieces_partial",
    "RSVS.Props.C84_ends"
   ],
   "note": "Proved: the walk ends for all input; every piece runs along linked points, the snaxel edges on surfaces of the parents are used exactly once, pieces are numbered from 1. Missing: pieces are closed and oriented."
  },
  {
   "property": "C88",
   "status": "proved",
   "theorems": [
    "RSVS.Props.C88_variables",
    "RSVS.Props.C88_velocities"
   ],
   "note": "Proved for all snakes whose layers agree and whose connectivity is sound."
  },
  {
   "property": "C89",
   "status": "partial",
   "theorems": [
    "RSVS.Props.C89_gradient_partial",
    "RSVS.Props.C89_range",
    "RSVS.Props.C89_sized",
    "RSVS.Props.C89_violated"
   ],
   "note": "Proved for dense matrices, with the sizes set by BuildMathArrays; with many variables the dense Jacobian of an earlier iteration is read out of range (violated)."
  },
  {
   "property": "C90",
   "status": "proved",
   "theorems": [
    "RSVS.Props.C90_space",
    "RSVS.Props.C90_plane",
    "RSVS.Props.C90_joined",
    "RSVS.Props.C90_border"
   ],
   "note": "space, plane, joining and border vertices. Joining at a vertex that is already inside leaves that vertex alone inside (C90_joined, last part; a consequence of Concatenate taking the intersection)."
  },
  {
   "property": "C91",
   "status": "partial",
   "theorems": [
    "RSVS.Props.C91_arrived_partial",
    "RSVS.Props.C91_violated"
   ],
   "note": "status of vertices proved when some vertex inside is not left and none reached is already inside; C91_violated: when all vertices inside are left at once, Concatenate finds the snakes independent and the whole mesh is taken to be inside. The final PrepareForUse is not modelled."
  },
  {
   "property": "C92",
   "status": "proved",
   "theorems": [
    "RSVS.Props.C92_groups",
    "RSVS.Props.C92_merge",
    "RSVS.Props.C92_close",
    "RSVS.Props.C92_snaxels",
    "RSVS.Props.C92_snake"
   ],
   "note": "vertices have three coordinates, edges two different ends and each vertex lists an edge once (NoLoops, ListedOnce); the tolerance for snaxels is at most one half"
  },
  {
   "property": "C93",
   "status": "partial",
   "theorems": [
    "RSVS.Props.C93_search_partial",
    "RSVS.Props.C93_violated",
    "RSVS.Props.C93_holes_partial"
   ],
   "note": "C93_violated: indices of edges are used as positions (meshprocessing.cpp:423), so from an uncertain vertex the search goes on elsewhere, misses neighbours or throws. Proved: it ends, gives only certain vertices inside and is right from certain vertices; the list of points of a snake that is not flipped."
  },
  {
   "property": "C94",
   "status": "partial",
   "theorems": [
    "RSVS.Props.C94_step",
    "RSVS.Props.C94_lengths_partial",
    "RSVS.Props.C94_move",
    "RSVS.Props.C94_set",
    "RSVS.Props.C94_violated"
   ],
   "note": "Partial: the full statement is false (C94_violated): LinearTransform leaves stored lengths and the copy constructor of edge drops them while the flag of the mesh is kept. C94_lengths_partial covers all sequences of operations whose transforms keep distances (copies included) for edge::Length, and the flag without copies; C94_move and C94_set say what moving and setting give."
  },
  {
   "property": "C95",
   "status": "partial",
   "theorems": [
    "RSVS.Props.C95_min",
    "RSVS.Props.C95_max",
    "RSVS.Props.C95_mean_violated"
   ],
   "note": "Partial: C95_min and C95_max are proved in full; the statement about the mean is false for every mesh (C95_mean_violated)."
  },
  {
   "property": "C96",
   "status": "partial",
   "theorems": [
    "RSVS.Props.C96_smoothing_partial",
    "RSVS.Props.C96_range_partial",
    "RSVS.Props.C96_metric_partial",
    "RSVS.Props.C96_violated"
   ],
   "note": "Partial: range of edge curvature (C96_range_partial), conservation and sign under any number of smoothing steps (C96_smoothing_partial) and the range of metrics from curvatures that are not all zero (C96_metric_partial) are proved; independence of the order of ends and metrics from zero curvatures are false (C96_violated)."
  },
  {
   "property": "C97",
   "status": "partial",
   "theorems": [
    "RSVS.Props.C97_layers",
    "RSVS.Props.C97_surface_partial",
    "RSVS.Props.C97_inside_partial",
    "RSVS.Props.C97_violated"
   ],
   "note": "Partial: the points in volumes and their place in the hull (C97_layers) are proved; three times the point of CoordInVolume is in the hull (C97_inside_partial) and the points of surfaces are in their hulls and cover all corners and layers (C97_surface_partial); that the point of CoordInVolume itself is in the hull and that surfaces give one point per corner are false (C97_violated)."
  },
  {
   "property": "C98",
   "status": "partial",
   "theorems": [
    "RSVS.Props.C98_range",
    "RSVS.Props.C98_alone",
    "RSVS.Props.C98_snake",
    "RSVS.Props.C98_shared_partial",
    "RSVS.Props.C98_violated"
   ],
   "note": "Partial: range (C98_range), the step of a snaxel alone on its edge (C98_alone) and of whole snakes whose new snaxels are alone on their edges (C98_snake) are proved; with others on the edge the snaxel stays on the edge and on its side (C98_shared_partial), but may pass others or go further than its step (C98_violated)."
  },
  {
   "property": "C99",
   "status": "partial",
   "theorems": [
    "RSVS.Props.C99_intersect_partial",
    "RSVS.Props.C99_step",
    "RSVS.Props.C99_edge_partial",
    "RSVS.Props.C99_violated",
    "RSVS.Props.C99_gives_up"
   ],
   "note": "Partial: the parameters are right unless the discriminant is between zero and the tolerance (C99_intersect_partial), the placing on a sphere is proved (C99_step), the step is given up exactly when some edge meets the sphere only behind the vertex (C99_gives_up), and the snaxels stay on their edges when edges are not much shorter than the longest (C99_edge_partial); both full statements are false (C99_violated)."
  },
  {
   "property": "C100",
   "status": "partial",
   "theorems": [
    "RSVS.Props.C100_mesh",
    "RSVS.Props.C100_cfd_partial",
    "RSVS.Props.C100_first",
    "RSVS.Props.C100_grids",
    "RSVS.Props.C100_individual",
    "RSVS.Props.C100_violated"
   ],
   "note": "Partial: the arrays are proved right for all sound meshes (C100_mesh), and metrics and marks where all points of the geometry are to have the same metric (C100_cfd_partial); in all other cases every point gets the metric of the first (C100_first, C100_violated), and RSVSGRIDS with a boundary always throws (C100_grids)."
  },
  {
   "property": "C101",
   "status": "partial",
   "theorems": [
    "RSVS.Props.C101_boxes",
    "RSVS.Props.C101_nested_partial",
    "RSVS.Props.C101_violated",
    "RSVS.Props.C101_numbers"
   ],
   "note": "Partial: the boxes, their bounds, numbers and soundness are proved for all inputs (C101_boxes), and that each box is inside of the next (C101_nested_partial) except for the first one, which sticks out of the second for small steps (C101_violated); indices double with each box (C101_numbers)."
  },
  {
   "property": "C102",
   "status": "proved",
   "theorems": [
    "RSVS.Props.C102_file"
   ],
   "note": "Proved for all outputs with arrays as long as their counts say, with an independent reader of the file format (C102_file)."
  },
  {
   "property": "C103",
   "status": "proved",
   "theorems": [
    "RSVS.Props.C103_mesh",
    "RSVS.Props.C103_throws"
   ],
   "note": "Proved for all complete outputs in range (C103_mesh, C103_throws); the mesh is taken after TightenConnectivity, PrepareForUse at the end is not part of the statement."
  },
  {
   "property": "C104",
   "status": "partial",
   "theorems": [
    "RSVS.Props.C104_rays_partial",
    "RSVS.Props.C104_border",
    "RSVS.Props.C104_on_edge",
    "RSVS.Props.C104_box",
    "RSVS.Props.C104_violated"
   ],
   "note": "Proved for rays that start in the box (C104_rays_partial), for all edges that leave the box (C104_border) and for the box (C104_box). C104_violated: a ray of a Voronoi diagram that starts outside of the box and goes away from it is ended at its start, outside of the box; centres of spheres around tetrahedra can be outside of the box of the points. Exact arithmetic; no negative zeros."
  },
  {
   "property": "C105",
   "status": "proved",
   "theorems": [
    "RSVS.Props.C105_closed",
    "RSVS.Props.C105_sound",
    "RSVS.Props.C105_faces",
    "RSVS.Props.C105_cells",
    "RSVS.Props.C105_throws",
    "RSVS.Props.C105_null"
   ],
   "note": "The mesh is the one before TightenConnectivity and the merging of close vertices; the ends of the rays are those of C104."
  },
  {
   "property": "C106",
   "status": "partial",
   "theorems": [
    "RSVS.Props.C106_follows_partial",
    "RSVS.Props.C106_counted_partial",
    "RSVS.Props.C106_gaps_violated"
   ],
   "note": "False in the code: numbers of removed snaxels are never taken up, so the numbers have gaps, neighbours are not seen as neighbours and their contact is not found. Proved: the numbers follow the positions, and they are 1, 2, ... when there were no gaps before the new snaxels came."
  },
  {
   "property": "C107",
   "status": "partial",
   "theorems": [
    "RSVS.Props.C107_volu_partial",
    "RSVS.Props.C107_surf_partial",
    "RSVS.Props.C107_empty_violated",
    "RSVS.Props.C107_outside_throws"
   ],
   "note": "C107_volu_partial and C107_surf_partial: up to TightenConnectivity, the result is exact (parts with a vertex in the cells for a positive border, the others otherwise), the mesh sound, the containers beside it in step. C107_empty_violated: the volume of a removed part stays with no surface (in two dimensions the surface with no edge), so the last clause fails. C107_outside_throws: an edge of a part to go which lists surface 0 makes RemoveSnakeInVolu throw; the other theorem excludes it. The calls after TightenConnectivity (rehash, Flip, AssignInternalVerts) are not part of it."
  },
  {
   "property": "C108",
   "status": "partial",
   "theorems": [
    "RSVS.Props.C108_surfs_partial",
    "RSVS.Props.C108_spawn_partial",
    "RSVS.Props.C108_border_throws",
    "RSVS.Props.C108_parent_index",
    "RSVS.Props.C108_edges_none",
    "RSVS.Props.C108_edges_violated"
   ],
   "note": "Holds in three dimensions as C108_surfs_partial and C108_spawn_partial (with C108_border_throws and C108_parent_index), for every number of parents. In two dimensions it is false: EdgeOnParentBound asks SurfInParent with the index of the edge, which looks at the volumes of the surface of that index, so without volumes no inner edge is ever found (C108_edges_none for all meshes, C108_edges_violated is a witness)."
  },
  {
   "property": "C109",
   "status": "proved",
   "theorems": [
    "RSVS.Props.C109_merge",
    "RSVS.Props.C109_none"
   ],
   "note": "The full claim. snaxsurfs and snakeconn.surfs hold the same indices in the same order (hypothesis; kept in step by the snake). The multimaps are any functions which return all places of a key once."
  },
  {
   "property": "C110",
   "status": "partial",
   "theorems": [
    "RSVS.Props.C110_join_partial",
    "RSVS.Props.C110_once_partial",
    "RSVS.Props.C110_once_violated",
    "RSVS.Props.C110_three_violated"
   ],
   "note": "C110_join_partial: every chain gets an edit and every edit is exactly one chain (edges, inner vertices, kept end, loops, scope), for any hash order, with any set of edges out of the table of parents, when at most two edges of a surface meet at a vertex. C110_once_partial: no chain has two edits when all edges are in the table. Violated otherwise: C110_once_violated (an edge taken out of the table starts the search again and the edit is repeated), C110_three_violated (three edges at a vertex: two are joined and the vertex between them stays)."
  },
  {
   "property": "C111",
   "status": "partial",
   "theorems": [
    "RSVS.Props.C111_join_partial",
    "RSVS.Props.C111_find",
    "RSVS.Props.C111_end",
    "RSVS.Props.C111_end_violated",
    "RSVS.Props.C111_second_violated"
   ],
   "note": "C111_join_partial: when every edge which is not alone in its parent surface shares a surface of the snake with another one there, each edit is one whole chain on one surface, no edge is in two edits, and if no edge shares two surfaces every chain gets its edit. C111_find: the search gives exactly the edges on the first shared surface. C111_end / C111_end_violated: without a shared surface the search always reads past the end of tempCount. C111_second_violated: the second shared surface of an edge is not looked at."
  },
  {
   "property": "C112",
   "status": "proved",
   "theorems": [
    "RSVS.Props.C112_merge",
    "RSVS.Props.C112_one",
    "RSVS.Props.C112_none"
   ],
   "note": "Full statement proved under the hypothesis that the elements listed around the vertices exist and that volumes list the surfaces which list them (VoluReady)."
  },
  {
   "property": "C113",
   "status": "partial",
   "theorems": [
    "RSVS.Props.C113_pass",
    "RSVS.Props.C113_no_loop",
    "RSVS.Props.C113_progress",
    "RSVS.Props.C113_collapsed_violated"
   ],
   "note": "The pass is proved in full (C113_pass, C113_no_loop, C113_progress) for snakes whose vertices and edges list each other. The last sentence fails: the edges removed in the pass are read again for their ends, which have been cleared (C113_collapsed_violated), for every snake in which the pass edits an edge."
  },
  {
   "property": "C114",
   "status": "proved",
   "theorems": [
    "RSVS.Props.C114_merge",
    "RSVS.Props.C114_one",
    "RSVS.Props.C114_none"
   ],
   "note": "Proved in full."
  },
  {
   "property": "C115",
   "status": "partial",
   "theorems": [
    "RSVS.Props.C115_reported_partial",
    "RSVS.Props.C115_inverted",
    "RSVS.Props.C115_rule_violated"
   ],
   "note": "The code violates the property: the two flags are true when the ends or the surfaces differ, and the edge is reported when both are false. C115_rule_violated gives the witness, C115_inverted shows that the report is the wrong way round in all meshes, C115_reported_partial what is reported."
  },
  {
   "property": "C116",
   "status": "partial",
   "theorems": [
    "RSVS.Props.C116_volumes_partial",
    "RSVS.Props.C116_surfaces_partial",
    "RSVS.Props.C116_lines",
    "RSVS.Props.C116_some_volumes_partial",
    "RSVS.Props.C116_two_edges_violated",
    "RSVS.Props.C116_one_side_violated"
   ],
   "note": "Proved for volumes, flat meshes, lines and lists of volumes, for sound meshes with faces of at least three edges and edges with two entries for surfaces. False for faces of two edges of the same direction (one vertex is printed twice) and for flat meshes with an edge of one surface entry (read past the end)."
  },
  {
   "property": "C117",
   "status": "partial",
   "theorems": [
    "RSVS.Props.C117_listed_partial",
    "RSVS.Props.C117_no_list",
    "RSVS.Props.C117_all_violated",
    "RSVS.Props.C117_marks_violated",
    "RSVS.Props.C117_inside_partial",
    "RSVS.Props.C117_none_inside_violated",
    "RSVS.Props.C117_all_inside_violated"
   ],
   "note": "Proved for lists of indices which are not as long as the mesh, without a list, and for inside points when some but not all vertices are inside. False for a list of all vertices (read past its end), for marks (searched as indices), for no vertex inside (all are printed) and for all inside (undefined)."
  },
  {
   "property": "C118",
   "status": "partial",
   "theorems": [
    "RSVS.Props.C118_reported_partial",
    "RSVS.Props.C118_silent_partial",
    "RSVS.Props.C118_total_violated",
    "RSVS.Props.C118_throws_violated"
   ],
   "note": "What is reported is proved exact for each of the four checks, and silence equivalent to no fault, when snaxels which share an edge are at positions where there is a snake edge. Violated: the total counts the last check only, and the first check reads snake edges at the positions of snaxels, so it throws on snakes with fewer snake edges than snaxels."
  },
  {
   "property": "C119",
   "status": "partial",
   "theorems": [
    "RSVS.Props.C119_limits",
    "RSVS.Props.C119_range",
    "RSVS.Props.C119_same_step_partial",
    "RSVS.Props.C119_snaxel",
    "RSVS.Props.C119_same_step_violated",
    "RSVS.Props.C119_flat",
    "RSVS.Props.C119_flat_violated"
   ],
   "note": "The formula for the limits, the range and the limit of a snaxel are proved for all meshes. That the limits in length are the same in a cell is proved for edges of that cell only; violated for edges shared by cells (mean of two) and for flat meshes (all limits are 1)."
  },
  {
   "property": "C120",
   "status": "proved",
   "theorems": [
    "RSVS.Props.C120_near",
    "RSVS.Props.C120_vertices",
    "RSVS.Props.C120_new",
    "RSVS.Props.C120_none",
    "RSVS.Props.C120_ways"
   ],
   "note": "Full, for the groups of snaxels; the ways are arguments of the model."
  },
  {
   "property": "C121",
   "status": "partial",
   "theorems": [
    "RSVS.Props.C121_plane",
    "RSVS.Props.C121_sum_partial",
    "RSVS.Props.C121_in_plane_partial",
    "RSVS.Props.C121_two_edges_violated",
    "RSVS.Props.C121_two_links_violated"
   ],
   "note": "The sum over neighbours is proved when no snaxel has two outside vertices, and the plane when a snaxel has one neighbour. With two neighbours the values are added, not averaged; a snaxel with two outside vertices is put at the start of its edge when find returns its first place."
  },
  {
   "property": "C122",
   "status": "partial",
   "theorems": [
    "RSVS.Props.C122_on_edges",
    "RSVS.Props.C122_step",
    "RSVS.Props.C122_move",
    "RSVS.Props.C122_passes_none_partial",
    "RSVS.Props.C122_ordering",
    "RSVS.Props.C122_ordering_violated",
    "RSVS.Props.C122_passes_violated"
   ],
   "note": "The order is proved for steps which stay on the edge. A step which leaves it puts the snaxel at a fifth of the spawn distance from the end, which can be behind another snaxel; only the last snaxel of the group decides whether the smoothing is given up. The direction of the laplacian is an argument of the model."
  },
  {
   "property": "C123",
   "status": "partial",
   "theorems": [
    "RSVS.Props.C123_fan_partial",
    "RSVS.Props.C123_all_partial",
    "RSVS.Props.C123_border_violated",
    "RSVS.Props.C123_ordered",
    "RSVS.Props.C123_sides_violated"
   ],
   "note": "Proved for all sound meshes with surfaces as simple loops of at least three edges in order: C123_fan_partial for MeshTriangulation, C123_all_partial for TriangulateAllFaces up to it, C123_ordered for all of TriangulateAllFaces with PrepareForUse, TightenConnectivity and OrderEdges: success, soundness, triangles in order, what is kept, and the Euler characteristic. False: the marks of the border for new edges and vertices (C123_border_violated) and which volume of a surface is first (C123_sides_violated)."
  },
  {
   "property": "C124",
   "status": "partial",
   "theorems": [
    "RSVS.Props.C124_points_partial",
    "RSVS.Props.C124_defined_partial",
    "RSVS.Props.C124_degenerate_partial",
    "RSVS.Props.C124_first_violated",
    "RSVS.Props.C124_direction_violated",
    "RSVS.Props.C124_empty_violated",
    "RSVS.Props.C124_line_violated"
   ],
   "note": "Proved for sound convex meshes of bounded flat volumes whose surfaces have their first edge stored all along or all against the ring of corners (in the second case the first point must be inside): every number returned is right, and the search never runs into undefined behaviour. Not proved: that the walk ends within the number of volumes. Violated: a first point outside makes all later numbers wrong; reversing the stored vertices of one edge changes the result; an empty list is read past its end; a surface whose first three corners are on one line is ignored."
  },
  {
   "property": "C125",
   "status": "partial",
   "theorems": [
    "RSVS.Props.C125_relative_partial",
    "RSVS.Props.C125_mesh_partial",
    "RSVS.Props.C125_snake_partial",
    "RSVS.Props.C125_centre_violated",
    "RSVS.Props.C125_small_violated",
    "RSVS.Props.C125_pinched_violated",
    "RSVS.Props.C125_flat_violated"
   ],
   "note": "proved for meshes which can be oriented, with two different volumes for each surface and no zero in the lists of edges: coherent orientation, blocks exactly the joined surfaces, and the right direction for every block with a usable dot product which tells the side. violated by the dot product of the mesh version (centre is twice what it should be), by volumes which touch themselves along an edge, by blocks with only small dot products, and undefined without volumes"
  },
  {
   "property": "C126",
   "status": "partial",
   "theorems": [
    "RSVS.Props.C126_normal_partial",
    "RSVS.Props.C126_rotate_partial",
    "RSVS.Props.C126_start_violated",
    "RSVS.Props.C126_centre_violated",
    "RSVS.Props.C126_flip",
    "RSVS.Props.C126_refuses",
    "RSVS.Props.C126_outward_partial",
    "RSVS.Props.C126_between_violated"
   ],
   "note": "C126_normal_partial and C126_rotate_partial ask for a triangle of the last and the first point which is not too small, since otherwise triangles are left out (C126_start_violated) or the function throws (C126_centre_violated); C126_flip is unconditional for surfaces between a volume and the outside; C126_outward_partial asks for corners which are not too small; between two volumes vert::Normal throws (C126_between_violated)."
  },
  {
   "property": "C127",
   "status": "partial",
   "theorems": [
    "RSVS.Props.C127_vertex_partial",
    "RSVS.Props.C127_ring",
    "RSVS.Props.C127_flat",
    "RSVS.Props.C127_height",
    "RSVS.Props.C127_mesh_partial",
    "RSVS.Props.C127_stale_violated",
    "RSVS.Props.C127_normals_violated"
   ],
   "note": "Proved for vertices whose edges can be put in a ring of triangles with an area: the result is the area gradient over the weights, in any starting order, zero in a flat ring, and as far along any direction as the points around it. Violated: a vertex whose edges cannot be ordered gets the Laplacian of the vertex before it in the list, and MeshUnitNormals divides a zero vector by zero for such a vertex."
  },
  {
   "property": "C128",
   "status": "partial",
   "theorems": [
    "RSVS.Props.C128_volumes_partial",
    "RSVS.Props.C128_surfaces",
    "RSVS.Props.C128_rings",
    "RSVS.Props.C128_bare_violated",
    "RSVS.Props.C128_split_violated",
    "RSVS.Props.C128_zero_violated"
   ],
   "note": "Partial in three dimensions: a surface without edges keeps its old volume (C128_bare_violated), a surface with edges in two parts is listed by two volumes and lists one (C128_split_violated), an edge which lists surface 0 makes the code write outside its arrays (C128_zero_violated).  Without these the mesh stays sound; in two dimensions it always does."
  },
  {
   "property": "C129",
   "status": "partial",
   "theorems": [
    "RSVS.Props.C129_ordered_partial",
    "RSVS.Props.C129_one_loop",
    "RSVS.Props.C129_two_loops_partial",
    "RSVS.Props.C129_capacity_violated",
    "RSVS.Props.C129_moved_violated",
    "RSVS.Props.C129_pairs_violated",
    "RSVS.Props.C129_twice_violated"
   ],
   "note": "C129_one_loop: with one loop per surface all are ordered with any capacity; C129_two_loops_partial: with at most two loops per surface all are split and ordered with any capacity of two or more; C129_ordered_partial: any number of loops when the vector has room for a surface per edge.  Violated otherwise: a lone surface of two loops with a full vector throws, three loops with too little room use a moved vector (UB), only the first part is reported, and parts are listed twice by their volume."
  },
  {
   "property": "C130",
   "status": "partial",
   "theorems": [
    "RSVS.Props.C130_some",
    "RSVS.Props.C130_corners",
    "RSVS.Props.C130_outside",
    "RSVS.Props.C130_only_partial",
    "RSVS.Props.C130_cover_partial",
    "RSVS.Props.C130_points",
    "RSVS.Props.C130_list",
    "RSVS.Props.C130_scaled_violated",
    "RSVS.Props.C130_zero_violated",
    "RSVS.Props.C130_short_violated"
   ],
   "note": "C130_corners, C130_outside, C130_points and C130_list hold for all boxes. C130_only_partial and C130_cover_partial need the unit box: C130_scaled_violated shows they fail for the box from 2 to 3, because edgeModif is not scaled. C130_zero_violated: a distance of 0. C130_short_violated: Points2Mesh with nProp of 1 or 2 reads past the end."
  },
  {
   "property": "C131",
   "status": "partial",
   "theorems": [
    "RSVS.Props.C131_names",
    "RSVS.Props.C131_released",
    "RSVS.Props.C131_middle",
    "RSVS.Props.C131_speed",
    "RSVS.Props.C131_held_partial",
    "RSVS.Props.C131_reflect",
    "RSVS.Props.C131_fast_violated",
    "RSVS.Props.C131_rest",
    "RSVS.Props.C131_finite"
   ],
   "note": "C131_held_partial leaves out the engine fast: C131_fast_violated shows it overwrites the velocity 0 of a frozen snax by 4. C131_rest: a snax at rest never moves again with the random engines."
  },
  {
   "property": "C132",
   "status": "partial",
   "theorems": [
    "RSVS.Props.C132_ordered",
    "RSVS.Props.C132_flat_partial",
    "RSVS.Props.C132_plane_violated",
    "RSVS.Props.C132_border_violated"
   ],
   "note": "Proved for all sound meshes with surfaces as simple loops of at least three edges in order: C132_flat_partial up to MeshTriangulation, C132_ordered for all of FlattenBoundaryFaces with the ordering and tightening at the end. False: plane faces which are not across an axis stay (C132_plane_violated), and the marks of the border of new edges and vertices (C132_border_violated)."
  },
  {
   "property": "C133",
   "status": "partial",
   "theorems": [
    "RSVS.Props.C133_end_pass_partial",
    "RSVS.Props.C133_nothing_bare",
    "RSVS.Props.C133_empty_volume_violated"
   ],
   "note": "C133_end_pass_partial: sound mesh with exactly the expected elements, incidences as before, lists in step; C133_nothing_bare: no bare vertex, surface or collapsed kept edge; C133_empty_volume_violated: volumes are not cleaned. Missing: kept edges which have lost their ends (undefined, C113_collapsed_violated)."
  },
  {
   "property": "C134",
   "status": "partial",
   "theorems": [
    "RSVS.Props.C134_surface",
    "RSVS.Props.C134_volume",
    "RSVS.Props.C134_edge_partial",
    "RSVS.Props.C134_outside_violated",
    "RSVS.Props.C134_merge_edges",
    "RSVS.Props.C134_ends_violated"
   ],
   "note": "Proved for surfaces and volumes. For edges the exact condition is proved; it fails when the ends differ, and the call throws for an edge which lists surface 0 in a mesh with volumes."
  },
  {
   "property": "C135",
   "status": "partial",
   "theorems": [
    "RSVS.Props.C135_degenerate_partial",
    "RSVS.Props.C135_repeated_violated",
    "RSVS.Props.C135_faces_violated",
    "RSVS.Props.C135_outside_violated"
   ],
   "note": "Proved for meshes in which no edge lists surface 0 (or without volumes). Violated: entries are counted, not different elements, so merged edges and faces leave repeated entries; and an edge of the outside in a mesh with volumes makes the call throw."
  },
  {
   "property": "C136",
   "status": "partial",
   "theorems": [
    "RSVS.Props.C136_collapse_partial",
    "RSVS.Props.C136_prism_violated",
    "RSVS.Props.C136_open_violated"
   ],
   "note": "proved: the result, its vertices, lines, surfaces and volumes, and exactly when the call throws, for every order of the hash table. Violated: a surface of the result need not be closed when three or more of its sides are not all merged with each other (C136_open_violated), and a prism with a short edge in each triangle stops the program (C136_prism_violated). Assumed: no edge lists surface 0, or there are no volumes."
  },
  {
   "property": "C137",
   "status": "partial",
   "theorems": [
    "RSVS.Props.C137_almost_partial",
    "RSVS.Props.C137_range_violated",
    "RSVS.Props.C137_order_violated"
   ],
   "note": "proved for ranges up to half an edge, in every ordered field: which snaxel is put on which vertex, what is reported, and that the others stay. Violated: for larger ranges a snaxel can be put on the other end of its edge (C137_range_violated), and a snaxel can be put past another one on the same edge (C137_order_violated), as a comment in the code says."
  },
  {
   "property": "C138",
   "status": "partial",
   "theorems": [
    "RSVS.Detect.C138_detection_partial",
    "RSVS.Detect.C138_arrives_partial"
   ],
   "note": "Holds for contacts on all edges, for arrivals of snaxels alone on their edges, and for arrivals on edges whose snaxels all travel from the vertex with the lower index. Arrivals on edges with several snaxels travelling the other way are wrong in the code (see C37). The last sentence is proved for snaxels alone on their edges."
  },
  {
   "property": "C139",
   "status": "partial",
   "theorems": [
    "RSVS.TriSoup.C139_soup_partial",
    "RSVS.TriSoup.C139_inside_violated",
    "RSVS.TriSoup.C139_outside_violated"
   ],
   "note": "Holds for triangles with two or more cells, one of them at least in a constraint. Two violations: triangles inside one cell are read past the end of celltarg, and outside triangles lose their side. PrepareForUse at the end is left out."
  },
  {
   "property": "C140",
   "status": "proved",
   "theorems": [
    "RSVS.CellVolume.C140_volumes",
    "RSVS.CellVolume.C140_total"
   ],
   "note": "The volumes of the single triangles are given; arithmetic is exact."
  },
  {
   "property": "C141",
   "status": "partial",
   "theorems": [
    "RSVS.CutEdges.C141_cut_partial",
    "RSVS.CutEdges.C141_split",
    "RSVS.CutEdges.C141_same_side_throws",
    "RSVS.CutEdges.C141_edge_sides_partial"
   ],
   "note": "partial: the splitting of edges is proved for all sound meshes; the surfaces and volumes which the rest of mesh::AddBoundary splits (mesh.cpp:5532-5679) are not modelled, but for the ends of the edge which closes a surface (C142). The placement of the new vertex is a parameter (C104 covers it)."
  },
  {
   "property": "C142",
   "status": "partial",
   "theorems": [
    "RSVS.CutEdges.C142_closing_partial",
    "RSVS.CutEdges.C142_unknown_throws"
   ],
   "note": "partial: proved for each surface on the mesh right after the edges were cut (C141); that the surfaces treated before it leave its edges and their marks as they are is not modelled."
  }
 ]
}