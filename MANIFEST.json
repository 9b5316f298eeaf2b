{
 "claims": [
  {
   "property": "C01",
   "status": "proved",
   "theorems": [
    "CZ.Scene.C01_scene_contents",
    "CZ.Scene.C01_scene_contents_in_order",
    "CZ.Scene.C01_atom_survives_iff"
   ],
   "note": "contents as a multiset, exact order, and per-atom iff form"
  },
  {
   "property": "C02",
   "status": "proved",
   "theorems": [
    "CZ.Scene.C02_equal_priority_exclusion"
   ],
   "note": ""
  },
  {
   "property": "C03",
   "status": "proved",
   "theorems": [
    "CZ.Scene.C03_added_object_does_not_affect_smaller"
   ],
   "note": ""
  },
  {
   "property": "C04",
   "status": "proved",
   "theorems": [
    "CZ.Scene.C04_insertion_order_irrelevant"
   ],
   "note": ""
  },
  {
   "property": "C05",
   "status": "proved",
   "theorems": [
    "CZ.Scene.C05_priority_relabelling"
   ],
   "note": ""
  },
  {
   "property": "C06",
   "status": "proved",
   "theorems": [
    "CZ.Scene.C06_rows_aligned"
   ],
   "note": ""
  },
  {
   "property": "C07",
   "status": "proved",
   "theorems": [
    "CZ.Scene.C07_molecules_displace_nothing"
   ],
   "note": ""
  },
  {
   "property": "C08",
   "status": "proved",
   "theorems": [
    "CZ.Scene.C08_queries_never_stale"
   ],
   "note": "history induction over add/populate/query"
  },
  {
   "property": "C09",
   "status": "partial",
   "theorems": [
    "CZ.Scene.C09_duplicate_object_erases_itself",
    "CZ.Scene.C09_duplicate_object_refuted",
    "CZ.Scene.C09_duplicate_object_partial"
   ],
   "note": "false of the code: refuted by C09_duplicate_object_refuted (an object listed twice erases its own atoms, see C09_duplicate_object_erases_itself); C09_duplicate_object_partial is the part that holds"
  },
  {
   "property": "C10",
   "status": "partial",
   "theorems": [
    "CZ.Scene.C10_within_bounds_refuted",
    "CZ.Scene.C10_within_bounds_partial"
   ],
   "note": "false of the code: bounds are never enforced (C10_within_bounds_refuted); C10_within_bounds_partial holds when every object supplies atoms within the bounds"
  },
  {
   "property": "C11",
   "status": "partial",
   "theorems": [
    "CZ.Scene.C11_other_formats_write_nothing",
    "CZ.Scene.C11_user_dwf_raises",
    "CZ.Scene.C11_to_file_refuted",
    "CZ.Scene.C11_to_file_partial"
   ],
   "note": "false of the code: an explicit format other than prismatic writes nothing, user Debye-Waller factors raise (C11_to_file_refuted); the remaining calls write once (C11_to_file_partial)"
  },
  {
   "property": "C12",
   "status": "proved",
   "theorems": [
    "CZ.C12_nested_resolution",
    "CZ.C12_populate_succeeds",
    "CZ.C12_empty_multivolume_raises"
   ],
   "note": "refinement to the flat first-container rule at every nesting level; an empty MultiVolume raises on populate (C12_empty_multivolume_raises)"
  },
  {
   "property": "C13",
   "status": "proved",
   "theorems": [
    "CZ.C13_region",
    "CZ.C13_single_point",
    "CZ.C13_union_intersection"
   ],
   "note": "given the contract ExactHull of the Delaunay oracle (points inside iff in the convex hull)"
  },
  {
   "property": "C14",
   "status": "proved",
   "theorems": [
    "CZ.C14_atoms_inside"
   ],
   "note": "any generator, oracle and nesting"
  },
  {
   "property": "C15",
   "status": "partial",
   "theorems": [
    "CZ.C15_cylinder_partial",
    "CZ.C15_hull_partial",
    "CZ.C15_sphere_partial",
    "CZ.C15_missed_site_refuted"
   ],
   "note": "sites in the exact region are never missed for hulls (given ExactHull), spheres and cylinders not along the space diagonal; refuted for a basis atom given with fractional coordinate 10 (C15_missed_site_refuted)"
  },
  {
   "property": "C16",
   "status": "proved",
   "theorems": [
    "CZ.C16_interior_carried",
    "CZ.Vol.C16_constructed"
   ],
   "note": "whenever the call returns; volumes bounded by spheres, planes and cylinders under compositions of translations, rotations, inversions, orthogonal matrices; volumes with points always raise (C18)"
  },
  {
   "property": "C17",
   "status": "partial",
   "theorems": [
    "CZ.C17_translation",
    "CZ.C17_strained_refuted",
    "CZ.C17_cylinder_moves_rigidly_partial",
    "CZ.C17_atoms_move_rigidly_partial",
    "CZ.C17_tolerance_shell_refuted"
   ],
   "note": "volumes without points bounded by at least one sphere, or by cylinders not along the space diagonal before and after the motion, with no site in the tolerance shell and no strain; refuted for a site in that shell (C17_tolerance_shell_refuted) and for strained crystals, whose gap at the surface changes with the orientation (C17_strained_refuted). Translations: every volume without points that can be populated, strained and doped crystals included, nothing lost or gained in the shell (C17_translation). Volumes with points cannot be transformed"
  },
  {
   "property": "C18",
   "status": "partial",
   "theorems": [
    "CZ.C18_always_raises",
    "CZ.C18_points_transform_refuted"
   ],
   "note": "false of the code: transform raises ValueError for every volume with points"
  },
  {
   "property": "C19",
   "status": "partial",
   "theorems": [
    "CZ.C19_initial_points_partial",
    "CZ.C19_interior_never_grows",
    "CZ.C19_added_points_refuted"
   ],
   "note": "false of the code: addPoints does not update the triangulation (C19_added_points_refuted); partial statements for points given at construction"
  },
  {
   "property": "C20",
   "status": "partial",
   "theorems": [
    "CZ.C20_planes_always_raise",
    "CZ.C20_planes_refuted"
   ],
   "note": "false of the code: volumes given by four or more planes always raise"
  },
  {
   "property": "C21",
   "status": "partial",
   "theorems": [
    "CZ.C21_rigid_never_fails_partial",
    "CZ.C21_failed_transform_refuted",
    "CZ.C21_points_lost"
   ],
   "note": "C21_rigid_never_fails_partial for surface bounded crystal volumes under rigid motions; refuted for others"
  },
  {
   "property": "C22",
   "status": "proved",
   "theorems": [
    "CZ.C22_unlocked_keeps_generator",
    "CZ.C22_basis_only_keeps_origin",
    "CZ.C22_locked_moves_both"
   ],
   "note": ""
  },
  {
   "property": "C23",
   "status": "partial",
   "theorems": [
    "CZ.C23_copy_partial",
    "CZ.C23_no_generator_raises",
    "CZ.C23_tolerance_refuted",
    "CZ.C23_added_points_refuted",
    "CZ.C23_tree_partial"
   ],
   "note": "false of the code in tolerance, missing generator and added points; the rest is C23_copy_partial and C23_tree_partial (any nesting)"
  },
  {
   "property": "C24",
   "status": "proved",
   "theorems": [
    "CZ.C24_from_alg_object",
    "CZ.C24_from_generator",
    "CZ.C24_add_alg_object",
    "CZ.C24_add_generator",
    "CZ.C24_from_volume"
   ],
   "note": "store model with typed addresses; copies of surfaces, generators and volumes are isolated from every earlier object under every interleaving of method calls; objects with parts reached once (which the copying methods produce)"
  },
  {
   "property": "C25",
   "status": "partial",
   "theorems": [
    "CZ.C25_transform_counts",
    "CZ.C25_transform_once_partial",
    "CZ.C25_transform_once_refuted"
   ],
   "note": "false when an object is owned more than once (C25_transform_once_refuted); C25_transform_counts gives the number of applications for every way of sharing, C25_transform_once_partial the unshared case"
  },
  {
   "property": "C26",
   "status": "partial",
   "theorems": [
    "CZ.C26_sphere_box_tight",
    "CZ.C26_sphere_box",
    "CZ.C26_cylinder_box_partial",
    "CZ.C26_cylinder_box_iff",
    "CZ.C26_diagonal_cylinder_refuted"
   ],
   "note": "spheres; cylinders whenever the box exists, that is when the axis is not along (1,1,1) (C26_cylinder_box_iff); along (1,1,1) the box is NaN (C26_diagonal_cylinder_refuted)"
  },
  {
   "property": "C27",
   "status": "partial",
   "theorems": [
    "CZ.Mol.C27_molecule_partial",
    "CZ.C27_volume_partial",
    "CZ.C27_volume_refuted"
   ],
   "note": "Volumes accept booleans (refuted), Molecules accept numpy integers; all other value kinds as stated"
  },
  {
   "property": "C28",
   "status": "proved",
   "theorems": [
    "CZ.C28_extents_cover",
    "CZ.C28_extents_minimal",
    "CZ.C28_extents_defined"
   ],
   "note": "cover, minimality and definedness"
  },
  {
   "property": "C29",
   "status": "proved",
   "theorems": [
    "CZ.C29_enumerates_once",
    "CZ.C29_scaled_cell",
    "CZ.C29_supply_succeeds"
   ],
   "note": "indexing bijection between rows and (cell, basis atom) pairs; success under invertible scaled bases"
  },
  {
   "property": "C30",
   "status": "partial",
   "theorems": [
    "CZ.C30_fills_region_partial",
    "CZ.C30_fills_region_refuted"
   ],
   "note": "holds when fractional coordinates are strictly between -1 and 1; refuted at fractional coordinate 1"
  },
  {
   "property": "C31",
   "status": "partial",
   "theorems": [
    "CZ.C31_covariant_partial",
    "CZ.C31_covariant_refuted",
    "CZ.C31_strained_partial",
    "CZ.C31_translated",
    "CZ.C31_standard_strain_refuted",
    "CZ.C31_global_strain_refuted"
   ],
   "note": "holds for scalar and per-column scale and every composition of translations and invertible matrices, also with chemical substitutions and strain fields in crystal coordinates about the origin of the generator (C31_strained_partial); refuted for row scales (C31_covariant_refuted), for strain fields in Cartesian coordinates (C31_standard_strain_refuted) and about a fixed point (C31_global_strain_refuted). Translations: every scale and every strain field about the origin of the generator (C31_translated)"
  },
  {
   "property": "C32",
   "status": "partial",
   "theorems": [
    "CZ.C32_pymatgen_partial",
    "CZ.C32_agrees_iff_symmetric",
    "CZ.C32_pymatgen_refuted"
   ],
   "note": "false of the code for non-symmetric lattice matrices (columns are used as lattice vectors); exact condition proved"
  },
  {
   "property": "C33",
   "status": "partial",
   "theorems": [
    "CZ.C33_accepts_independent_partial",
    "CZ.C33_acceptance",
    "CZ.C33_rejects_dependent_refuted",
    "CZ.GenSet.C33_constructor"
   ],
   "note": "independent bases accepted; dependent bases are not always refused (refuted); exact acceptance condition proved"
  },
  {
   "property": "C34",
   "status": "proved",
   "theorems": [
    "CZ.C34_affine",
    "CZ.C34_crystal_mode",
    "CZ.C34_standard_mode",
    "CZ.C34_identity",
    "CZ.C34_strain_origin",
    "CZ.C34_supplied_atoms",
    "CZ.C34_constructor",
    "CZ.C34_matrix_forms"
   ],
   "note": ""
  },
  {
   "property": "C35",
   "status": "partial",
   "theorems": [
    "CZ.C35_every_mode_accepted",
    "CZ.C35_invalid_modes_rejected_refuted",
    "CZ.C35_misspelt_mode_is_standard"
   ],
   "note": "false of the code: every string is accepted"
  },
  {
   "property": "C36",
   "status": "partial",
   "theorems": [
    "CZ.C36_never_constructible",
    "CZ.C36_constructible_refuted"
   ],
   "note": "false of the code: construction always raises TypeError"
  },
  {
   "property": "C37",
   "status": "proved",
   "theorems": [
    "CZ.C37_constructor",
    "CZ.C37_only_targets_change",
    "CZ.C37_fraction_one",
    "CZ.C37_no_draw_no_change",
    "CZ.C37_sequences_keep_atoms"
   ],
   "note": "for every random stream"
  },
  {
   "property": "C38",
   "status": "partial",
   "theorems": [
    "CZ.C38_strained_fills_partial",
    "CZ.C38_strained_fills_refuted",
    "CZ.C38_volume_partial",
    "CZ.C38_volume_refuted"
   ],
   "note": "only sites in the box before straining are covered, for a generator and for a whole volume (C38_volume_partial); refuted in general: a compressed crystal leaves a gap at the surface of the volume (C38_volume_refuted)"
  },
  {
   "property": "C39",
   "status": "proved",
   "theorems": [
    "CZ.C39_distances_preserved"
   ],
   "note": "exact reals; any nesting of MultiTransform"
  },
  {
   "property": "C40",
   "status": "proved",
   "theorems": [
    "CZ.C40_rotation_acceptance",
    "CZ.C40_no_improper"
   ],
   "note": "acceptance window stated without the model constructor; improper matrices always refused"
  },
  {
   "property": "C41",
   "status": "proved",
   "theorems": [
    "CZ.C41_reflection_is_mirror"
   ],
   "note": ""
  },
  {
   "property": "C42",
   "status": "partial",
   "theorems": [
    "CZ.C42_generator_partial",
    "CZ.C42_generator_refuted",
    "CZ.C42_volume_partial",
    "CZ.C42_volume_refuted"
   ],
   "note": "uniform flags; refuted for mixed lock flags"
  },
  {
   "property": "C43",
   "status": "partial",
   "theorems": [
    "CZ.C43_surfaces_follow_partial",
    "CZ.C43_refuted",
    "CZ.C43_plane_refuted"
   ],
   "note": "false for arbitrary matrices (C43_refuted, C43_plane_refuted: non-orthogonal matrices); C43_surfaces_follow_partial covers every composition of translations, rotations, inversions and orthogonal matrices"
  },
  {
   "property": "C44",
   "status": "partial",
   "theorems": [
    "CZ.C44_reflection_alg_always_raises",
    "CZ.C44_reflection_alg_refuted"
   ],
   "note": "false of the code: Reflection.applyTransformation_alg raises TypeError for every object"
  },
  {
   "property": "C45",
   "status": "partial",
   "theorems": [
    "CZ.C45_result_is_rotation",
    "CZ.C45_aligns_partial",
    "CZ.C45_close_partial",
    "CZ.C45_antiparallel_refuted",
    "CZ.C45_all_negative_axes_refuted",
    "CZ.C45_returns_iff",
    "CZ.C45_rot_v",
    "CZ.C45_rot_v_angle"
   ],
   "note": "C45_aligns_partial is exact alignment, C45_close_partial is the error bound for every v that is not a negative coordinate axis; refuted for negative coordinate axes with opposite target (NaN); C45_returns_iff says exactly for which inputs it returns; rot_v is the right-handed rotation by theta (C45_rot_v_angle)"
  },
  {
   "property": "C46",
   "status": "partial",
   "theorems": [
    "CZ.C46_intrinsic",
    "CZ.C46_invalid_convention",
    "CZ.C46_extrinsic_partial",
    "CZ.C46_extrinsic_refuted"
   ],
   "note": "intrinsic holds; extrinsic swaps alpha and beta (refuted), holds when they are equal"
  },
  {
   "property": "C47",
   "status": "partial",
   "theorems": [
    "CZ.C47_moving_plane_modified",
    "CZ.C47_exceptions",
    "CZ.C47_arguments_unchanged_refuted",
    "CZ.C47_s2s_always_raises",
    "CZ.C47_s2s_refuted"
   ],
   "note": "false of the code: the call always raises, and it changes its moving plane first"
  },
  {
   "property": "C48",
   "status": "proved",
   "theorems": [
    "CZ.C48_sphere",
    "CZ.C48_plane",
    "CZ.C48_cylinder",
    "CZ.C48_thresholds"
   ],
   "note": "exact interior tests against Spec.Ball/HalfSpace/Tube"
  },
  {
   "property": "C49",
   "status": "proved",
   "theorems": [
    "C49_normals_are_unit"
   ],
   "note": "invariant over all setter/flip/transform histories"
  },
  {
   "property": "C50",
   "status": "partial",
   "theorems": [
    "CZ.C50_projection_is_nearest",
    "CZ.C50_single_point_raises",
    "CZ.C50_single_point_refuted"
   ],
   "note": "nearest point for arrays of points; refuted for a single point of shape (3,) (raises)"
  },
  {
   "property": "C51",
   "status": "proved",
   "theorems": [
    "CZ.C51_flip_swaps_sides"
   ],
   "note": ""
  },
  {
   "property": "C52",
   "status": "partial",
   "theorems": [
    "CZ.C52_centroid_interior",
    "CZ.C52_hull_points_interior_partial",
    "CZ.C52_thin_hull_refuted"
   ],
   "note": "facets with positive distance to the centroid; hulls thinner than the tolerance accept wrong sides (refuted)"
  },
  {
   "property": "C53",
   "status": "partial",
   "theorems": [
    "CZ.C53_member_partial",
    "CZ.C53_nearest_partial",
    "CZ.C53_within_partial",
    "CZ.C53_floor_partial",
    "CZ.C53_ceil_partial",
    "CZ.C53_zero_raises",
    "CZ.C53_standard_strain_raises",
    "CZ.C53_strained_partial",
    "CZ.C53_nearest_refuted",
    "CZ.C53_origin_refuted",
    "CZ.C53_strained_refuted",
    "CZ.C53_unknown_mode"
   ],
   "note": "false of the code: \"nearest\" is not nearest for several non-zero indices (C53_nearest_refuted), the origin of the generator is ignored (C53_origin_refuted), strained planes miss the strained lattice (C53_strained_refuted, C53_standard_strain_raises); the partial theorems give the lattice plane for origins on the lattice, nearest/floor/ceil for one non-zero index, and the 3/2 spacing bound for all indices"
  },
  {
   "property": "C54",
   "status": "proved",
   "theorems": [
    "CZ.C54_round_away"
   ],
   "note": "exact over any ordered field with floor"
  },
  {
   "property": "C55",
   "status": "proved",
   "theorems": [
    "CZ.Splits.C55_separation"
   ],
   "note": "every random stream, every run length"
  },
  {
   "property": "C56",
   "status": "partial",
   "theorems": [
    "CZ.Splits.C56_can_return",
    "CZ.Splits.C56_raises_partial",
    "CZ.Splits.C56_never_returns",
    "CZ.Splits.C56_refuted"
   ],
   "note": "false of the code: with l-2m = (n-1)m, n>=2, m>=1 the call never returns nor raises (C56_never_returns); otherwise as stated"
  },
  {
   "property": "C57",
   "status": "proved",
   "theorems": [
    "CZ.Grid.C57_neighbours",
    "CZ.Grid.C57_symmetric",
    "CZ.Grid.C57_shape",
    "CZ.Grid.C57_once"
   ],
   "note": "every grid size and periodicity; set of neighbours exactly the touching voxels, symmetric, right shape"
  },
  {
   "property": "C58",
   "status": "partial",
   "theorems": [
    "CZ.C58_minimum_image_partial",
    "CZ.C58_box_partial",
    "CZ.C58_no_dims_refuted"
   ],
   "note": "points at most 3/2 box lengths apart along periodic axes (in particular points of the box); without dims the function raises (refuted)"
  },
  {
   "property": "C59",
   "status": "partial",
   "theorems": [
    "CZ.Rdf.C59_input_shifted",
    "CZ.Rdf.C59_single_voxel_partial",
    "CZ.Rdf.C59_index_refuted",
    "CZ.Rdf.C59_periodic_refuted",
    "CZ.Rdf.C59_flat_refuted",
    "CZ.Rdf.C59_missed_refuted",
    "CZ.Rdf.C59_input_refuted",
    "CZ.Rdf.C59_voxels_partial",
    "CZ.Rdf.C59_returns_iff",
    "CZ.Rdf.C59_exceptions",
    "CZ.Rdf.C59_wrap_refuted",
    "CZ.Rdf.C59_multiple_refuted"
   ],
   "note": "false of the code: the neighbour list is indexed by the box of the i-th atom (C59_index_refuted, C59_missed_refuted), flat sets are not counted, fully periodic boxes of few voxels are counted several times, more than three voxels along a periodic axis miss pairs around the box (C59_wrap_refuted), boxes that are a multiple of the cutoff lose the atoms at their upper end (C59_multiple_refuted), and the input array is shifted in place (C59_input_shifted for all inputs). C59_voxels_partial: any number of voxels, when the list order happens to agree with the voxels; C59_returns_iff and C59_exceptions say when it returns"
  },
  {
   "property": "C60",
   "status": "proved",
   "theorems": [
    "CZ.Amo.C60_separation",
    "CZ.Amo.C60_negative",
    "CZ.Amo.C60_ties"
   ],
   "note": "every random stream, every number of draws; exact arithmetic; never raises; a number of atoms halfway between two whole numbers is rounded to the even one (C60_ties)"
  },
  {
   "property": "C61",
   "status": "partial",
   "theorems": [
    "CZ.Amo.C61_periodic_partial",
    "CZ.Amo.C61_accepts_partial",
    "CZ.Amo.C61_refuted"
   ],
   "note": "false when the box is not a whole number of cells (C61_refuted); C61_periodic_partial and C61_accepts_partial for whole cells or at most three"
  },
  {
   "property": "C62",
   "status": "partial",
   "theorems": [
    "CZ.Batch.C62_separation",
    "CZ.Batch.C62_negative",
    "CZ.Batch.C62_periodic_partial",
    "CZ.Batch.C62_periodic_refuted",
    "CZ.Batch.C62_scale_refuted"
   ],
   "note": "separation, box and count for every stream of batches and voxel_scale >= 1; the periodic version only for whole voxels (C62_periodic_partial, C62_periodic_refuted); voxel_scale < 1 gives close atoms (C62_scale_refuted)"
  },
  {
   "property": "C63",
   "status": "partial",
   "theorems": [
    "CZ.C63_cached",
    "CZ.C63_fresh_partial",
    "CZ.C63_density_refuted",
    "CZ.C63_box_refuted",
    "CZ.C63_repeats"
   ],
   "note": "false of the code: density and box position are ignored (C63_density_refuted, C63_box_refuted); cache behaviour and separation hold (C63_cached, C63_fresh_partial, given that the call to gen_p_substrate returns); the random seed is always 0, so boxes of the same extents receive the same atoms (C63_repeats)"
  },
  {
   "property": "C64",
   "status": "proved",
   "theorems": [
    "CZ.C64_circumradius",
    "CZ.C64_coplanar_fails"
   ],
   "note": "exact reals; unique centre, coplanar corners never pass"
  },
  {
   "property": "C65",
   "status": "partial",
   "theorems": [
    "CZ.C65_result",
    "CZ.C65_sound",
    "CZ.C65_complete_partial",
    "CZ.C65_complete_refuted",
    "CZ.C65_alpha_shape",
    "CZ.C65_sampling",
    "CZ.C65_alpha_shape_exact",
    "CZ.C65_sampling_exact",
    "CZ.C65_no_samples"
   ],
   "note": "soundness for both functions and every triangulation; completeness is false (C65_complete_refuted); C65_result is the exact set returned, C65_complete_partial the faces that are found"
  },
  {
   "property": "C66",
   "status": "partial",
   "theorems": [
    "CZ.C66_shells",
    "CZ.C66_full_refuted",
    "CZ.C66_full_exact",
    "CZ.C66_full_raises"
   ],
   "note": "surface_only=True for every shape and number of shells; surface_only=False builds the graph from columns of the first four tetrahedra (C66_full_refuted, C66_full_raises)"
  },
  {
   "property": "C67",
   "status": "partial",
   "theorems": [
    "CZ.C67_settles",
    "CZ.C67_stops",
    "CZ.C67_no_nan",
    "CZ.C67_unit",
    "CZ.C67_nan_refuted",
    "CZ.C67_raises"
   ],
   "note": "every point set, sequence and parameter; the result is a unit vector, the untouched initial vector, or nan in one exactly described case (C67_nan_refuted: a point equal to the initial vector); C67_settles says when it stops"
  },
  {
   "property": "C68",
   "status": "proved",
   "theorems": [
    "CZ.C68_candidates",
    "CZ.C68_candidates_ok",
    "CZ.C68_filters_refused",
    "CZ.C68_result",
    "CZ.C68_bond_length",
    "CZ.C68_terminates",
    "CZ.C68_no_candidates",
    "CZ.C68_returns",
    "CZ.C68_place",
    "CZ.C68_place_ok",
    "CZ.C68_direction",
    "CZ.C68_direction_exact",
    "CZ.C68_antiparallel_raises"
   ],
   "note": "C68_result and C68_bond_length cover every successful call, C68_terminates every call, C68_returns gives conditions for success; a molecule vector opposite to the normal along an axis raises (C68_antiparallel_raises); whenever the call succeeds the molecule vector is aligned within two machine epsilons (C68_direction), exactly in the cases of C68_direction_exact; filters that do not fit raise the exceptions of C68_filters_refused"
  },
  {
   "property": "C69",
   "status": "proved",
   "theorems": [
    "CZ.Prefab.C69_fcc_layers",
    "CZ.Prefab.C69_wurtzite_layers",
    "CZ.Prefab.C69_multivolume_raises"
   ],
   "note": "every intact Volume (copying it preserves its interior), N, min_sep and random stream, for every call that returns; a MultiVolume raises (C69_multivolume_raises)"
  },
  {
   "property": "C70",
   "status": "proved",
   "theorems": [
    "CZ.Prefab.C70_fcc_grains",
    "CZ.Prefab.C70_kinds",
    "CZ.Prefab.C70_wurtzite_grains"
   ],
   "note": "every run that returns, with mirror twins and displacements stated on the crystals, for both prefabs"
  },
  {
   "property": "C71",
   "status": "partial",
   "theorems": [
    "CZ.Prefab.C71_split",
    "CZ.Prefab.C71_atoms",
    "CZ.Prefab.C71_constructor",
    "CZ.Prefab.C71_phases_ignored",
    "CZ.Prefab.C71_miller_raises",
    "CZ.Prefab.C71_exceptions",
    "CZ.Prefab.C71_opposite_axis_refuted"
   ],
   "note": "ownership and atoms for zone axes that are not zero and not opposite to z; the phases and the point argument are ignored (C71_phases_ignored), Miller indices raise AssertionError (C71_miller_raises), an axis along -z gives NaN (C71_opposite_axis_refuted)"
  },
  {
   "property": "C72",
   "status": "proved",
   "theorems": [
    "CZ.Wulff.C72_even",
    "CZ.Wulff.C72_raises"
   ],
   "note": "every number of forms, facets and grains; raises exactly when a form is not divisible (C72_raises)"
  },
  {
   "property": "C73",
   "status": "partial",
   "theorems": [
    "CZ.Wulff.C73_convenience_refuted",
    "CZ.Wulff.C73_convenience_error",
    "CZ.Wulff.C73_decahedron_refuted",
    "CZ.Wulff.C73_icosahedron_refuted",
    "CZ.Wulff.C73_decahedron_error",
    "CZ.Wulff.C73_icosahedron_error"
   ],
   "note": "false of the code: no convenience constructor nor the decahedron or icosahedron ever returns; the exceptions are C73_convenience_error, C73_decahedron_error, C73_icosahedron_error"
  },
  {
   "property": "C74",
   "status": "proved",
   "theorems": [
    "CZ.Mol.C74_species_match_positions",
    "CZ.Mol.C74_construction_checked"
   ],
   "note": "all histories, exceptions caught by the caller"
  },
  {
   "property": "C75",
   "status": "proved",
   "theorems": [
    "CZ.Mol.C75_origin_moves",
    "CZ.Mol.C75_origin_stays"
   ],
   "note": "fixed and tracked origin, with and without transform_origin"
  },
  {
   "property": "C76",
   "status": "partial",
   "theorems": [
    "CZ.Mol.C76_tracked_origin_partial",
    "CZ.Mol.C76_shift_refuted",
    "CZ.Mol.C76_alias_refuted",
    "CZ.Mol.C76_dangling_refuted"
   ],
   "note": "false of the code: the tracked index is neither shifted nor compared modulo n (three refutations); C76_tracked_origin_partial is what holds"
  },
  {
   "property": "C77",
   "status": "proved",
   "theorems": [
    "CZ.Mol.C77_removes_exactly",
    "CZ.Mol.C77_out_of_range",
    "CZ.Mol.C77_succeeds"
   ],
   "note": ""
  },
  {
   "property": "C78",
   "status": "partial",
   "theorems": [
    "CZ.Mol.C78_rejected_calls_partial",
    "CZ.Mol.C78_set_origin_effect",
    "CZ.Mol.C78_set_origin_refuted"
   ],
   "note": "false for set_origin(idx=...), which switches tracking on before checking; holds for every other call"
  },
  {
   "property": "C79",
   "status": "proved",
   "theorems": [
    "CZ.Mol.C79_orientation_is_rotation",
    "CZ.Mol.C79_accepts_rotations"
   ],
   "note": "invariant and exact acceptance window"
  },
  {
   "property": "C80",
   "status": "proved",
   "theorems": [
    "CZ.C80_structure_keeps_origin",
    "CZ.C80_order_irrelevant"
   ],
   "note": ""
  },
  {
   "property": "C81",
   "status": "proved",
   "theorems": [
    "CZ.C81_generator_origin"
   ],
   "note": ""
  },
  {
   "property": "C82",
   "status": "proved",
   "theorems": [
    "CZ.C82_rect_prism"
   ],
   "note": "convex hull as a set, both directions"
  },
  {
   "property": "C84",
   "status": "proved",
   "theorems": [
    "CZ.Mol.C84_from_molecule"
   ],
   "note": ""
  },
  {
   "property": "C83",
   "status": "proved",
   "theorems": [
    "CZ.C83_vangle"
   ],
   "note": "exact reals"
  },
  {
   "property": "C85",
   "status": "proved",
   "theorems": [
    "CZ.Mol.C85_construction",
    "CZ.Mol.C85_set_origin"
   ],
   "note": ""
  },
  {
   "property": "C86",
   "status": "partial",
   "theorems": [
    "CZ.Mol.C86_rejects_removed_partial",
    "CZ.Mol.C86_ignored",
    "CZ.Mol.C86_refuted"
   ],
   "note": "false of the code: the argument is checked and then ignored (C86_ignored)"
  },
  {
   "property": "C91",
   "status": "proved",
   "theorems": [
    "CZ.Wulff.C91_polyhedron",
    "CZ.Wulff.C91_constructor",
    "CZ.Wulff.C91_exceptions",
    "CZ.Wulff.C91_twinned",
    "CZ.Wulff.C91_centre"
   ],
   "note": "facet lists supplied by wulffpack are a parameter with unit normals; constructor arguments and their exceptions are C91_constructor and C91_exceptions, those of the twinned particles C91_twinned"
  },
  {
   "property": "C92",
   "status": "partial",
   "theorems": [
    "CZ.Wulff.C92_populate_refuted"
   ],
   "note": "false of the code: with more than three facets populate_atoms always raises ValueError because the bounding box is a tuple"
  },
  {
   "property": "C87",
   "status": "partial",
   "theorems": [
    "CZ.Prefab.C87_refuted",
    "CZ.Prefab.C87_fcc_partial",
    "CZ.Prefab.C87_wurtzite_partial"
   ],
   "note": "true when the origin of the generator is on the lattice (partial theorems, both prefabs); false otherwise because snap_plane_near_point ignores the origin (C87_refuted)"
  },
  {
   "property": "C88",
   "status": "partial",
   "theorems": [
    "CZ.Prefab.C88_offcentre",
    "CZ.Prefab.C88_refuted",
    "CZ.Prefab.C88_fcc_partial",
    "CZ.Prefab.C88_wurtzite_partial"
   ],
   "note": "true when the search direction is the plane normal (cubic cells; unrotated wurtzite) and spheres are centred at the origin; the centre of a sphere is ignored (C88_offcentre, C88_refuted)"
  },
  {
   "property": "C89",
   "status": "partial",
   "theorems": [
    "CZ.Prefab.C89_any_origin",
    "CZ.Prefab.C89_origin_refuted",
    "CZ.Prefab.C89_fcc_stacking_partial"
   ],
   "note": "unstrained cubic crystal with an atom of the species on a lattice plane through the coordinate origin, any orientation, every returning run (C89_fcc_stacking_partial). For any origin and any face-centred sublattice the grains and the stacking faults are right and a twin mirrors the layers in a plane at a multiple of the spacing counted from the coordinate origin (C89_any_origin), which is no atomic layer in general: atoms half a spacing apart (C89_origin_refuted)"
  },
  {
   "property": "C90",
   "status": "partial",
   "theorems": [
    "CZ.Prefab.C90_cubic_partial",
    "CZ.Prefab.C90_refuted",
    "CZ.Prefab.C90_exceptions",
    "CZ.Prefab.C90_no_structure",
    "CZ.Prefab.C90_planes_refuted",
    "CZ.Prefab.C90_fcc_returns_partial",
    "CZ.Prefab.C90_wurtzite_returns_partial"
   ],
   "note": "with room and the search direction along the normal both builders never raise and can return (C90_fcc_returns_partial, C90_cubic_partial, C90_wurtzite_returns_partial); with exactly too few planes the fcc builder hangs (C90_refuted), and a body given by planes is refused with AttributeError however large it is (C90_planes_refuted); the exceptions for volumes without extent are C90_exceptions"
  },
  {
   "property": "C93",
   "status": "partial",
   "theorems": [
    "CZ.Prefab.C93_reversed",
    "CZ.Prefab.C93_refuted"
   ],
   "note": "false of the code: the search direction uses the inverse cell without transposition; C93_reversed describes crystals for which it points the wrong way"
  },
  {
   "property": "C94",
   "status": "proved",
   "theorems": [
    "CZ.Prefab.C94_basal_faults",
    "CZ.Prefab.C94_fault_vector",
    "CZ.Prefab.C94_wurtzite_stacking"
   ],
   "note": "unstrained crystal in any orientation, every returning run; stacking for every origin, hcp sublattice and size (C94_basal_faults); which layers are common for an origin on the lattice and a body below about 3000 cells, as the parity test of the code uses np.allclose (C94_wurtzite_stacking, C94_fault_vector); planes outside the body (C93) are not excluded here"
  },
  {
   "property": "C95",
   "status": "proved",
   "theorems": [
    "CZ.C95_scene_contents",
    "CZ.C95_populate_succeeds",
    "CZ.C95_crystals",
    "CZ.C95_no_objects"
   ],
   "note": "every scene of Volumes, nested MultiVolumes and Molecules (with as many species as atoms, C74) in any state; C95_crystals states the atoms for bodies bounded by spheres or (exact hull test) points; one object held twice is not expressed"
  },
  {
   "property": "C96",
   "status": "partial",
   "theorems": [
    "CZ.C96_history_partial",
    "CZ.C96_images",
    "CZ.C96_scene_moves_rigidly_partial",
    "CZ.C96_repopulate",
    "CZ.C96_translation",
    "CZ.C96_refuted",
    "CZ.C96_strained_refuted"
   ],
   "note": "rigid motions: molecules with a readable origin and nested MultiVolumes of Volumes with at least one sphere, or with cylinders and at most three planes, filled by unstrained crystals without sites in the tolerance shell, no axis of a cylinder along the space diagonal (it has no bounding box there, C26); translations (C96_translation): every Volume without points that can be populated, crystals strained about their origin included, no condition on the sites; without these conditions the claim is false (C96_refuted: a site in the tolerance shell; C96_strained_refuted: a compressed crystal); Volumes with points cannot be transformed (C18)"
  },
  {
   "property": "C97",
   "status": "partial",
   "theorems": [
    "CZ.C97_exact",
    "CZ.C97_volumes_stale",
    "CZ.C97_molecules_partial",
    "CZ.C97_refuted"
   ],
   "note": "false of the code: volumes keep the old array until populate() while molecules move at once (C97_exact); true for scenes of molecules"
  },
  {
   "property": "C98",
   "status": "partial",
   "theorems": [
    "CZ.C98_builds",
    "CZ.C98_refused",
    "CZ.C98_distances_iff",
    "CZ.C98_right_angles_partial",
    "CZ.C98_unit_cell_refuted"
   ],
   "note": "false of the code: true exactly for cells with three right angles (C98_distances_iff), because the rows of the lattice matrix are used as columns; pymatgen Lattice.from_parameters is modelled by its formula"
  },
  {
   "property": "C99",
   "status": "partial",
   "theorems": [
    "CZ.C99_one_given_partial",
    "CZ.C99_refused",
    "CZ.C99_symbol_wins",
    "CZ.C99_number_overrides_refuted"
   ],
   "note": "with one of sgn and sym the right group is used; with both the symbol wins although the documentation says the number (C99_symbol_wins)"
  },
  {
   "property": "C100",
   "status": "partial",
   "theorems": [
    "CZ.C100_history_partial",
    "CZ.C100_wrong_class",
    "CZ.C100_iterator_dropped",
    "CZ.C100_iterator_identity",
    "CZ.C100_refuted"
   ],
   "note": "true for single objects, lists, tuples, arrays; an iterator or generator expression is silently dropped, because it is run through by the class check first (C100_iterator_dropped, C100_iterator_identity)"
  },
  {
   "property": "C101",
   "status": "proved",
   "theorems": [
    "CZ.C101_composition",
    "CZ.C101_functions",
    "C101_nesting"
   ],
   "note": ""
  },
  {
   "property": "C102",
   "status": "partial",
   "theorems": [
    "C102_one_substitution_partial",
    "C102_seeded_chain_refuted"
   ],
   "note": "true with at most one substitution; with a seed every member sees the same random numbers, so some results become impossible"
  },
  {
   "property": "C103",
   "status": "proved",
   "theorems": [
    "CZ.C103_scene_view",
    "CZ.C103_after_populate",
    "CZ.C103_errors",
    "CZ.C103_projections",
    "CZ.C103_data_view",
    "CZ.C103_widgets"
   ],
   "note": "what is handed to matplotlib; the drawing itself is outside the model"
  },
  {
   "property": "C104",
   "status": "partial",
   "theorems": [
    "CZ.Scene.C104_in_order_partial",
    "CZ.Scene.C104_sorted_index",
    "CZ.Scene.C104_index_refuted"
   ],
   "note": "true when objects are added in order of priority number; populate() sorts the object list, so in general the index counts by priority (C104_sorted_index)"
  },
  {
   "property": "C105",
   "status": "proved",
   "theorems": [
    "CZ.Mol.C105_accepted_iff",
    "CZ.Mol.C105_effect",
    "CZ.Mol.C105_history",
    "CZ.Mol.C105_exceptions",
    "CZ.Mol.C105_origin"
   ],
   "note": "every operation of the molecule state machine; orientation is not rotated by transform (the code leaves it)"
  },
  {
   "property": "C106",
   "status": "partial",
   "theorems": [
    "CZ.PrefabSet.C106_assignment",
    "CZ.PrefabSet.C106_refused",
    "CZ.PrefabSet.C106_always_valid",
    "CZ.PrefabSet.C106_constructor",
    "CZ.PrefabSet.C106_exceptions",
    "CZ.PrefabSet.C106_negative_refuted",
    "CZ.AmorphousSet.C106_amorphous_assignment",
    "CZ.AmorphousSet.C106_amorphous",
    "CZ.AmorphousSet.C106_amorphous_constructor"
   ],
   "note": "proved except for signs: negative N and min_sep are accepted (C106_negative_refuted)"
  },
  {
   "property": "C107",
   "status": "proved",
   "theorems": [
    "CZ.Wulff.C107_strain",
    "CZ.Wulff.C107_icosahedral"
   ],
   "note": "stated for the two helper methods; get_construction of the class calls them wrongly and never returns (C73)"
  },
  {
   "property": "C108",
   "status": "partial",
   "theorems": [
    "CZ.Scene.C108_export",
    "CZ.Scene.C108_export_refused",
    "CZ.Scene.C108_bounds",
    "CZ.Scene.C108_constructor",
    "CZ.Scene.C108_box_partial",
    "CZ.Scene.C108_box_refuted"
   ],
   "note": "positions are not shifted, so the box contains the atoms only when the bounds start at the origin (C108_box_partial, C108_box_refuted)"
  },
  {
   "property": "C109",
   "status": "proved",
   "theorems": [
    "CZ.Tr.C109_translation",
    "CZ.Tr.C109_matrix",
    "CZ.Tr.C109_inversion",
    "CZ.Tr.C109_sequence",
    "CZ.Tr.C109_bases",
    "CZ.Tr.C109_rot_v",
    "CZ.Tr.C109_rot_vtv",
    "CZ.Tr.C109_collapse"
   ],
   "note": "all transformations over any ordered field, rot_v and rot_vtv over the reals with cos and sin of Mathlib; when rot_vtv is given opposite vectors the axis is chosen by the code and only C40 applies; what happens to surfaces is C39-C49"
  },
  {
   "property": "C110",
   "status": "partial",
   "theorems": [
    "CZ.Tr.C110_rot_align_always_raises",
    "CZ.Tr.C110_rot_align_refuted"
   ],
   "note": "false of the code: scipy align_vectors returns a pair, so the call of as_matrix raises AttributeError for every input (C110_rot_align_always_raises)"
  },
  {
   "property": "C111",
   "status": "proved",
   "theorems": [
    "CZ.Vol.C111_frame",
    "CZ.Vol.C111_settings",
    "CZ.Vol.C111_region",
    "CZ.Vol.C111_region_surfaces",
    "CZ.Vol.C111_constructor",
    "CZ.Vol.C111_setter_exceptions",
    "CZ.Vol.C111_point_exceptions",
    "CZ.Vol.C111_fill_exceptions",
    "CZ.C111_empty_box"
   ],
   "note": "histories without motions for the list of surfaces and the region (motions are C17, C18); points added later enlarge points and hull but not the triangulation that checkIfInterior uses (C20); the kinds of the exceptions of every call are stated separately (C111_setter_exceptions, C111_point_exceptions, C111_fill_exceptions, C111_empty_box), for a populated box the exceptions of the crystal are those of C28-C33"
  },
  {
   "property": "C112",
   "status": "partial",
   "theorems": [
    "CZ.Rdf.C112_bins_partial",
    "CZ.Rdf.C112_width_partial",
    "CZ.Rdf.C112_steps_refuted",
    "CZ.Rdf.C112_voxels_partial"
   ],
   "note": "point sets for which C59 holds and cutoffs that are multiples of 0.1 (then the width is 0.1); for other cutoffs the bins are wider (C112_steps_refuted)"
  },
  {
   "property": "C113",
   "status": "proved",
   "theorems": [
    "CZ.C113_half_space",
    "CZ.C113_away",
    "CZ.C113_never_better"
   ],
   "note": "neighbours seen under more than a minimal angle (the initial vector 1e-10*(1,1,1) must not dominate) and draws that visit every neighbour; the normal kept by the margin loop is the last one, not the best one found (C113_never_better)"
  },
  {
   "property": "C114",
   "status": "partial",
   "theorems": [
    "CZ.C114_raises",
    "CZ.C114_vertices",
    "CZ.C114_success",
    "CZ.C114_out_of_reach",
    "CZ.C114_no_region",
    "CZ.C114_unbounded",
    "CZ.C114_region_partial",
    "CZ.C114_infeasible_refuted",
    "CZ.C114_unbounded_refuted",
    "CZ.C114_touching_partial",
    "CZ.C114_touching_refuted",
    "CZ.C114_round_trip_partial"
   ],
   "note": "false as documented: linprog is called with its default non-negative variables, so a bounded region on the negative side can be reported absent (C114_infeasible_refuted, C114_touching_refuted), and a prism is not reported unbounded (C114_unbounded_refuted). Exact conditions: C114_success, C114_out_of_reach, C114_unbounded, C114_no_region; sufficient: C114_region_partial, C114_touching_partial; round trip with convex_hull_to_planes: C114_round_trip_partial (centroid farther than the tolerance from the facets, first facet points not all with the same vanishing coordinate)"
  },
  {
   "property": "C115",
   "status": "partial",
   "theorems": [
    "CZ.Wulff.Obj.C115_kept",
    "CZ.Wulff.Obj.C115_first",
    "CZ.Wulff.Obj.C115_retry",
    "CZ.Wulff.Obj.C115_areas_before",
    "CZ.Wulff.Obj.C115_areas_after",
    "CZ.Wulff.Obj.C115_winterbottom",
    "CZ.Wulff.Obj.C115_natoms_refuted",
    "CZ.Wulff.Obj.C115_current_partial",
    "CZ.Wulff.Obj.C115_structure_refuted",
    "CZ.Wulff.Obj.C115_exceptions",
    "CZ.Wulff.Obj.C115_accepted",
    "CZ.Wulff.Obj.C115_refused_partial",
    "CZ.Wulff.Obj.C115_refused_refuted"
   ],
   "note": "false of the code: the particle is computed once and kept, so attributes set after the first construction have no effect on the shape (C115_kept, C115_natoms_refuted); a structure given to the attached generator is not noticed (C115_structure_refuted); a generator without a structure is refused but attached (C115_refused_refuted). Proved: the first construction uses the attributes then held, failures of WulffPack are not kept, get_areas and winterbottom. WulffPack is a parameter; changes inside the dict of energies are not modelled"
  },
  {
   "property": "C116",
   "status": "partial",
   "theorems": [
    "CZ.Prefab.C116_fcc",
    "CZ.Prefab.C116_wurtzite",
    "CZ.Prefab.C116_boundary",
    "CZ.Prefab.C116_no_defects",
    "CZ.Prefab.C116_no_defects_wurtzite",
    "CZ.Prefab.C116_precedence_refuted"
   ],
   "note": "the grains carry structure, strain and post-transformation for every run (C116_fcc, C116_wurtzite, C116_boundary); without defects one grain (C116_no_defects, C116_no_defects_wurtzite: a negative N is such a case and gives the grain a negative number). False: the precedence of the volume is replaced by 0 (C116_precedence_refuted)"
  },
  {
   "property": "C117",
   "status": "partial",
   "theorems": [
    "CZ.TrSet.C117_refused",
    "CZ.TrSet.C117_as_new",
    "CZ.TrSet.C117_rotation",
    "CZ.TrSet.C117_inversion",
    "CZ.TrSet.C117_unset",
    "CZ.TrSet.C117_reflection_partial",
    "CZ.TrSet.C117_reflection_origin_refuted",
    "CZ.TrSet.C117_reflection_write_back_refuted",
    "CZ.TrSet.C117_reflection_vector_refuted",
    "CZ.TrSet.C117_reflection_row_refuted",
    "CZ.TrSet.C117_reflection_matrix_refuted",
    "CZ.TrSet.C117_flags",
    "CZ.TrSet.C117_translation_partial",
    "CZ.TrSet.C117_translation_column_refuted"
   ],
   "note": "proved for rotations (one part in a million, the tolerance of the setter), inversions, objects without matrix and refused assignments; false for a Reflection whose origin or matrix is assigned (C117_reflection_origin_refuted, C117_reflection_write_back_refuted, C117_reflection_vector_refuted, C117_reflection_row_refuted, C117_reflection_matrix_refuted) and for a Translation given a column (C117_translation_column_refuted). Arrays changed in place after assignment are C122"
  },
  {
   "property": "C118",
   "status": "partial",
   "theorems": [
    "CZ.Pool.C118_shared_partial",
    "CZ.Pool.C118_kinds_partial",
    "CZ.Pool.C118_origin_type_refuted",
    "CZ.Pool.C118_origin_refuted"
   ],
   "note": "proved for all programs that do not assign origin_type (C118_shared_partial), and for all others unless an origin scraped from a generator is the one in use (C118_kinds_partial); then, after `origin_type = \"global\"`, the origin of the generator asked last is used (C118_origin_type_refuted), and an origin assigned to a field of the generator kind is ignored (C118_origin_refuted). Only HStrain: no IStrain can be made (C36)"
  },
  {
   "property": "C119",
   "status": "partial",
   "theorems": [
    "CZ.Pool.C119_independent_partial",
    "CZ.Pool.C119_structure",
    "CZ.Pool.C119_voxel_assigned_refuted"
   ],
   "note": "proved for generators that do not share their voxel object; `g.voxel = h.voxel` shares it, so that moving h moves g (C119_voxel_assigned_refuted); assigning a structure ends the sharing (C119_structure)"
  },
  {
   "property": "C120",
   "status": "partial",
   "theorems": [
    "CZ.Studio.C120_shared_objects_partial",
    "CZ.Studio.C120_order_of_scenes_partial",
    "CZ.Studio.C120_as_if_alone",
    "CZ.Studio.C120_touch",
    "CZ.Studio.C120_bounds",
    "CZ.Studio.C120_random_refuted",
    "CZ.Studio.C120_vacancies_refuted"
   ],
   "note": "proved for crystals without random post-transformation, amorphous generators (whose seed never changes), empty generators and molecules (C120_shared_objects_partial, C120_order_of_scenes_partial), and for any objects at the moment of populating (C120_as_if_alone); a ChemicalSubstitution is drawn anew for every scene, which changes the species reported by the scenes populated before (C120_random_refuted) and, when atoms are dropped by species, makes them raise IndexError (C120_vacancies_refuted). Transforming a shared object is C97. A Volume at once in a scene and inside a MultiVolume is not modelled"
  },
  {
   "property": "C121",
   "status": "partial",
   "theorems": [
    "CZ.Studio.C121_moved_one_by_one_partial",
    "CZ.Studio.C121_refuted"
   ],
   "note": "objects of the scene are molecules and nested volumes of crystal: balls and rods without sites in the tolerance shell may be moved by locked rigid motions that put no axis along the space diagonal, all other forms (strained crystals included) by translations; outside these the claim is false already for one object (C121_refuted; C96_refuted, C17, C18, C42); the objects of the other scenes are arbitrary; an object may be listed twice"
  },
  {
   "property": "C122",
   "status": "partial",
   "theorems": [
    "CZ.Arrays.C122_arrays_as_values_partial",
    "CZ.Arrays.C122_handed_out",
    "CZ.Arrays.C122_until_renewed",
    "CZ.Arrays.C122_calc_rdf_writes",
    "CZ.Arrays.C122_shared_refuted"
   ],
   "note": "false of arrays that properties hand out and of the three setters which keep the array (MatrixTransform.matrix, Rotation.matrix, Molecule.orientation): C122_shared_refuted; how far it reaches: C122_handed_out, C122_until_renewed. Proved for programs that write only into arrays of their own (C122_arrays_as_values_partial), which also covers calc_rdf(scene.all_atoms). Views are not modelled"
  },
  {
   "property": "C123",
   "status": "partial",
   "theorems": [
    "CZ.Amo.C123_ends_partial",
    "CZ.Amo.C123_never_ends",
    "CZ.Amo.C123_min_dist_refuted",
    "CZ.Batch.C123_batch_progress",
    "CZ.Batch.C123_batch_ends_partial",
    "CZ.Batch.C123_batch_never_ends",
    "CZ.Batch.C123_padding_refuted"
   ],
   "note": "ends when there is always room for one more atom (C123_ends_partial, C123_batch_ends_partial, any box; randomness enters only as: the stream comes back to every part of the unit cube); without room neither function returns nor raises (C123_never_ends, C123_batch_never_ends), and an AmorphousGenerator with min_dist of 4.4 or more hangs on a cube of 10 whatever its density, because supply_atoms does not pass the density on (C123_min_dist_refuted). In batches a min_dist of 1000 or more can be refused because of the padding rows (C123_padding_refuted)"
  },
  {
   "property": "C124",
   "status": "partial",
   "theorems": [
    "CZ.SurfSet.C124_sphere_partial",
    "CZ.SurfSet.C124_sphere_column_refuted",
    "CZ.SurfSet.C124_plane_partial",
    "CZ.SurfSet.C124_plane_matrix_refuted",
    "CZ.SurfSet.C124_cylinder_partial",
    "CZ.SurfSet.C124_nan_refuted",
    "CZ.SurfSet.C124_refused",
    "CZ.SurfSet.C124_exceptions"
   ],
   "note": "false of centres of shape (3,1), points of shape (3,3) and nan, all of which are accepted: C124_sphere_column_refuted, C124_plane_matrix_refuted, C124_nan_refuted. Proved for all other histories (C124_sphere_partial, C124_plane_partial, C124_cylinder_partial, infinite sizes included), with the exception of every refused value (C124_exceptions) and unchanged objects after it (C124_refused)"
  },
  {
   "property": "C125",
   "status": "partial",
   "theorems": [
    "CZ.GenSet.C125_accepted",
    "CZ.GenSet.C125_refused_partial",
    "CZ.GenSet.C125_history_partial",
    "CZ.GenSet.C125_supplied_partial",
    "CZ.GenSet.C125_exceptions",
    "CZ.GenSet.C125_constructor",
    "CZ.GenSet.C125_structure_refuted",
    "CZ.GenSet.C125_scale_refuted"
   ],
   "note": "false of structures whose lattice is refused: they are stored all the same, and the atoms of the new structure appear on the old lattice (C125_structure_refuted); zero and arrays with more than two axes are accepted as scale, after which no atoms can be supplied (C125_scale_refuted). Proved for all other histories (C125_accepted, C125_refused_partial, C125_history_partial, C125_supplied_partial), with the exact exceptions (C125_exceptions) and the constructor (C125_constructor)"
  },
  {
   "property": "C126",
   "status": "partial",
   "theorems": [
    "CZ.Seeds.C126_seeded",
    "CZ.Seeds.C126_programs",
    "CZ.Seeds.C126_global_partial",
    "CZ.Seeds.C126_global_refuted",
    "CZ.Seeds.C126_sampling_refuted"
   ],
   "note": "proved for the functions that take all their numbers from the seed (C126_seeded, C126_programs). False for add_adsorbate with a seed and use_sampling=False: the noise of the alpha shape comes from the global generator, and with the same seed one state gives a molecule and another ValueError (C126_sampling_refuted). np.random.seed determines everything but the generators made without a seed (C126_global_partial, C126_global_refuted). A keyword seed=None of add_adsorbate, and the rng of prefabs and generators, are not part of this model (C120)"
  },
  {
   "property": "C127",
   "status": "partial",
   "theorems": [
    "CZ.Prefab.C127_last",
    "CZ.Prefab.C127_others",
    "CZ.Prefab.C127_grains",
    "CZ.Prefab.C127_constructor",
    "CZ.Prefab.C127_refused",
    "CZ.Prefab.C127_none_follows_refuted",
    "CZ.Prefab.C127_one_array",
    "CZ.Prefab.C127_in_place",
    "CZ.Prefab.C127_accepted_usable_refuted"
   ],
   "note": "proved for all histories (C127_last, C127_others, C127_grains, C127_constructor, C127_refused). Findings: None for z2 is no link, a z1 assigned later leaves the second grain behind (C127_none_follows_refuted), though a change of z1 in place moves both (C127_one_array); zone axes of shape (1,3) are accepted and then unusable (C127_accepted_usable_refuted). Arrays with more than two axes are not modelled"
  },
  {
   "property": "C128",
   "status": "partial",
   "theorems": [
    "CZ.Gallery.C128_as_if_copied_partial",
    "CZ.Gallery.C128_add_object",
    "CZ.Gallery.C128_bounds",
    "CZ.Gallery.C128_add_volume",
    "CZ.Gallery.C128_molecule_moved",
    "CZ.Gallery.C128_how_often",
    "CZ.Gallery.C128_first_raises",
    "CZ.Gallery.C128_moving_draws_nothing",
    "CZ.Gallery.C128_cycle",
    "CZ.Gallery.C128_settled_partial",
    "CZ.Gallery.C128_own_container",
    "CZ.Gallery.C128_as_if_copied_refuted"
   ],
   "note": "deterministic generators (no post transformation that draws random numbers); with random ones sharing is visible (C128_as_if_copied_refuted). Finding: a volume in a scene beside a MultiVolume that contains it, with equal priorities (the default), leaves no atom inside the volume (C128_own_container). Exceptions part way are covered by the settled theorem, and by the comparison with copies as far as their kind; what is left in the objects after one is not compared; what single calls change and how often generators are called: C128_add_object, C128_add_volume, C128_bounds, C128_molecule_moved, C128_how_often, C128_first_raises, C128_moving_draws_nothing (Props/GalleryEdits)"
  },
  {
   "property": "C129",
   "status": "partial",
   "theorems": [
    "CZ.Prefab.C129_origin_refuted",
    "CZ.Prefab.C129_sites_partial",
    "CZ.Prefab.C129_populated_partial"
   ],
   "note": "unstrained cubic crystal with cell at least 1e-4 (ten times the tolerance of planes) and an atom of the species at the coordinate origin up to lattice vectors, planes {111}, min_sep at least 1; every returning run, atoms of one species (C129_sites_partial: what the grains own; C129_populated_partial: what the built object holds after populate_atoms, crystal without post-transformation and repeated sites). With other origins it is false: C129_origin_refuted populates a twinned ball that holds two atoms 1/(2 sqrt 3) of a cell apart"
  },
  {
   "property": "C130",
   "status": "partial",
   "theorems": [
    "CZ.Recipes.C130_particle_partial",
    "CZ.Recipes.C130_placing_refuted",
    "CZ.Recipes.C130_core_shell_refuted"
   ],
   "note": "C130_particle_partial: unstrained crystal without post-transform, cubic cell of at least 1e-4 and below 1/eps, scaling by a number or per column, lattice point at the coordinate origin, 2 <= i and i + 3 <= j for the numbers of layers of the faults; distances of atoms of one species. Missing: the rotation to a random zone axis that the page applies afterwards (C96 covers motions of populated objects) and the substrate. C130_placing_refuted and C130_core_shell_refuted: the two calls of the pages which raise, for every radius and every cubic crystal."
  },
  {
   "property": "C131",
   "status": "partial",
   "theorems": [
    "CZ.Prefab.C131_fcc",
    "CZ.Prefab.C131_wurtzite",
    "CZ.Prefab.C131_boundary",
    "CZ.Prefab.C131_three_planes",
    "CZ.Prefab.C131_three_planes_refuted"
   ],
   "note": "unstrained crystals without post-transform, invertible cells, site coordinates strictly between -1 and 1 for the converse (all of them), bodies with points, with spheres or with fewer than three planes, whose box consists of corners; sites in the tolerance shell outside the region of the box may be missing. False for bodies of a cylinder and three planes: the copies with the defect plane have four planes, and populate_atoms raises ValueError (C131_three_planes for every run of the fcc prefab, C131_three_planes_refuted for a rod on which build_object succeeds)"
  },
  {
   "property": "C132",
   "status": "partial",
   "theorems": [
    "CZ.Roster.C132_as_if_new",
    "CZ.Roster.C132_raises",
    "CZ.Roster.C132_empty",
    "CZ.Roster.C132_unpopulated",
    "CZ.Roster.C132_object",
    "CZ.Roster.C132_added",
    "CZ.Roster.C132_removed_partial",
    "CZ.Roster.C132_removed_refuted",
    "CZ.Roster.C132_type_errors",
    "CZ.Roster.C132_refused",
    "CZ.Roster.C132_stale",
    "CZ.Roster.C132_lengths"
   ],
   "note": "populate_atoms of an object has a fixed outcome. The last sentence is false: removing an object other than the one with the largest priority number makes the scene read the remaining rows with the mask of another object, without an exception if the numbers of rows agree (C132_removed_refuted); it holds for that one object (C132_removed_partial). Everything else is proved (C132_as_if_new, C132_empty, C132_unpopulated, C132_added, C132_object, C132_raises, C132_type_errors); refused edits leave the scene as it is (C132_refused), objects of which the scene has no mask raise (C132_stale) and the arrays for ASE always have one length (C132_lengths)"
  },
  {
   "property": "C133",
   "status": "partial",
   "theorems": [
    "CZ.C133_scene_moves_partial",
    "CZ.C133_copies_partial",
    "CZ.C133_shell_refuted",
    "CZ.C133_in_place_partial",
    "CZ.C133_in_place_refuted"
   ],
   "note": "For molecules and nested volumes of balls and rods of unstrained crystal whose sites inside lie outside the tolerance shells (Movable): C133_scene_moves_partial, C133_copies_partial. Missing: bodies given by points or planes alone, strained and amorphous contents. With a site in the tolerance shell it is false (C133_shell_refuted). The last sentence is false: a Molecule claims no space, so atoms of other objects inside the Volume reappear (C133_in_place_refuted); it holds if no object of the same or a larger priority number has atoms there (C133_in_place_partial)"
  },
  {
   "property": "C134",
   "status": "partial",
   "theorems": [
    "CZ.C134_count",
    "CZ.C134_when",
    "CZ.C134_raises",
    "CZ.C134_silent",
    "CZ.Mol.C134_transform",
    "CZ.Mol.C134_switched_off",
    "CZ.Mol.C134_from_molecule",
    "CZ.Mol.C134_tracking_partial",
    "CZ.C134_tracking_refuted"
   ],
   "note": "C134_count, C134_when, C134_silent, C134_raises for scenes whose populate() is described in World (Balanced molecules); print_warnings plays no part there. C134_transform, C134_from_molecule, C134_switched_off for molecules whose origin can be read. The last sentence is false: the tracked atom moves and with it the origin (C134_tracking_refuted), whenever the warning is issued (C134_tracking_partial). What the filters of the warnings module do with a warning is not described"
  },
  {
   "property": "C135",
   "status": "partial",
   "theorems": [
    "CZ.C135_plane_motion",
    "CZ.C135_flip",
    "CZ.C135_zero",
    "CZ.C135_box_rows",
    "CZ.C135_box_region",
    "CZ.C135_box_tight",
    "CZ.C135_box_translation",
    "CZ.C135_box_motion_partial",
    "CZ.C135_box_rotation_refuted"
   ],
   "note": "C135_plane_motion, C135_flip, C135_zero for planes with a unit normal (every constructed Plane, C48). C135_box_rows, C135_box_region, C135_box_tight for cylinders that have a box (all but those along the space diagonal, C26). The last sentence holds for translations (C135_box_translation) and is false for rotations (C135_box_rotation_refuted): the square is aligned with the projection of (1,1,1); the new box encloses the moved cylinder all the same (C135_box_motion_partial)"
  },
  {
   "property": "C136",
   "status": "partial",
   "theorems": [
    "CZ.Prefab.C136_same_crystal_partial",
    "CZ.Prefab.C136_lattice_vector",
    "CZ.Prefab.C136_symmetry",
    "CZ.Prefab.C136_cell",
    "CZ.Prefab.C136_same_crystal_refuted",
    "CZ.Prefab.C136_enclosed",
    "CZ.Prefab.C136_grains_partial"
   ],
   "note": "crystals without strain and post-transform, invertible cells, fractional coordinates strictly between -1 and 1 and without repetitions. C136_same_crystal_partial and C136_grains_partial: atoms in the region of the bounding box; C136_enclosed: all atoms, for bodies that do not stick out of their box. In the tolerance shell of a sphere the description matters (C136_same_crystal_refuted: fractional coordinates 1/20 and -19/20). C136_lattice_vector, C136_symmetry and C136_cell: the pairs of descriptions named"
  },
  {
   "property": "C137",
   "status": "proved",
   "theorems": [
    "CZ.Density.C137_convex_bodies",
    "CZ.Density.C137_ball",
    "CZ.Density.C137_cylinder",
    "CZ.Density.C137_hull",
    "CZ.Density.C137_block",
    "CZ.Density.C137_composition"
   ],
   "note": "C137_ball, C137_composition, C137_cylinder (axes other than the space diagonal, which have no box), C137_hull and C137_block (exact point location, tolerance 0, growth about a point inside; the tolerance of a hull is relative to its simplices, so a positive one changes the limit), C137_convex_bodies (general form). No condition on the basis positions: sites lost at the rim of the block of cells do not count in the limit"
  },
  {
   "property": "C138",
   "status": "proved",
   "theorems": [
    "CZ.Fl.C138_on_surface",
    "CZ.Fl.C138_beyond",
    "CZ.Fl.C138_directions",
    "CZ.Fl.C138_plane_as_given",
    "CZ.Fl.C138_site",
    "CZ.Fl.C138_cells",
    "CZ.Fl.C138_filled",
    "CZ.Fl.C138_contents",
    "CZ.Fl.C138_list",
    "CZ.Fl.C138_same_atoms",
    "CZ.Fl.C138_populate",
    "CZ.Fl.C138_ball",
    "CZ.Fl.C138_extents"
   ],
   "note": "any arithmetic (Arith) whose operations have relative error 2^-53 plus 2^-1075, and dot products the error bound common to all orders and to fused operations; binary64 and binary64Fma are instances. Overflow is not expressed. Crystals without strain and post-transformation, fractional coordinates strictly between -1 and 1 with room for the error of the extents; that error (np.linalg.solve) is a parameter (Accurate). C138_on_surface, C138_beyond, C138_directions, C138_plane_as_given, C138_site, C138_cells, C138_filled, C138_contents, C138_list, C138_same_atoms, C138_populate (agreement with the exact model), C138_ball"
  },
  {
   "property": "C139",
   "status": "proved",
   "theorems": [
    "CZ.Fl.C139_tests",
    "CZ.Fl.C139_site",
    "CZ.Fl.C139_filled",
    "CZ.Fl.C139_contents",
    "CZ.Fl.C139_list",
    "CZ.Fl.C139_same_atoms",
    "CZ.Fl.C139_rotation",
    "CZ.Fl.C139_inversion",
    "CZ.Fl.C139_machines",
    "CZ.Fl.C139_populate",
    "CZ.Fl.C139_loose_rotation"
   ],
   "note": "any arithmetic (Arith, see C138). Moves: Translation, Rotation, Inversion and general matrices that keep inner products up to d (Keeps), locked, one after the other; Reflection raises on surfaces. C139_tests (moved surfaces), C139_site (coordinates), C139_filled, C139_contents, C139_list, C139_same_atoms (moved against unmoved), C139_machines, C139_populate (agreement with Volume.transform and populate_atoms of the exact model), C139_rotation and C139_inversion (which matrices qualify), C139_loose_rotation (an accepted matrix that is off by 10^-6 loses an atom on the surface of a ball of radius 100). Bounding box and extents after the moves enter with their error as a parameter (Accurate), relative to the exact image. Crystals without strain and post-transformation, scale 1"
  },
  {
   "property": "C140",
   "status": "proved",
   "theorems": [
    "CZ.Fl.C140_ceded",
    "CZ.Fl.C140_kept",
    "CZ.Fl.C140_contents",
    "CZ.Fl.C140_list",
    "CZ.Fl.C140_same_atoms",
    "CZ.Fl.C140_interface"
   ],
   "note": "any arithmetic (Arith, see C138); bodies made of surfaces alone, crystals without strain and post-transformation. C140_ceded needs nothing about the crystals; C140_kept, C140_contents, C140_interface, C140_list for sites whose coordinates are computed well within the tolerances (Fine, with all surfaces of the scene); C140_same_atoms also for bodies in an accurate box (Boxed). Priorities are integers and exact."
  },
  {
   "property": "C141",
   "status": "partial",
   "theorems": [
    "CZ.Fl.Amo.C141_separation",
    "CZ.Fl.Amo.C141_no_exception_partial",
    "CZ.Fl.Amo.C141_index_refuted"
   ],
   "note": "any arithmetic (Arith, see C138) that keeps signs; the square of min_dist is within 2^-51 (the C function pow is not modelled), boxes between 2^-20 and 2^20 minimal distances. C141_separation: all draws. C141_no_exception_partial: all draws up to 1 - 2^-51, that is all but the three largest of the 2^53. C141_index_refuted: 64-bit floats, box length 3 min_dist + 2^-52, draw 1 - 2^-53, IndexError. The number of atoms is exact up to 1/2 and 2^-50 of it. Distances across the periodic faces are not claimed (see C61)."
  },
  {
   "property": "C142",
   "status": "proved",
   "theorems": [
    "CZ.Fl.C142_shape",
    "CZ.Fl.C142_angles",
    "CZ.Fl.C142_back",
    "CZ.Fl.C142_exact",
    "CZ.Fl.C142_reflection",
    "CZ.Fl.C142_drift"
   ],
   "note": "any arithmetic (Arith, see C138); at most 2^30 moves. C142_shape (species, order, distances, distances from the origin; transform does not raise), C142_angles, C142_back, C142_reflection (normals as the setter leaves them), C142_exact (agreement with Molecule.transform of the exact model), C142_drift (accepted matrix that stretches without bound). The orientation attribute is not changed by transform (C105). The matrices of rot_v and the other helpers contain sines and cosines and are not followed; they enter through d."
  },
  {
   "property": "C143",
   "status": "partial",
   "theorems": [
    "CZ.Fl.C143_same",
    "CZ.Fl.C143_aligns_partial",
    "CZ.Fl.C143_parallel_refuted",
    "CZ.Fl.C143_opposite_refuted",
    "CZ.Fl.C143_exact",
    "CZ.Fl.C143_flip",
    "CZ.Fl.C143_flip_refuted"
   ],
   "note": "C143_aligns_partial: angles at least about 10^-6 away from 0 and from half a turn (sine at least 2^-20), any arithmetic (Arith, see C138) and any libraries for arccos, sin and cos (Trig). Nearer to these it is false. C143_same: rot_vtv(v, v) is the identity or NaN, never anything else; C143_parallel_refuted: it is NaN for (1,1,1) (computed cosine above 1) and for (1,1,0) (cosine below 1, cross product 0), and Rotation refuses it with AssertionError. C143_opposite_refuted: for (9,5,3) and -0.7 times it in floats the axis consists of rounding errors, the matrix is accepted and takes the vector about 110 degrees away from the target. C143_flip: rot_vtv(v, -v) is NaN or turns v over, if v is not nearly the negative direction of its smallest coordinate; C143_flip_refuted: for the negative direction of an axis it is always NaN. Exact arithmetic: C45."
  },
  {
   "property": "C144",
   "status": "proved",
   "theorems": [
    "C144_list",
    "C144_same_atoms",
    "C144_empty",
    "C144_ceded"
   ],
   "note": "any arithmetic (Arith, see C138). C144_list and C144_same_atoms: settled sites, as in C140; C144_ceded: any sites; C144_empty: when populate raises. Leaves are Volumes bounded by surfaces and filled by unstrained crystals; hulls of points, Molecules and amorphous fillings inside MultiVolumes are exact only (C13 to C17)"
  },
  {
   "property": "C145",
   "status": "proved",
   "theorems": [
    "CZ.Fl.C145_list",
    "CZ.Fl.C145_same_atoms"
   ],
   "note": "any arithmetic (Arith, see C138). C145_list (images of the exact sites), C145_same_atoms (images of the atoms before the move). Volumes bounded by surfaces and filled by unstrained crystals; the errors of matrices must fit the budget of C139, which loose matrices accepted by Rotation do not (C139_loose_rotation)"
  },
  {
   "property": "C146",
   "status": "proved",
   "theorems": [
    "CZ.Seeds.C146_state",
    "CZ.Seeds.C146_programs",
    "CZ.Seeds.C146_entropy",
    "CZ.Seeds.C146_alpha",
    "CZ.Seeds.C146_numbers",
    "CZ.Seeds.C146_adsorbate"
   ],
   "note": "numpy generators are a parameter (Np: states, answers, next states), as in C126; the specification counts requests (made, asked, stateAfter) without running the functions"
  },
  {
   "property": "C147",
   "status": "partial",
   "theorems": [
    "CZ.Fl.C147_placed_partial",
    "CZ.Fl.C147_upright",
    "CZ.Fl.C147_bond",
    "CZ.Fl.C147_upright_refuted",
    "CZ.Fl.C147_exact",
    "CZ.Fl.C147_flip",
    "CZ.Fl.C147_flip_refuted",
    "CZ.Fl.C147_turn",
    "CZ.Fl.C147_rotated_partial"
   ],
   "note": "false as it stands: for a molecule that already points along the normal (1, 1, 1)/sqrt(3) the computed cosine exceeds 1 and the constructor of Rotation raises AssertionError for every molecule (C147_upright_refuted). Proved for directions at least about 1e-6 away from the normal and its opposite (C147_placed_partial, C147_rotated_partial, C147_bond, C147_turn); a molecule whose direction equals the normal is placed rightly or refused (C147_upright), and so is one exactly opposite to the normal (C147_flip), always refused if the normal is an axis (C147_flip_refuted); C147_exact ties the model to the exact one; the direction of the molecule is the product of orientation and mol_vector as numpy computes it; scipy from_rotvec is a parameter with an error bound (RotVec)"
  },
  {
   "property": "C148",
   "status": "proved",
   "theorems": [
    "CZ.Fl.C148_exact",
    "CZ.Fl.C148_success",
    "CZ.Fl.C148_failure",
    "CZ.Fl.C148_flat",
    "CZ.Fl.C148_inside"
   ],
   "note": "volumes of algebraic surfaces without points; the normal is a parameter (C113 for how it is found), the messages printed are left out"
  },
  {
   "property": "C149",
   "status": "proved",
   "theorems": [
    "CZ.Fl.C149_scene",
    "CZ.Fl.C149_before",
    "CZ.Fl.C149_lost"
   ],
   "note": "volumes of algebraic surfaces filled by a crystal without strain; the objects are listed with the volume first (C04 for other orders)"
  }
 ]
}