NOTES.update({
'C01': 'contents as a multiset, exact order, and per-atom iff form',
'C02': '', 'C03': '', 'C04': '', 'C05': '', 'C06': '', 'C07': '',
'C08': 'history induction over add/populate/query',
'C09': 'false of the code: refuted by C09_duplicate_object_refuted (an object listed twice erases its own atoms, see C09_duplicate_object_erases_itself); C09_duplicate_object_partial is the part that holds',
'C10': 'false of the code: bounds are never enforced (C10_within_bounds_refuted); C10_within_bounds_partial holds when every object supplies atoms within the bounds',
'C11': 'false of the code: an explicit format other than prismatic writes nothing, user Debye-Waller factors raise (C11_to_file_refuted); the remaining calls write once (C11_to_file_partial)',
})
NOTES.update({
'C39': 'exact reals; any nesting of MultiTransform',
'C40': 'acceptance window stated without the model constructor; improper matrices always refused',
'C41': '',
'C43': 'false for arbitrary matrices (C43_refuted, C43_plane_refuted: non-orthogonal matrices); C43_surfaces_follow_partial covers every composition of translations, rotations, inversions and orthogonal matrices',
'C44': 'false of the code: Reflection.applyTransformation_alg raises TypeError for every object',
'C45': 'C45_aligns_partial is exact alignment, C45_close_partial is the error bound for every v that is not a negative coordinate axis; refuted for negative coordinate axes with opposite target (NaN); C45_returns_iff says exactly for which inputs it returns; rot_v is the right-handed rotation by theta (C45_rot_v_angle)',
'C46': 'intrinsic holds; extrinsic swaps alpha and beta (refuted), holds when they are equal',
'C47': 'false of the code: the call always raises, and it changes its moving plane first',
'C48': 'exact interior tests against Spec.Ball/HalfSpace/Tube', 'C49': 'invariant over all setter/flip/transform histories',
'C50': 'nearest point for arrays of points; refuted for a single point of shape (3,) (raises)',
'C51': '',
'C52': 'facets with positive distance to the centroid; hulls thinner than the tolerance accept wrong sides (refuted)',
})
NOTES.update({
'C28': 'cover, minimality and definedness',
'C29': 'indexing bijection between rows and (cell, basis atom) pairs; success under invertible scaled bases',
'C30': 'holds when fractional coordinates are strictly between -1 and 1; refuted at fractional coordinate 1',
'C31': 'holds for scalar and per-column scale and every composition of translations and invertible matrices; refuted for row scales',
'C32': 'false of the code for non-symmetric lattice matrices (columns are used as lattice vectors); exact condition proved',
'C33': 'independent bases accepted; dependent bases are not always refused (refuted); exact acceptance condition proved',
'C34': '', 'C35': 'false of the code: every string is accepted', 'C36': 'false of the code: construction always raises TypeError',
'C37': 'for every random stream',
'C38': 'only sites in the box before straining are covered; refuted in general',
})
NOTES.update({
'C12': 'refinement to the flat first-container rule at every nesting level; an empty MultiVolume raises on populate (C12_empty_multivolume_raises)',
'C13': 'given the contract ExactHull of the Delaunay oracle (points inside iff in the convex hull)',
'C14': 'any generator, oracle and nesting',
'C15': 'sites in the exact region are never missed for hulls (given ExactHull), spheres and cylinders not along the space diagonal; refuted for a basis atom given with fractional coordinate 10 (C15_missed_site_refuted)',
'C16': 'whenever the call returns; volumes bounded by spheres, planes and cylinders under compositions of translations, rotations, inversions, orthogonal matrices; volumes with points always raise (C18)',
'C17': 'volumes without points bounded by at least one sphere, or by cylinders not along the space diagonal before and after the motion, with no site in the tolerance shell; refuted for a site in that shell; volumes with points cannot be transformed',
'C18': 'false of the code: transform raises ValueError for every volume with points',
'C19': 'false of the code: addPoints does not update the triangulation (C19_added_points_refuted); partial statements for points given at construction',
'C20': 'false of the code: volumes given by four or more planes always raise',
'C21': 'C21_rigid_never_fails_partial for surface bounded crystal volumes under rigid motions; refuted for others',
'C22': '', 'C23': 'false of the code in tolerance and added points; the rest is C23_copy_partial',
'C26': 'spheres; cylinders whenever the box exists, that is when the axis is not along (1,1,1) (C26_cylinder_box_iff); along (1,1,1) the box is NaN (C26_diagonal_cylinder_refuted)',
'C27': 'Volumes: ints stored, everything else but booleans refused; booleans are accepted (refuted)',
'C42': 'uniform flags; refuted for mixed lock flags',
'C80': '',
})
NOTES.update({
'C74': 'all histories, exceptions caught by the caller', 'C75': 'fixed and tracked origin, with and without transform_origin',
'C76': 'false of the code: the tracked index is neither shifted nor compared modulo n (three refutations); C76_tracked_origin_partial is what holds',
'C77': '', 'C78': 'false for set_origin(idx=...), which switches tracking on before checking; holds for every other call',
'C79': 'invariant and exact acceptance window', 'C81': '', 'C82': 'convex hull as a set, both directions', 'C84': '',
'C27': 'Volumes accept booleans (refuted), Molecules accept numpy integers; all other value kinds as stated',
'C23': 'false of the code in tolerance, missing generator and added points; the rest is C23_copy_partial and C23_tree_partial (any nesting)',
})
NOTES.update({
'C54': 'exact over any ordered field with floor', 'C55': 'every random stream, every run length',
'C56': 'false of the code: with l-2m = (n-1)m, n>=2, m>=1 the call never returns nor raises (C56_never_returns); otherwise as stated',
'C83': 'exact reals', 'C85': '', 'C86': 'false of the code: the argument is checked and then ignored (C86_ignored)',
})
NOTES.update({
'C57': 'every grid size and periodicity; set of neighbours exactly the touching voxels, symmetric, right shape',
'C58': 'points at most 3/2 box lengths apart along periodic axes (in particular points of the box); without dims the function raises (refuted)',
'C59': 'false of the code: the neighbour list is indexed by the box of the i-th atom (C59_index_refuted, C59_missed_refuted), flat sets are not counted, fully periodic voxels are counted 27 times, and the input array is shifted in place (C59_input_shifted for all inputs); C59_single_voxel_partial is the case of one voxel',
'C60': 'every random stream, every number of draws; exact arithmetic; never raises',
'C61': 'false when the box is not a whole number of cells (C61_refuted); C61_periodic_partial and C61_accepts_partial for whole cells or at most three',
'C62': 'separation, box and count for every stream of batches and voxel_scale >= 1; the periodic version only for whole voxels (C62_periodic_partial, C62_periodic_refuted); voxel_scale < 1 gives close atoms (C62_scale_refuted)',
'C63': 'false of the code: density and box position are ignored (C63_density_refuted, C63_box_refuted); cache behaviour and separation hold (C63_cached, C63_fresh_partial, given that the call to gen_p_substrate returns); the random seed is always 0, so boxes of the same extents receive the same atoms (C63_repeats)',
})
NOTES.update({
'C53': 'false of the code: "nearest" is not nearest for several non-zero indices (C53_nearest_refuted), the origin of the generator is ignored (C53_origin_refuted), strained planes miss the strained lattice (C53_strained_refuted, C53_standard_strain_raises); the partial theorems give the lattice plane for origins on the lattice, nearest/floor/ceil for one non-zero index, and the 3/2 spacing bound for all indices',
})
NOTES.update({
'C24': 'store model with typed addresses; copies of surfaces, generators and volumes are isolated from every earlier object under every interleaving of method calls; objects with parts reached once (which the copying methods produce)',
'C25': 'false when an object is owned more than once (C25_transform_once_refuted); C25_transform_counts gives the number of applications for every way of sharing, C25_transform_once_partial the unshared case',
})
NOTES.update({
'C64': 'exact reals; unique centre, coplanar corners never pass',
'C65': 'soundness for both functions and every triangulation; completeness is false (C65_complete_refuted); C65_result is the exact set returned, C65_complete_partial the faces that are found',
'C66': 'surface_only=True for every shape and number of shells; surface_only=False builds the graph from columns of the first four tetrahedra (C66_full_refuted, C66_full_raises)',
})
NOTES.update({
'C67': 'every point set, sequence and parameter; the result is a unit vector, the untouched initial vector, or nan in one exactly described case (C67_nan_refuted: a point equal to the initial vector); C67_settles says when it stops',
'C68': 'C68_result and C68_bond_length cover every successful call, C68_terminates every call, C68_returns gives conditions for success; a molecule vector opposite to the normal along an axis raises (C68_antiparallel_raises); whenever the call succeeds the molecule vector is aligned within two machine epsilons (C68_direction), exactly in the cases of C68_direction_exact; filters that do not fit raise the exceptions of C68_filters_refused',
})
NOTES.update({
'C69': 'every intact Volume (copying it preserves its interior), N, min_sep and random stream, for every call that returns; a MultiVolume raises (C69_multivolume_raises)',
'C70': 'fcc: every run that returns, with mirror twins and displacements stated on the crystals',
'C71': 'ownership and atoms for zone axes that are not zero and not opposite to z; the phases and the point argument are ignored (C71_phases_ignored), Miller indices raise AssertionError (C71_miller_raises), an axis along -z gives NaN (C71_opposite_axis_refuted)',
'C72': 'every number of forms, facets and grains; raises exactly when a form is not divisible (C72_raises)',
'C73': 'false of the code: no convenience constructor nor the decahedron or icosahedron ever returns; the exceptions are C73_convenience_error, C73_decahedron_error, C73_icosahedron_error',
'C91': 'facet lists supplied by wulffpack are a parameter with unit normals; constructor arguments and their exceptions are C91_constructor and C91_exceptions',
'C92': 'false of the code: with more than three facets populate_atoms always raises ValueError because the bounding box is a tuple',
})
NOTES.update({
'C70': 'every run that returns, with mirror twins and displacements stated on the crystals, for both prefabs',
'C87': 'true when the origin of the generator is on the lattice (partial theorems, both prefabs); false otherwise because snap_plane_near_point ignores the origin (C87_refuted)',
'C88': 'true when the search direction is the plane normal (cubic cells; unrotated wurtzite) and spheres are centred at the origin; the centre of a sphere is ignored (C88_offcentre, C88_refuted)',
'C89': 'unstrained cubic fcc crystal with an origin on the lattice, any orientation, every returning run',
'C90': 'with room and the search direction along the normal both builders never raise and can return (C90_fcc_returns_partial, C90_cubic_partial, C90_wurtzite_returns_partial); with exactly too few planes the fcc builder hangs (C90_refuted)',
'C93': 'false of the code: the search direction uses the inverse cell without transposition; C93_reversed describes crystals for which it points the wrong way',
})
NOTES.update({
'C94': 'unstrained crystal in any orientation with origin on the lattice and a body below about 3000 cells (the parity test of the code uses np.allclose); every returning run; planes outside the body (C93) are not excluded here',
})
NOTES.update({
'C95': 'every scene of Volumes, nested MultiVolumes and Molecules (with as many species as atoms, C74) in any state; C95_crystals states the atoms for bodies bounded by spheres or (exact hull test) points; one object held twice is not expressed',
'C96': 'molecules with a readable origin and nested MultiVolumes of Volumes with at least one sphere, or with cylinders and at most three planes, filled by unstrained crystals without sites in the tolerance shell; no axis of a cylinder may come to lie along the space diagonal (it has no bounding box there, C26); these are all Volumes without points that can be populated, and Volumes with points cannot be transformed (C18)',
'C97': 'false of the code: volumes keep the old array until populate() while molecules move at once (C97_exact); true for scenes of molecules',
})
NOTES.update({
'C98': 'false of the code: true exactly for cells with three right angles (C98_distances_iff), because the rows of the lattice matrix are used as columns; pymatgen Lattice.from_parameters is modelled by its formula',
'C99': 'with one of sgn and sym the right group is used; with both the symbol wins although the documentation says the number (C99_symbol_wins)',
'C100': 'true for single objects, lists, tuples, arrays; an iterator or generator expression is silently dropped, because it is run through by the class check first (C100_iterator_dropped, C100_iterator_identity)',
'C102': 'true with at most one substitution; with a seed every member sees the same random numbers, so some results become impossible',
'C103': 'what is handed to matplotlib; the drawing itself is outside the model',
'C104': 'true when objects are added in order of priority number; populate() sorts the object list, so in general the index counts by priority (C104_sorted_index)',
})
NOTES.update({
'C105': 'every operation of the molecule state machine; orientation is not rotated by transform (the code leaves it)',
'C106': 'proved except for signs: negative N and min_sep are accepted (C106_negative_refuted)',
'C107': 'stated for the two helper methods; get_construction of the class calls them wrongly and never returns (C73)',
'C108': 'positions are not shifted, so the box contains the atoms only when the bounds start at the origin (C108_box_partial, C108_box_refuted)',
})
NOTES.update({
'C109': 'all transformations over any ordered field, rot_v and rot_vtv over the reals with cos and sin of Mathlib; when rot_vtv is given opposite vectors the axis is chosen by the code and only C40 applies; what happens to surfaces is C39-C49',
'C110': 'false of the code: scipy align_vectors returns a pair, so the call of as_matrix raises AttributeError for every input (C110_rot_align_always_raises)',
'C111': 'histories without motions for the list of surfaces and the region (motions are C17, C18); points added later enlarge points and hull but not the triangulation that checkIfInterior uses (C20)',
})
NOTES.update({
'C112': 'point sets for which C59 holds and cutoffs that are multiples of 0.1 (then the width is 0.1); for other cutoffs the bins are wider (C112_steps_refuted)',
})
NOTES.update({
'C113': 'neighbours seen under more than a minimal angle (the initial vector 1e-10*(1,1,1) must not dominate) and draws that visit every neighbour; the normal kept by the margin loop is the last one, not the best one found (C113_never_better)',
})
NOTES.update({
'C114': 'false as documented: linprog is called with its default non-negative variables, so a bounded region on the negative side can be reported absent (C114_infeasible_refuted, C114_touching_refuted), and a prism is not reported unbounded (C114_unbounded_refuted). Exact conditions: C114_success, C114_out_of_reach, C114_unbounded, C114_no_region; sufficient: C114_region_partial, C114_touching_partial; round trip with convex_hull_to_planes: C114_round_trip_partial (centroid farther than the tolerance from the facets, first facet points not all with the same vanishing coordinate)',
'C115': 'false of the code: the particle is computed once and kept, so attributes set after the first construction have no effect on the shape (C115_kept, C115_natoms_refuted); a structure given to the attached generator is not noticed (C115_structure_refuted); a generator without a structure is refused but attached (C115_refused_refuted). Proved: the first construction uses the attributes then held, failures of WulffPack are not kept, get_areas and winterbottom. WulffPack is a parameter; changes inside the dict of energies are not modelled',
'C116': 'the grains carry structure, strain and post-transformation for every run (C116_fcc, C116_wurtzite, C116_boundary); without defects one grain (C116_no_defects, C116_no_defects_wurtzite: a negative N is such a case and gives the grain a negative number). False: the precedence of the volume is replaced by 0 (C116_precedence_refuted)',
'C117': 'proved for rotations (one part in a million, the tolerance of the setter), inversions, objects without matrix and refused assignments; false for a Reflection whose origin or matrix is assigned (C117_reflection_origin_refuted, C117_reflection_write_back_refuted, C117_reflection_vector_refuted, C117_reflection_row_refuted, C117_reflection_matrix_refuted) and for a Translation given a column (C117_translation_column_refuted). Arrays changed in place after assignment are C122',
'C118': 'proved for all programs that do not assign origin_type; after `origin_type = "global"` a field that was of the generator kind uses the origin of the generator asked last (C118_origin_type_refuted), and an origin assigned to a field of the generator kind is ignored (C118_origin_refuted). Only HStrain: no IStrain can be made (C36)',
'C119': 'proved for generators that do not share their voxel object; `g.voxel = h.voxel` shares it, so that moving h moves g (C119_voxel_assigned_refuted); assigning a structure ends the sharing (C119_structure)',
'C120': 'proved for crystals without random post-transformation, amorphous generators (whose seed never changes), empty generators and molecules (C120_shared_objects_partial, C120_order_of_scenes_partial), and for any objects at the moment of populating (C120_as_if_alone); a ChemicalSubstitution is drawn anew for every scene, which changes the species reported by the scenes populated before (C120_random_refuted) and, when atoms are dropped by species, makes them raise IndexError (C120_vacancies_refuted). Transforming a shared object is C97. A Volume at once in a scene and inside a MultiVolume is not modelled',
'C121': 'objects of the scene are molecules and nested volumes of balls and rods of crystal without sites in the tolerance shell, moved by locked rigid motions that put no axis along the space diagonal (outside these the claim is false already for one object: C17, C18, C42); the objects of the other scenes are arbitrary; an object may be listed twice',
'C122': 'false of arrays that properties hand out and of the three setters which keep the array (MatrixTransform.matrix, Rotation.matrix, Molecule.orientation): C122_shared_refuted; how far it reaches: C122_handed_out, C122_until_renewed. Proved for programs that write only into arrays of their own (C122_arrays_as_values_partial), which also covers calc_rdf(scene.all_atoms). Views are not modelled',
'C123': 'ends when there is always room for one more atom (C123_ends_partial, C123_batch_ends_partial, any box; randomness enters only as: the stream comes back to every part of the unit cube); without room neither function returns nor raises (C123_never_ends, C123_batch_never_ends), and an AmorphousGenerator with min_dist of 4.4 or more hangs on a cube of 10 whatever its density, because supply_atoms does not pass the density on (C123_min_dist_refuted). In batches a min_dist of 1000 or more can be refused because of the padding rows (C123_padding_refuted)',
'C124': 'false of centres of shape (3,1), points of shape (3,3) and nan, all of which are accepted: C124_sphere_column_refuted, C124_plane_matrix_refuted, C124_nan_refuted. Proved for all other histories (C124_sphere_partial, C124_plane_partial, C124_cylinder_partial, infinite sizes included), with the exception of every refused value (C124_exceptions) and unchanged objects after it (C124_refused)',
'C125': 'false of structures whose lattice is refused: they are stored all the same, and the atoms of the new structure appear on the old lattice (C125_structure_refuted); zero and arrays with more than two axes are accepted as scale, after which no atoms can be supplied (C125_scale_refuted). Proved for all other histories (C125_accepted, C125_refused_partial, C125_history_partial, C125_supplied_partial), with the exact exceptions (C125_exceptions) and the constructor (C125_constructor)',
'C59': 'false of the code: the neighbour list is indexed by the box of the i-th atom (C59_index_refuted, C59_missed_refuted), flat sets are not counted, fully periodic boxes of few voxels are counted several times, more than three voxels along a periodic axis miss pairs around the box (C59_wrap_refuted), boxes that are a multiple of the cutoff lose the atoms at their upper end (C59_multiple_refuted), and the input array is shifted in place (C59_input_shifted for all inputs). C59_voxels_partial: any number of voxels, when the list order happens to agree with the voxels; C59_returns_iff and C59_exceptions say when it returns',
'C126': 'proved for the functions that take all their numbers from the seed (C126_seeded, C126_programs). False for add_adsorbate with a seed and use_sampling=False: the noise of the alpha shape comes from the global generator, and with the same seed one state gives a molecule and another ValueError (C126_sampling_refuted). np.random.seed determines everything but the generators made without a seed (C126_global_partial, C126_global_refuted). A keyword seed=None of add_adsorbate, and the rng of prefabs and generators, are not part of this model (C120)',
'C90': 'with room and the search direction along the normal both builders never raise and can return (C90_fcc_returns_partial, C90_cubic_partial, C90_wurtzite_returns_partial); with exactly too few planes the fcc builder hangs (C90_refuted), and a body given by planes is refused with AttributeError however large it is (C90_planes_refuted); the exceptions for volumes without extent are C90_exceptions',
'C118': 'proved for all programs that do not assign origin_type (C118_shared_partial), and for all others unless an origin scraped from a generator is the one in use (C118_kinds_partial); then, after `origin_type = "global"`, the origin of the generator asked last is used (C118_origin_type_refuted), and an origin assigned to a field of the generator kind is ignored (C118_origin_refuted). Only HStrain: no IStrain can be made (C36)',
'C31': 'holds for scalar and per-column scale and every composition of translations and invertible matrices, also with chemical substitutions and strain fields in crystal coordinates about the origin of the generator (C31_strained_partial); refuted for row scales (C31_covariant_refuted), for strain fields in Cartesian coordinates (C31_standard_strain_refuted) and about a fixed point (C31_global_strain_refuted). Translations: every scale and every strain field about the origin of the generator (C31_translated)',
'C17': 'volumes without points bounded by at least one sphere, or by cylinders not along the space diagonal before and after the motion, with no site in the tolerance shell and no strain; refuted for a site in that shell (C17_tolerance_shell_refuted) and for strained crystals, whose gap at the surface changes with the orientation (C17_strained_refuted). Translations: every volume without points that can be populated, strained and doped crystals included, nothing lost or gained in the shell (C17_translation). Volumes with points cannot be transformed',
'C38': 'only sites in the box before straining are covered, for a generator and for a whole volume (C38_volume_partial); refuted in general: a compressed crystal leaves a gap at the surface of the volume (C38_volume_refuted)',
'C127': 'proved for all histories (C127_last, C127_others, C127_grains, C127_constructor, C127_refused). Findings: None for z2 is no link, a z1 assigned later leaves the second grain behind (C127_none_follows_refuted), though a change of z1 in place moves both (C127_one_array); zone axes of shape (1,3) are accepted and then unusable (C127_accepted_usable_refuted). Arrays with more than two axes are not modelled',
'C60': 'every random stream, every number of draws; exact arithmetic; never raises; a number of atoms halfway between two whole numbers is rounded to the even one (C60_ties)',
'C91': 'facet lists supplied by wulffpack are a parameter with unit normals; constructor arguments and their exceptions are C91_constructor and C91_exceptions, those of the twinned particles C91_twinned',
    'C96': 'rigid motions: molecules with a readable origin and nested MultiVolumes of Volumes with at least one sphere, or with cylinders and at most three planes, filled by unstrained crystals without sites in the tolerance shell, no axis of a cylinder along the space diagonal (it has no bounding box there, C26); translations (C96_translation): every Volume without points that can be populated, crystals strained about their origin included, no condition on the sites; without these conditions the claim is false (C96_refuted: a site in the tolerance shell; C96_strained_refuted: a compressed crystal); Volumes with points cannot be transformed (C18)',
    'C121': 'objects of the scene are molecules and nested volumes of crystal: balls and rods without sites in the tolerance shell may be moved by locked rigid motions that put no axis along the space diagonal, all other forms (strained crystals included) by translations; outside these the claim is false already for one object (C121_refuted; C96_refuted, C17, C18, C42); the objects of the other scenes are arbitrary; an object may be listed twice',
    'C89': 'unstrained cubic crystal with an atom of the species on a lattice plane through the coordinate origin, any orientation, every returning run (C89_fcc_stacking_partial). For any origin and any face-centred sublattice the grains and the stacking faults are right and a twin mirrors the layers in a plane at a multiple of the spacing counted from the coordinate origin (C89_any_origin), which is no atomic layer in general: atoms half a spacing apart (C89_origin_refuted)',
    'C94': 'unstrained crystal in any orientation, every returning run; stacking for every origin, hcp sublattice and size (C94_basal_faults); which layers are common for an origin on the lattice and a body below about 3000 cells, as the parity test of the code uses np.allclose (C94_wurtzite_stacking, C94_fault_vector); planes outside the body (C93) are not excluded here',
    'C128': 'deterministic generators (no post transformation that draws random numbers); with random ones sharing is visible (C128_as_if_copied_refuted). Finding: a volume in a scene beside a MultiVolume that contains it, with equal priorities (the default), leaves no atom inside the volume (C128_own_container). Exceptions part way are covered by the settled theorem, and by the comparison with copies as far as their kind; what is left in the objects after one is not compared; what single calls change and how often generators are called: C128_add_object, C128_add_volume, C128_bounds, C128_molecule_moved, C128_how_often, C128_first_raises, C128_moving_draws_nothing (Props/GalleryEdits)',
'C111': 'histories without motions for the list of surfaces and the region (motions are C17, C18); points added later enlarge points and hull but not the triangulation that checkIfInterior uses (C20); the kinds of the exceptions of every call are stated separately (C111_setter_exceptions, C111_point_exceptions, C111_fill_exceptions, C111_empty_box), for a populated box the exceptions of the crystal are those of C28-C33',
 'C129': 'unstrained cubic crystal with cell at least 1e-4 (ten times the tolerance of planes) and an atom of the species at the coordinate origin up to lattice vectors, planes {111}, min_sep at least 1; every returning run, atoms of one species (C129_sites_partial: what the grains own; C129_populated_partial: what the built object holds after populate_atoms, crystal without post-transformation and repeated sites). With other origins twins put atoms half a spacing apart (C89_origin_refuted)',
 'C130': 'C130_particle_partial: unstrained crystal without post-transform, cubic cell of at least 1e-4 and below 1/eps, scaling by a number or per column, lattice point at the coordinate origin, 2 <= i and i + 3 <= j for the numbers of layers of the faults; distances of atoms of one species. Missing: the rotation to a random zone axis that the page applies afterwards (C96 covers motions of populated objects) and the substrate. C130_placing_refuted and C130_core_shell_refuted: the two calls of the pages which raise, for every radius and every cubic crystal.',
 'C129': 'unstrained cubic crystal with cell at least 1e-4 (ten times the tolerance of planes) and an atom of the species at the coordinate origin up to lattice vectors, planes {111}, min_sep at least 1; every returning run, atoms of one species (C129_sites_partial: what the grains own; C129_populated_partial: what the built object holds after populate_atoms, crystal without post-transformation and repeated sites). With other origins it is false: C129_origin_refuted populates a twinned ball that holds two atoms 1/(2 sqrt 3) of a cell apart',
 'C131': 'unstrained crystals without post-transform, invertible cells, site coordinates strictly between -1 and 1 for the converse (all of them), bodies with points, with spheres or with fewer than three planes, whose box consists of corners; sites in the tolerance shell outside the region of the box may be missing. False for bodies of a cylinder and three planes: the copies with the defect plane have four planes, and populate_atoms raises ValueError (C131_three_planes for every run of the fcc prefab, C131_three_planes_refuted for a rod on which build_object succeeds)',
 'C132': 'populate_atoms of an object has a fixed outcome. The last sentence is false: removing an object other than the one with the largest priority number makes the scene read the remaining rows with the mask of another object, without an exception if the numbers of rows agree (C132_removed_refuted); it holds for that one object (C132_removed_partial). Everything else is proved (C132_as_if_new, C132_empty, C132_unpopulated, C132_added, C132_object, C132_raises, C132_type_errors); refused edits leave the scene as it is (C132_refused), objects of which the scene has no mask raise (C132_stale) and the arrays for ASE always have one length (C132_lengths)',
 'C133': 'For molecules and nested volumes of balls and rods of unstrained crystal whose sites inside lie outside the tolerance shells (Movable): C133_scene_moves_partial, C133_copies_partial. Missing: bodies given by points or planes alone, strained and amorphous contents. With a site in the tolerance shell it is false (C133_shell_refuted). The last sentence is false: a Molecule claims no space, so atoms of other objects inside the Volume reappear (C133_in_place_refuted); it holds if no object of the same or a larger priority number has atoms there (C133_in_place_partial)',
 'C134': 'C134_count, C134_when, C134_silent, C134_raises for scenes whose populate() is described in World (Balanced molecules); print_warnings plays no part there. C134_transform, C134_from_molecule, C134_switched_off for molecules whose origin can be read. The last sentence is false: the tracked atom moves and with it the origin (C134_tracking_refuted), whenever the warning is issued (C134_tracking_partial). What the filters of the warnings module do with a warning is not described',
 'C135': 'C135_plane_motion, C135_flip, C135_zero for planes with a unit normal (every constructed Plane, C48). C135_box_rows, C135_box_region, C135_box_tight for cylinders that have a box (all but those along the space diagonal, C26). The last sentence holds for translations (C135_box_translation) and is false for rotations (C135_box_rotation_refuted): the square is aligned with the projection of (1,1,1); the new box encloses the moved cylinder all the same (C135_box_motion_partial)',
 'C136': 'crystals without strain and post-transform, invertible cells, fractional coordinates strictly between -1 and 1 and without repetitions. C136_same_crystal_partial and C136_grains_partial: atoms in the region of the bounding box; C136_enclosed: all atoms, for bodies that do not stick out of their box. In the tolerance shell of a sphere the description matters (C136_same_crystal_refuted: fractional coordinates 1/20 and -19/20). C136_lattice_vector, C136_symmetry and C136_cell: the pairs of descriptions named',
 'C137': 'C137_ball, C137_composition, C137_cylinder (axes other than the space diagonal, which have no box), C137_hull and C137_block (exact point location, tolerance 0, growth about a point inside; the tolerance of a hull is relative to its simplices, so a positive one changes the limit), C137_convex_bodies (general form). No condition on the basis positions: sites lost at the rim of the block of cells do not count in the limit',
 'C138': 'any arithmetic (Arith) whose operations have relative error 2^-53 plus 2^-1075, and dot products the error bound common to all orders and to fused operations; binary64 and binary64Fma are instances. Overflow is not expressed. Crystals without strain and post-transformation, fractional coordinates strictly between -1 and 1 with room for the error of the extents; that error (np.linalg.solve) is a parameter (Accurate). C138_on_surface, C138_beyond, C138_directions, C138_plane_as_given, C138_site, C138_cells, C138_filled, C138_contents, C138_list, C138_same_atoms, C138_populate (agreement with the exact model), C138_ball',
 'C139': 'any arithmetic (Arith, see C138). Moves: Translation, Rotation, Inversion and general matrices that keep inner products up to d (Keeps), locked, one after the other; Reflection raises on surfaces. C139_tests (moved surfaces), C139_site (coordinates), C139_filled, C139_contents, C139_list, C139_same_atoms (moved against unmoved), C139_machines, C139_populate (agreement with Volume.transform and populate_atoms of the exact model), C139_rotation and C139_inversion (which matrices qualify), C139_loose_rotation (an accepted matrix that is off by 10^-6 loses an atom on the surface of a ball of radius 100). Bounding box and extents after the moves enter with their error as a parameter (Accurate), relative to the exact image. Crystals without strain and post-transformation, scale 1',
 'C140': 'any arithmetic (Arith, see C138); bodies made of surfaces alone, crystals without strain and post-transformation. C140_ceded needs nothing about the crystals; C140_kept, C140_contents, C140_interface, C140_list for sites whose coordinates are computed well within the tolerances (Fine, with all surfaces of the scene); C140_same_atoms also for bodies in an accurate box (Boxed). Priorities are integers and exact.',
 'C141': 'any arithmetic (Arith, see C138) that keeps signs; the square of min_dist is within 2^-51 (the C function pow is not modelled), boxes between 2^-20 and 2^20 minimal distances. C141_separation: all draws. C141_no_exception_partial: all draws up to 1 - 2^-51, that is all but the three largest of the 2^53. C141_index_refuted: 64-bit floats, box length 3 min_dist + 2^-52, draw 1 - 2^-53, IndexError. The number of atoms is exact up to 1/2 and 2^-50 of it. Distances across the periodic faces are not claimed (see C61).',
 'C142': 'any arithmetic (Arith, see C138); at most 2^30 moves. C142_shape (species, order, distances, distances from the origin; transform does not raise), C142_angles, C142_back, C142_reflection (normals as the setter leaves them), C142_exact (agreement with Molecule.transform of the exact model), C142_drift (accepted matrix that stretches without bound). The orientation attribute is not changed by transform (C105). The matrices of rot_v and the other helpers contain sines and cosines and are not followed; they enter through d.',
 'C143': 'C143_aligns_partial: angles at least about 10^-6 away from 0 and from half a turn (sine at least 2^-20), any arithmetic (Arith, see C138) and any libraries for arccos, sin and cos (Trig). Nearer to these it is false. C143_same: rot_vtv(v, v) is the identity or NaN, never anything else; C143_parallel_refuted: it is NaN for (1,1,1) (computed cosine above 1) and for (1,1,0) (cosine below 1, cross product 0), and Rotation refuses it with AssertionError. C143_opposite_refuted: for (9,5,3) and -0.7 times it in floats the axis consists of rounding errors, the matrix is accepted and takes the vector about 110 degrees away from the target. C143_flip: rot_vtv(v, -v) is NaN or turns v over, if v is not nearly the negative direction of its smallest coordinate; C143_flip_refuted: for the negative direction of an axis it is always NaN. Exact arithmetic: C45.',
 'C144': 'any arithmetic (Arith, see C138). C144_list and C144_same_atoms: settled sites, as in C140; C144_ceded: any sites; C144_empty: when populate raises. Leaves are Volumes bounded by surfaces and filled by unstrained crystals; hulls of points, Molecules and amorphous fillings inside MultiVolumes are exact only (C13 to C17)',
 'C145': 'any arithmetic (Arith, see C138). C145_list (images of the exact sites), C145_same_atoms (images of the atoms before the move). Volumes bounded by surfaces and filled by unstrained crystals; the errors of matrices must fit the budget of C139, which loose matrices accepted by Rotation do not (C139_loose_rotation)',
 'C146': 'numpy generators are a parameter (Np: states, answers, next states), as in C126; the specification counts requests (made, asked, stateAfter) without running the functions',
 'C147': 'false as it stands: for a molecule that already points along the normal (1, 1, 1)/sqrt(3) the computed cosine exceeds 1 and the constructor of Rotation raises AssertionError for every molecule (C147_upright_refuted). Proved for directions at least about 1e-6 away from the normal and its opposite (C147_placed_partial, C147_rotated_partial, C147_bond, C147_turn); a molecule whose direction equals the normal is placed rightly or refused (C147_upright), and so is one exactly opposite to the normal (C147_flip), always refused if the normal is an axis (C147_flip_refuted); C147_exact ties the model to the exact one; the direction of the molecule is the product of orientation and mol_vector as numpy computes it; scipy from_rotvec is a parameter with an error bound (RotVec)',
 'C148': 'volumes of algebraic surfaces without points; the normal is a parameter (C113 for how it is found), the messages printed are left out',
 'C149': 'volumes of algebraic surfaces filled by a crystal without strain; the objects are listed with the volume first (C04 for other orders)',
})
