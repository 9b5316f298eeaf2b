{"id": "C01", "title": "Scene conflict resolution is exactly the documented precedence rule", "statement": "After Scene.populate(), an atom supplied by an object appears in the scene if and only if no other object whose priority number is less than or equal to the supplier's contains that atom's position.", "quantifier": "every list of objects (any number, any priorities including negative and repeated ones), every atom of every object", "why_tests_cant": "The rule is implemented with sorted offsets and relative levels; an off-by-one only shows for particular numbers of objects and ties of priorities.", "anchors": ["czone/scene/scene.py:Scene.populate", "czone/scene/scene.py:Scene._get_priorities", "czone/scene/scene.py:Scene.all_atoms"]}
{"id": "C02", "title": "Equal priority means mutual exclusion", "statement": "If two different objects of a scene have the same priority, no atom of either that lies inside the other appears in the scene.", "quantifier": "every scene and every pair of equal-priority objects in it", "why_tests_cant": "Must hold for all pairs in scenes of any size.", "anchors": ["czone/scene/scene.py:Scene.populate"]}
{"id": "C03", "title": "A lower-precedence object never affects a higher-precedence one", "statement": "Adding to a scene an object with a strictly larger priority number than an existing object leaves the atoms the existing object contributes unchanged.", "quantifier": "every scene, every added object, every existing object of strictly smaller priority number", "why_tests_cant": "Relational property over two whole scenes.", "anchors": ["czone/scene/scene.py:Scene.populate", "czone/scene/scene.py:Scene.add_object"]}
{"id": "C04", "title": "The order in which objects are added does not matter", "statement": "Two scenes built from the same objects in different insertion orders contain the same atoms with the same multiplicities.", "quantifier": "every list of objects and every permutation of it", "why_tests_cant": "Factorially many orders; ties make the stable sort order-dependent.", "anchors": ["czone/scene/scene.py:Scene.populate", "czone/scene/scene.py:Scene._get_priorities"]}
{"id": "C05", "title": "Only the relative order of priorities matters", "statement": "Replacing every priority by its image under a strictly increasing function leaves the populated scene unchanged.", "quantifier": "every scene and every strictly increasing relabelling of priorities", "why_tests_cant": "Quantifies over functions on the integers.", "anchors": ["czone/scene/scene.py:Scene._get_priorities", "czone/scene/scene.py:Scene.populate"]}
{"id": "C06", "title": "Positions and species of a scene stay aligned", "statement": "After populate(), all_atoms and all_species have the same length and row k of one describes the same supplied atom as row k of the other.", "quantifier": "every scene whose objects have equally long atoms and species", "why_tests_cant": "Alignment must hold for all masks and all object counts.", "anchors": ["czone/scene/scene.py:Scene.all_atoms", "czone/scene/scene.py:Scene.all_species"]}
{"id": "C07", "title": "Molecules never displace other objects' atoms", "statement": "Adding a Molecule of any priority to a scene never removes an atom of another object, while the molecule's own atoms are removed where they fall inside a volume of smaller or equal priority number.", "quantifier": "every scene, every molecule, every priority", "why_tests_cant": "Relational property over scenes.", "anchors": ["czone/molecule/molecule.py:BaseMolecule.checkIfInterior", "czone/scene/scene.py:Scene.populate"]}
{"id": "C08", "title": "Queries of a scene never mix stale and fresh data", "statement": "In any history of add_object and populate calls, all_atoms either fails or returns the result of the conflict resolution of exactly the objects now in the scene.", "quantifier": "every finite history of add_object / populate / query calls", "why_tests_cant": "Bug appears only for particular interleavings of calls.", "anchors": ["czone/scene/scene.py:Scene.add_object", "czone/scene/scene.py:Scene.populate", "czone/scene/scene.py:Scene.all_atoms"]}
{"id": "C09", "title": "Adding the same object twice does not lose its atoms", "statement": "A scene that holds the same volume object twice contains the same positions as a scene that holds it once.", "quantifier": "every volume and every scene", "why_tests_cant": "All volumes, all multiplicities.", "anchors": ["czone/scene/scene.py:Scene.add_object", "czone/scene/scene.py:Scene.populate"]}
{"id": "C10", "title": "Scene atoms lie inside the scene bounds", "statement": "After populate() every atom of the scene lies within the scene's bounds.", "quantifier": "every scene", "why_tests_cant": "Universal over scenes and bounds.", "anchors": ["czone/scene/scene.py:Scene.bounds", "czone/scene/scene.py:Scene.populate", "czone/scene/scene.py:Scene.ase_atoms"]}
{"id": "C11", "title": "to_file writes the scene", "statement": "Scene.to_file writes the atoms exactly once, whatever ASE format is requested, and user-supplied Debye-Waller factors are honoured for format='prismatic'.", "quantifier": "every combination of keyword arguments", "why_tests_cant": "Format strings form an infinite domain.", "anchors": ["czone/scene/scene.py:Scene.to_file"]}
{"id": "C12", "title": "MultiVolume resolves conflicts like a scene, at every nesting depth", "statement": "After MultiVolume.populate_atoms(), an atom of an owned volume is kept iff no other owned volume with smaller or equal priority number contains it; this holds recursively for nested MultiVolumes.", "quantifier": "every tree of volumes of any depth and width", "why_tests_cant": "Unbounded nesting.", "anchors": ["czone/volume/volume.py:MultiVolume.populate_atoms", "czone/volume/volume.py:MultiVolume._get_priorities"]}
{"id": "C13", "title": "Volume interior is an intersection, MultiVolume interior is a union", "statement": "A point is interior to a Volume iff it is in the hull (if points were given) and interior to every algebraic object; it is interior to a MultiVolume iff it is interior to at least one owned volume, recursively; the answer for a batch is the batch of answers.", "quantifier": "every tree of volumes, every batch of points", "why_tests_cant": "All trees, all batch sizes.", "anchors": ["czone/volume/volume.py:Volume.checkIfInterior", "czone/volume/volume.py:MultiVolume.checkIfInterior"]}
{"id": "C14", "title": "Every atom a volume reports is inside it", "statement": "After populate_atoms() every atom of a Volume or (nested) MultiVolume is interior to it and was supplied, with that species, by the generator of one of its Volumes.", "quantifier": "every volume tree, every generator", "why_tests_cant": "All generators and geometries.", "anchors": ["czone/volume/volume.py:Volume.populate_atoms", "czone/volume/volume.py:MultiVolume.populate_atoms"]}
{"id": "C15", "title": "A Volume filled by a crystal misses no lattice site", "statement": "For a Volume bounded by a point hull or by a sphere and filled by an unstrained crystalline Generator, every crystal site (any integer cell, any basis atom) lying in the hull or ball and in all other algebraic objects is among the volume's atoms.", "quantifier": "every invertible cell, origin, basis, hull/sphere, every integer lattice translation", "why_tests_cant": "Infinite lattice; depends on floor/ceil at cell boundaries.", "anchors": ["czone/volume/volume.py:Volume.populate_atoms", "czone/volume/volume.py:Volume.get_bounding_box", "czone/volume/voxel.py:Voxel.get_extents", "czone/generator/generator.py:Generator.supply_atoms"]}
{"id": "C16", "title": "Transforming a volume carries its interior along", "statement": "After Volume.transform(T) with T a translation, rotation, inversion or composition of them, a point T(p) is interior to the transformed volume iff p was interior before.", "quantifier": "every volume, every rigid transformation, every point", "why_tests_cant": "Universally quantified over real points and matrices.", "anchors": ["czone/volume/volume.py:Volume.transform", "czone/transform/transform.py:MatrixTransform.applyTransformation_alg", "czone/transform/transform.py:Translation.applyTransformation_alg"]}
{"id": "C17", "title": "Transforming a volume moves its atoms rigidly with it", "statement": "For a Volume with a crystalline generator, transform(T) with a locked rigid T followed by populate_atoms() yields exactly the images under T of the atoms populate_atoms() yielded before, in the same order and with the same species.", "quantifier": "every volume, generator and rigid transformation", "why_tests_cant": "Equality of generated structures for all inputs.", "anchors": ["czone/volume/volume.py:Volume.transform", "czone/generator/generator.py:Generator.transform", "czone/generator/generator.py:Generator.supply_atoms", "czone/volume/voxel.py:Voxel.get_extents"]}
{"id": "C18", "title": "A volume defined by points can be transformed", "statement": "Volume.transform(T) of a Volume created from a point array succeeds and its points become T(points).", "quantifier": "every point-defined volume, every transformation", "why_tests_cant": "Must hold for all point sets.", "anchors": ["czone/volume/volume.py:Volume.points", "czone/volume/volume.py:Volume.addPoints", "czone/volume/volume.py:Volume.transform"]}
{"id": "C19", "title": "Adding points enlarges the interior", "statement": "After addPoints(q) on a Volume with a hull, q is interior to the volume (when no algebraic objects are attached).", "quantifier": "every history of addPoints calls", "why_tests_cant": "History property: the triangulation and the hull are separate state.", "anchors": ["czone/volume/volume.py:Volume.addPoints", "czone/volume/volume.py:Volume.createHull", "czone/volume/volume.py:Volume.checkIfInterior"]}
{"id": "C20", "title": "Volumes bounded by planes can be filled", "statement": "A Volume without points or spheres, bounded by more than three planes and holding a crystalline or amorphous generator, can be populated.", "quantifier": "every list of planes and every such generator", "why_tests_cant": "All plane sets.", "anchors": ["czone/volume/volume.py:Volume.get_bounding_box", "czone/volume/algebraic.py:get_bounding_box", "czone/generator/generator.py:Generator.supply_atoms"]}
{"id": "C21", "title": "A failed transform leaves the volume unchanged", "statement": "If Volume.transform raises, the volume's points, algebraic objects and generator are what they were before the call.", "quantifier": "every volume, every transformation, every failure point", "why_tests_cant": "Crash-point property.", "anchors": ["czone/volume/volume.py:Volume.transform", "czone/transform/transform.py:Reflection.applyTransformation_alg", "czone/generator/generator.py:AmorphousGenerator"]}
{"id": "C22", "title": "locked and basis_only decide exactly what moves", "statement": "A transformation with locked=False never changes the volume's generator; one with basis_only=True never changes the generator's origin; otherwise bases and origin are both transformed.", "quantifier": "every volume, generator, transformation", "why_tests_cant": "All flag combinations and values.", "anchors": ["czone/volume/volume.py:Volume.transform", "czone/generator/generator.py:Generator.transform"]}
{"id": "C23", "title": "from_volume copies what defines the region", "statement": "from_volume() returns a Volume with the same interior test, priority and (unless replaced) generator as the original.", "quantifier": "every Volume, with or without generator, with any tolerance", "why_tests_cant": "All volume states.", "anchors": ["czone/volume/volume.py:Volume.from_volume", "czone/volume/volume.py:MultiVolume.from_volume"]}
{"id": "C24", "title": "Copies are isolated from their originals", "statement": "After w = v.from_volume(), g2 = g.from_generator(), a2 = a.from_alg_object(), or v.add_alg_object(a), any later sequence of transformations of the copy leaves the original unchanged and vice versa.", "quantifier": "every heap, every later sequence of transformations", "why_tests_cant": "Aliasing bugs need particular sharing and histories.", "anchors": ["czone/volume/volume.py:Volume.from_volume", "czone/volume/volume.py:Volume.add_alg_object", "czone/volume/volume.py:Volume.add_generator", "czone/generator/generator.py:BaseGenerator.from_generator", "czone/volume/algebraic.py:BaseAlgebraic.from_alg_object"]}
{"id": "C25", "title": "A MultiVolume transform is applied once to every owned volume", "statement": "MultiVolume.transform(T) applies T exactly once to every volume reachable from it.", "quantifier": "every MultiVolume including ones that own a volume object more than once", "why_tests_cant": "Sharing patterns.", "anchors": ["czone/volume/volume.py:MultiVolume.transform", "czone/volume/volume.py:MultiVolume.add_volume"]}
{"id": "C26", "title": "The bounding box encloses the region that is filled", "statement": "For a Volume bounded by spheres, or by a cylinder, every interior point (tolerance aside) lies in the convex hull of get_bounding_box().", "quantifier": "every sphere set, every cylinder, every point", "why_tests_cant": "Real-valued geometry.", "anchors": ["czone/volume/volume.py:Volume.get_bounding_box", "czone/volume/algebraic.py:Cylinder.get_bounding_box", "czone/volume/volume.py:makeRectPrism"]}
{"id": "C27", "title": "Priority values are type checked", "statement": "Setting a priority accepts Python integers and rejects everything else, leaving the old value in place.", "quantifier": "every Python value kind, every previous priority", "why_tests_cant": "All value kinds.", "anchors": ["czone/volume/volume.py:BaseVolume.priority", "czone/molecule/molecule.py:BaseMolecule.priority"]}
{"id": "C28", "title": "Voxel extents cover the box", "statement": "Every point of the convex hull of the box passed to get_extents has fractional coordinates between the returned minimum and maximum extents, and no smaller block of whole cells has this property.", "quantifier": "every invertible scaled basis, origin, non-empty box", "why_tests_cant": "Floor/ceil boundary cases over the reals.", "anchors": ["czone/volume/voxel.py:Voxel.get_extents"]}
{"id": "C29", "title": "supply_atoms enumerates each cell and site exactly once", "statement": "supply_atoms(bbox) without post-transform and strain returns, for every integer cell in the extents and every basis atom, exactly one atom at basis·(cell+fractional coordinate)+origin with that basis atom's species, and nothing else.", "quantifier": "every generator, every bounding box", "why_tests_cant": "Unbounded numbers of cells and basis atoms.", "anchors": ["czone/generator/generator.py:Generator.supply_atoms"]}
{"id": "C30", "title": "supply_atoms fills the requested region", "statement": "Every crystal site lying in the convex hull of bbox is returned by supply_atoms(bbox).", "quantifier": "every generator, every bbox, every lattice site", "why_tests_cant": "Infinite lattice.", "anchors": ["czone/generator/generator.py:Generator.supply_atoms", "czone/volume/voxel.py:Voxel.get_extents"]}
{"id": "C31", "title": "Generators transform covariantly", "statement": "Transforming a generator with an invertible matrix transformation or translation and supplying atoms for the transformed box gives exactly the transformed atoms of the original box.", "quantifier": "every generator, transformation, box", "why_tests_cant": "Universal over real matrices.", "anchors": ["czone/generator/generator.py:Generator.transform", "czone/generator/generator.py:Generator.supply_atoms", "czone/volume/voxel.py:Voxel.get_extents"]}
{"id": "C32", "title": "Generated crystals agree with the pymatgen structure", "statement": "With origin 0 and unit scale the site with fractional coordinates f in cell n is placed where the pymatgen lattice places it, (n+f)·lattice.matrix.", "quantifier": "every lattice matrix, cell and site", "why_tests_cant": "All triclinic cells.", "anchors": ["czone/generator/generator.py:Generator.structure", "czone/generator/generator.py:Generator.supply_atoms"]}
{"id": "C33", "title": "Voxel accepts exactly linearly independent bases", "statement": "Setting Voxel.bases succeeds iff the three vectors are linearly independent.", "quantifier": "every 3x3 real matrix", "why_tests_cant": "Real matrices.", "anchors": ["czone/volume/voxel.py:Voxel.bases", "czone/volume/voxel.py:Voxel._collinear"]}
{"id": "C34", "title": "Homogeneous strain is the linear map it claims to be", "statement": "HStrain fixes the strain origin, is affine, with identity matrix it is the identity in both modes, and in crystal mode it acts on crystal coordinates as the given matrix; a strain without explicit origin is taken about the generator's origin; the atoms supplied by a strained generator are those of the unstrained one mapped by it; 3-, 6- (Voigt) and 9-value inputs give the documented matrix.", "quantifier": "every matrix, basis, origin, point array", "why_tests_cant": "Real matrices.", "anchors": ["czone/transform/strain.py:HStrain.apply_strain", "czone/transform/strain.py:HStrain.matrix"]}
{"id": "C35", "title": "Invalid strain modes are rejected", "statement": "Setting BaseStrain.mode to anything but 'crystal' or 'standard' raises.", "quantifier": "every string", "why_tests_cant": "Infinite domain.", "anchors": ["czone/transform/strain.py:BaseStrain.mode"]}
{"id": "C36", "title": "Inhomogeneous strain fields can be constructed", "statement": "IStrain(fun) succeeds for every fun mapping (N,3) arrays to (N,3) arrays.", "quantifier": "every function", "why_tests_cant": "Functions as inputs.", "anchors": ["czone/transform/strain.py:IStrain.strain_fun"]}
{"id": "C37", "title": "Chemical substitution changes only the targeted species", "statement": "ChemicalSubstitution never changes positions or the number of atoms, only atoms whose original species is a target may change, they change to that target's substitute, and with frac=1 all of them do; substitutions do not chain.", "quantifier": "every species array, target/substitute lists, fraction and random stream", "why_tests_cant": "All random streams.", "anchors": ["czone/transform/post.py:ChemicalSubstitution", "czone/transform/post.py:PostSequence"]}
{"id": "C38", "title": "Strained generators still fill the requested region", "statement": "With a strain field attached, every strained crystal site lying in bbox is returned by supply_atoms(bbox).", "quantifier": "every strain matrix, generator, bbox", "why_tests_cant": "Real matrices.", "anchors": ["czone/generator/generator.py:Generator.supply_atoms", "czone/transform/strain.py:HStrain.apply_strain"]}
{"id": "C39", "title": "Rigid transformations preserve all interatomic distances", "statement": "Translation, Rotation (with exactly orthogonal matrix), Inversion, Reflection and every MultiTransform of them preserve the distance between any two points.", "quantifier": "every finite nesting of transformations, every pair of points", "why_tests_cant": "Unbounded nesting.", "anchors": ["czone/transform/transform.py:Translation", "czone/transform/transform.py:MatrixTransform", "czone/transform/transform.py:Inversion", "czone/transform/transform.py:Reflection", "czone/transform/transform.py:MultiTransform"]}
{"id": "C40", "title": "Rotation accepts only proper rotations (to tolerance)", "statement": "Rotation(matrix) succeeds iff |det-1|<1e-6 and the summed deviation of M·Mᵀ from identity is <1e-6; in particular no reflection or inversion is accepted.", "quantifier": "every 3x3 real matrix", "why_tests_cant": "Real matrices.", "anchors": ["czone/transform/transform.py:Rotation.matrix"]}
{"id": "C41", "title": "Reflection is the mirror image in its plane", "statement": "Reflection(plane) maps each point to its mirror image: applying it twice is the identity, points on the plane are fixed, signed distance to the plane is negated, handedness is reversed.", "quantifier": "every plane and point", "why_tests_cant": "Real geometry.", "anchors": ["czone/transform/transform.py:Reflection"]}
{"id": "C42", "title": "A MultiTransform behaves like applying its members one after another", "statement": "Transforming a generator or volume by MultiTransform([t1..tn]) has the same effect as transforming by t1, ..., tn in turn.", "quantifier": "every list of transformations with arbitrary flags", "why_tests_cant": "Flags combine globally; unbounded lists.", "anchors": ["czone/transform/transform.py:MultiTransform", "czone/generator/generator.py:Generator.transform", "czone/volume/volume.py:Volume.transform"]}
{"id": "C43", "title": "Algebraic surfaces follow matrix transformations", "statement": "For every MatrixTransform with invertible matrix, the transformed algebraic object contains M(p) iff the original contains p.", "quantifier": "every invertible matrix, every Sphere/Plane/Cylinder, every point", "why_tests_cant": "Real matrices.", "anchors": ["czone/transform/transform.py:MatrixTransform.applyTransformation_alg"]}
{"id": "C44", "title": "Reflection can be applied to algebraic surfaces", "statement": "Reflection.applyTransformation_alg(obj) returns the mirror image of every Sphere, Plane and Cylinder.", "quantifier": "every algebraic object", "why_tests_cant": "All objects.", "anchors": ["czone/transform/transform.py:Reflection.applyTransformation_alg"]}
{"id": "C45", "title": "rot_vtv aligns any vector with any other", "statement": "For all non-zero v, vt, rot_vtv(v,vt) is a proper rotation matrix mapping the direction of v to the direction of vt.", "quantifier": "all pairs of non-zero vectors, including parallel and anti-parallel", "why_tests_cant": "Degenerate directions.", "anchors": ["czone/transform/transform.py:rot_vtv"]}
{"id": "C46", "title": "rot_zxz conventions agree with the documentation", "statement": "rot_zxz(a,b,c) with intrinsic convention is Rz(a)Rx(b)Rz(c), and the extrinsic convention performs gamma, then beta, then alpha about the fixed axes (the same matrix).", "quantifier": "all angles", "why_tests_cant": "Real angles.", "anchors": ["czone/transform/transform.py:rot_zxz"]}
{"id": "C47", "title": "s2s_alignment returns an aligning transformation", "statement": "s2s_alignment(M,T,mp,tp) returns a rotation followed by a translation and does not modify its arguments.", "quantifier": "all planes and points, in every accepted array shape", "why_tests_cant": "All shapes and values.", "anchors": ["czone/transform/transform.py:s2s_alignment", "czone/volume/algebraic.py:Plane.project_point", "czone/transform/transform.py:Translation.shift"]}
{"id": "C48", "title": "Sphere, Plane and Cylinder interiors are the documented regions", "statement": "Sphere: distance to centre < radius+tol. Plane: signed distance along the outward normal < tol. Cylinder: radial distance < radius+tol and axial distance < length/2+tol. Invalid radii, lengths, normals, axes and tolerances are rejected.", "quantifier": "all parameters and points", "why_tests_cant": "Real geometry.", "anchors": ["czone/volume/algebraic.py:Sphere", "czone/volume/algebraic.py:Plane", "czone/volume/algebraic.py:Cylinder"]}
{"id": "C49", "title": "Plane normals are always unit vectors", "statement": "After any sequence of successful or failing normal assignments, flips and transformations a Plane's normal has length one.", "quantifier": "every history of operations on a plane", "why_tests_cant": "Invariant over histories.", "anchors": ["czone/volume/algebraic.py:Plane.normal", "czone/volume/algebraic.py:Plane.flip_orientation", "czone/transform/transform.py:MatrixTransform.applyTransformation_alg"]}
{"id": "C50", "title": "Projection onto a plane is the nearest point", "statement": "project_point(p) lies on the plane, no other point of the plane is nearer to p, and dist_from_plane(p) is that minimal distance.", "quantifier": "every plane and point", "why_tests_cant": "Real geometry.", "anchors": ["czone/volume/algebraic.py:Plane.project_point", "czone/volume/algebraic.py:Plane.dist_from_plane"]}
{"id": "C51", "title": "flip_orientation swaps the two sides", "statement": "For points further than tol from the plane, flip_orientation negates checkIfInterior; flipping twice restores the plane.", "quantifier": "every plane and point", "why_tests_cant": "Real geometry.", "anchors": ["czone/volume/algebraic.py:Plane.flip_orientation", "czone/volume/algebraic.py:Plane.checkIfInterior"]}
{"id": "C52", "title": "convex_hull_to_planes returns inward-facing planes", "statement": "Every plane returned has the centroid of the points on its interior side, and all hull points are interior to all planes when the facets support the hull.", "quantifier": "every point set, every facet list", "why_tests_cant": "All point sets.", "anchors": ["czone/volume/algebraic.py:convex_hull_to_planes"]}
{"id": "C53", "title": "snap_plane_near_point returns a crystal plane", "statement": "For an unstrained generator the returned plane has the direction of the Miller indices, passes through the lattice, and in mode 'nearest' no other lattice plane of the family is closer to the point.", "quantifier": "every cell, Miller triple, point, mode", "why_tests_cant": "Rounding boundaries, all cells.", "anchors": ["czone/volume/algebraic.py:snap_plane_near_point", "czone/util/misc.py:round_away"]}
{"id": "C54", "title": "round_away rounds to the nearest integer away from zero", "statement": "round_away(x) is an integer of the same sign with |x| <= |round_away(x)| < |x|+1.", "quantifier": "every real x", "why_tests_cant": "Real inputs.", "anchors": ["czone/util/misc.py:round_away"]}
{"id": "C55", "title": "get_N_splits respects the requested separation", "statement": "Whenever get_N_splits(n,m,l) returns for n>=1, it returns n sorted integers in [m,l-m) with pairwise distance at least m, whatever the random stream.", "quantifier": "every n,m,l and every random stream", "why_tests_cant": "All random streams and reseeding histories.", "anchors": ["czone/util/misc.py:get_N_splits"]}
{"id": "C56", "title": "get_N_splits either raises or can return", "statement": "If n splits with separation m do not fit, get_N_splits raises ValueError; otherwise from every reachable state some continuation of the random stream makes it return.", "quantifier": "every n,m,l, every reachable loop state", "why_tests_cant": "Non-termination is not observable by tests.", "anchors": ["czone/util/misc.py:get_N_splits"]}
{"id": "C57", "title": "get_voxel_grid lists exactly the neighbouring voxels", "statement": "For every grid size and every choice of periodic axes the entry of voxel i holds exactly the indices of the voxels whose coordinates differ by at most one along each axis, wrapping only along periodic axes; the relation is reflexive and symmetric.", "quantifier": "every grid size, periodicity, voxel", "why_tests_cant": "Index arithmetic with 27 cases and edge corrections for all sizes.", "anchors": ["czone/util/measure.py:get_voxel_grid"]}
{"id": "C58", "title": "get_sdist_fun is the minimum-image squared distance", "statement": "For points of the periodic box the returned function gives the minimum over periodic images of the squared distance along periodic axes and the plain squared distance along the others; with no periodic axis dims need not be given.", "quantifier": "every box, periodicity, pair of points", "why_tests_cant": "Real inputs.", "anchors": ["czone/util/measure.py:get_sdist_fun"]}
{"id": "C59", "title": "calc_rdf does not modify its input and counts every pair", "statement": "calc_rdf leaves the caller's coordinates unchanged and counts every ordered pair of distinct atoms closer than the cutoff.", "quantifier": "every coordinate array", "why_tests_cant": "All arrays.", "anchors": ["czone/util/measure.py:calc_rdf"]}
{"id": "C60", "title": "gen_p_substrate keeps atoms at least min_dist apart", "statement": "In every result of gen_p_substrate any two atoms are at least min_dist apart in the ordinary metric, every atom lies in the box, and their number is round(volume*density).", "quantifier": "every box, min_dist, density, random stream", "why_tests_cant": "All random streams and cell-list layouts.", "anchors": ["czone/generator/amorphous_algorithms.py:gen_p_substrate", "czone/generator/amorphous_algorithms.py:get_voxels", "czone/generator/amorphous_algorithms.py:get_p_dist"]}
{"id": "C61", "title": "gen_p_substrate is periodic in x and y", "statement": "In every result of gen_p_substrate any two atoms are at least min_dist apart in the metric that is periodic in x and y.", "quantifier": "every box, min_dist, random stream", "why_tests_cant": "Depends on whether the box is a multiple of min_dist.", "anchors": ["czone/generator/amorphous_algorithms.py:gen_p_substrate", "czone/generator/amorphous_algorithms.py:get_voxels"]}
{"id": "C62", "title": "gen_p_substrate_batched keeps atoms at least min_dist apart", "statement": "The same separation, box and count guarantees hold for the batched algorithm with voxel_scale>=1.", "quantifier": "every box, parameters, random stream, batch size", "why_tests_cant": "All random streams.", "anchors": ["czone/generator/amorphous_algorithms.py:gen_p_substrate_batched", "czone/generator/amorphous_algorithms.py:get_p_dist_batch", "czone/util/measure.py:get_voxel_grid"]}
{"id": "C63", "title": "AmorphousGenerator honours its parameters and its box", "statement": "supply_atoms(bbox) uses the generator's density and min_dist and returns atoms located in bbox; with use_old_result it returns the previous result unchanged.", "quantifier": "every generator state, every bbox", "why_tests_cant": "All states.", "anchors": ["czone/generator/generator.py:AmorphousGenerator.supply_atoms"]}
{"id": "C64", "title": "tetrahedron_circumradii returns circumradii", "statement": "For every non-degenerate tetrahedron the returned value is the distance from its vertices to the unique point equidistant from all four.", "quantifier": "every four affinely independent points", "why_tests_cant": "Real geometry.", "anchors": ["czone/surface/alpha_shape.py:tetrahedron_circumradii"]}
{"id": "C65", "title": "alpha_shape_alg_3D returns surface vertices", "statement": "Every returned index is a vertex of a face of an alpha-shape tetrahedron whose other side is not in the alpha shape, and every such vertex is returned.", "quantifier": "every triangulation and probe test", "why_tests_cant": "All triangulations, including missing neighbours encoded as -1.", "anchors": ["czone/surface/alpha_shape.py:alpha_shape_alg_3D", "czone/surface/alpha_shape.py:alpha_shape_alg_3D_with_sampling"]}
{"id": "C66", "title": "get_nearest_neighbors returns the atoms within N shells", "statement": "The result is exactly the set of vertices other than the target within N_shells edges of it in the triangulation.", "quantifier": "every list of tetrahedra, target, N_shells>=1", "why_tests_cant": "All graphs.", "anchors": ["czone/surface/adsorbate.py:get_nearest_neighbors", "czone/surface/adsorbate.py:sparse_matrix_from_tri"]}
{"id": "C67", "title": "find_approximate_normal stops and returns a unit vector", "statement": "find_approximate_normal terminates within max_steps steps and, once any update happened, returns a vector of length one.", "quantifier": "every point set, random sequence, parameters", "why_tests_cant": "Loop termination.", "anchors": ["czone/surface/adsorbate.py:find_approximate_normal"]}
{"id": "C68", "title": "add_adsorbate places the molecule as requested", "statement": "The returned molecule is a rigid image of the input, its bonding atom sits at target + bond_length*normal, the input molecule is unchanged, the target satisfies every filter, and the success flag is true iff no atom of it is inside the volume.", "quantifier": "every molecule, volume, filters, random choices", "why_tests_cant": "All inputs and random choices.", "anchors": ["czone/surface/adsorbate.py:add_adsorbate"]}
{"id": "C69", "title": "Stacking-fault prefabs partition the volume into layers", "statement": "In the MultiVolume returned by the fcc and wurtzite prefabs, every point of the original volume belongs to exactly one grain after conflict resolution: grain k owns the points between the k-th and (k+1)-th chosen planes.", "quantifier": "every volume, N, chosen planes", "why_tests_cant": "All N and plane choices.", "anchors": ["czone/prefab/prefab.py:fccMixedTwinSF.build_object", "czone/prefab/prefab.py:wurtziteStackingFault.build_object", "czone/volume/volume.py:MultiVolume.populate_atoms"]}
{"id": "C70", "title": "Prefab grains carry the accumulated defects", "statement": "The generator of the k-th grain is the original generator with the first k defect transformations applied in order; the input generator and volume are unchanged.", "quantifier": "every N and defect sequence", "why_tests_cant": "All sequences.", "anchors": ["czone/prefab/prefab.py:fccMixedTwinSF.build_object"]}
{"id": "C71", "title": "SimpleGrainBoundary splits the volume at its plane", "statement": "Every point of the volume belongs to exactly one of the two grains after conflict resolution: the first grain on the interior side of the plane, the second elsewhere.", "quantifier": "every volume, plane, point", "why_tests_cant": "All geometry.", "anchors": ["czone/prefab/prefab.py:SimpleGrainBoundary.build_object"]}
{"id": "C72", "title": "Decahedron and icosahedron facets are divided evenly among grains", "statement": "With len(facets) a positive multiple of the number of grains, each grain receives the same number of facets, in order, and every facet is assigned.", "quantifier": "every number of facets and forms", "why_tests_cant": "All sizes.", "anchors": ["czone/prefab/wulff.py:WulffDecahedron.get_construction", "czone/prefab/wulff.py:WulffIcosahedron.get_construction"]}
{"id": "C73", "title": "Wulff convenience constructors return particles", "statement": "WulffSingle.cube / cuboctohedron / octohedron / truncated_octohedron(generator, natoms), WulffDecahedron.get_construction() and WulffIcosahedron.get_construction() return a volume.", "quantifier": "every generator and natoms", "why_tests_cant": "All inputs.", "anchors": ["czone/prefab/wulff.py:WulffSingle.cube", "czone/prefab/wulff.py:WulffDecahedron.get_construction", "czone/prefab/wulff.py:WulffIcosahedron.get_construction"]}
{"id": "C74", "title": "A molecule always has as many species as positions", "statement": "After any sequence of successful or failing operations on a Molecule, species and atoms have equal length.", "quantifier": "every history of operations", "why_tests_cant": "Invariant over histories with failures.", "anchors": ["czone/molecule/molecule.py:BaseMolecule.set_atoms", "czone/molecule/molecule.py:BaseMolecule.update_positions", "czone/molecule/molecule.py:BaseMolecule.update_species", "czone/molecule/molecule.py:BaseMolecule.remove_atoms", "czone/molecule/molecule.py:BaseMolecule.transform"]}
{"id": "C75", "title": "The origin of a molecule moves with the molecule", "statement": "After transform(T) with transform_origin the origin is T(old origin), whether it is a fixed point or tracks an atom; positions become T(positions) and species are unchanged.", "quantifier": "every molecule state, every transformation", "why_tests_cant": "All states.", "anchors": ["czone/molecule/molecule.py:BaseMolecule.transform", "czone/molecule/molecule.py:BaseMolecule.origin"]}
{"id": "C76", "title": "Removing atoms keeps the tracked origin atom", "statement": "If remove_atoms succeeds while the origin tracks an atom, the origin is afterwards the position of the same atom.", "quantifier": "every molecule, index list (including negative indices)", "why_tests_cant": "Index shifts and negative aliases.", "anchors": ["czone/molecule/molecule.py:BaseMolecule.remove_atoms", "czone/molecule/molecule.py:BaseMolecule.origin"]}
{"id": "C77", "title": "remove_atoms removes exactly the requested atoms", "statement": "remove_atoms(indices) keeps, in order, exactly the atoms whose index (negative indices counted from the end) is not requested, and out-of-range requests change nothing.", "quantifier": "every molecule, index list", "why_tests_cant": "All index lists.", "anchors": ["czone/molecule/molecule.py:BaseMolecule.remove_atoms"]}
{"id": "C78", "title": "A rejected molecule update leaves the molecule unchanged", "statement": "If set_atoms, update_positions, update_species, remove_atoms, set_origin, or an orientation or priority assignment raises, the molecule is unchanged.", "quantifier": "every molecule state and argument", "why_tests_cant": "Crash-point property.", "anchors": ["czone/molecule/molecule.py:BaseMolecule.set_origin", "czone/molecule/molecule.py:BaseMolecule.set_atoms"]}
{"id": "C79", "title": "The orientation of a molecule is always a rotation (to tolerance)", "statement": "After any history the orientation satisfies |det-1|<=1e-6 and sum|M·Mᵀ-1|<=1e-6.", "quantifier": "every history of operations", "why_tests_cant": "Invariant over histories.", "anchors": ["czone/molecule/molecule.py:BaseMolecule.orientation"]}
{"id": "C80", "title": "Attaching a structure keeps the generator's origin", "statement": "Assigning a structure gives the generator the lattice of the structure and keeps its origin (0 if it had none), strain field and post transform; setting the origin before or after the structure is the same.", "quantifier": "every generator state, structure with an accepted lattice, and origin", "why_tests_cant": "All states of the generator, including ones reached by transformations.", "anchors": ["czone/generator/generator.py:Generator.structure", "czone/generator/generator.py:Generator.origin"]}
{"id": "C81", "title": "gen_origin places the crystal of a volume", "statement": "Volume(generator=g, gen_origin=o) holds a generator with the cell, structure, strain and post transform of g and with origin o; without gen_origin it is g as it is.", "quantifier": "every volume argument, crystalline generator, origin", "why_tests_cant": "All argument combinations.", "anchors": ["czone/volume/volume.py:Volume.add_generator", "czone/volume/volume.py:Volume.__init__"]}
{"id": "C82", "title": "makeRectPrism spans the requested box", "statement": "The convex hull of makeRectPrism(a,b,c) is exactly [0,a]x[0,b]x[0,c]; with a center it is exactly the box of these side lengths around the center.", "quantifier": "all nonnegative side lengths, every center, every point", "why_tests_cant": "Real geometry.", "anchors": ["czone/volume/volume.py:makeRectPrism"]}
{"id": "C84", "title": "Copying a molecule with transformations applies them in order", "statement": "from_molecule(transformation=ts) succeeds whenever the origin can be read, maps every position and the origin by the transformations in order, and copies species, priority and orientation.", "quantifier": "every molecule state, every list of transformations", "why_tests_cant": "All lists and states.", "anchors": ["czone/molecule/molecule.py:BaseMolecule.from_molecule"]}
{"id": "C83", "title": "vangle is the angle between two vectors", "statement": "For nonzero vectors vangle lies in [0, pi], its cosine times both lengths is the scalar product, it is symmetric in the vectors and unchanged when one of them is stretched.", "quantifier": "all pairs of nonzero vectors", "why_tests_cant": "Real geometry for all vectors.", "anchors": ["czone/util/misc.py:vangle"]}
{"id": "C85", "title": "The origin of a molecule is the one asked for", "statement": "Molecule(origin=x) and set_origin give the molecule the requested origin: 0 by default, the atom of the index (also after positions are updated), the point; other values are refused.", "quantifier": "every molecule and every origin argument", "why_tests_cant": "All argument kinds and index signs.", "anchors": ["czone/molecule/molecule.py:BaseMolecule.set_origin", "czone/molecule/molecule.py:BaseMolecule.__init__"]}
{"id": "C86", "title": "remove_atoms(new_origin_idx=i) makes atom i the origin", "statement": "remove_atoms with new_origin_idx refuses an atom that is to be removed or does not exist, and otherwise atom i is the origin afterwards.", "quantifier": "every molecule, index list, new origin", "why_tests_cant": "All combinations.", "anchors": ["czone/molecule/molecule.py:BaseMolecule.remove_atoms"]}
{"id": "C91", "title": "A Wulff particle is the intersection of its facet half spaces", "statement": "WulffSingle.get_construction and winterbottom return a Volume with the given generator whose interior is the set of points at most the facet distance along every facet normal (within the tolerance of planes); it contains its centre when the distances are positive.", "quantifier": "every list of facets with unit normals, every point", "why_tests_cant": "All facet lists.", "anchors": ["czone/prefab/wulff.py:WulffSingle.get_construction", "czone/prefab/wulff.py:WulffBase.planes_from_wulff"]}
{"id": "C92", "title": "Wulff particles can be populated", "statement": "populate_atoms on a Volume returned by WulffSingle.get_construction fills it with atoms.", "quantifier": "every generator and facet list", "why_tests_cant": "All facet lists.", "anchors": ["czone/prefab/wulff.py:WulffSingle.get_construction", "czone/volume/volume.py:Volume.populate_atoms", "czone/volume/volume.py:Volume.get_bounding_box"]}
{"id": "C87", "title": "Prefab defects lie on lattice planes of the family asked for", "statement": "Every boundary between consecutive grains of a built fcc or wurtzite prefab is a lattice plane of the given crystal of the family `plane` ((0,0,2) for wurtzite), and boundaries are at least min_sep planes apart.", "quantifier": "every generator, volume, N, min_sep, plane and random stream", "why_tests_cant": "All origins and orientations of the crystal.", "anchors": ["czone/prefab/prefab.py:fccMixedTwinSF.build_object", "czone/prefab/prefab.py:wurtziteStackingFault.build_object", "czone/volume/algebraic.py:snap_plane_near_point"]}
{"id": "C88", "title": "Prefab defects cut the volume", "statement": "With min_sep at least the number of non-zero Miller indices, every defect plane of a built prefab lies strictly between the lowest and the highest point of the body along the plane normal.", "quantifier": "every generator, volume, N, min_sep, plane and random stream", "why_tests_cant": "All volumes and random streams.", "anchors": ["czone/prefab/prefab.py:fccMixedTwinSF.build_object", "czone/prefab/prefab.py:wurtziteStackingFault.build_object"]}
{"id": "C89", "title": "The fcc prefabs produce the right stacking sequences", "statement": "For an fcc crystal and a {111} plane, every grain is stacked ABCABC; at a twin the layers below the plane repeat those above in reverse order with the layer of the plane in common; at a stacking fault one layer is left out, and no two adjacent layers are on top of each other, also after several twins and faults.", "quantifier": "every cubic fcc generator in any orientation, volume, N, {111} plane and random stream", "why_tests_cant": "Sign of the fault vector after any number of twins.", "anchors": ["czone/prefab/prefab.py:fccMixedTwinSF.build_object", "czone/prefab/prefab.py:fccTwin", "czone/prefab/prefab.py:fccStackingFault"]}
{"id": "C90", "title": "The prefab builders return an object", "statement": "build_object of the fcc and wurtzite prefabs does not raise for a crystalline generator and a Volume with room for the defects, and returns for some random stream; without room it raises.", "quantifier": "every generator, volume, N, min_sep and random stream", "why_tests_cant": "Termination for all inputs.", "anchors": ["czone/prefab/prefab.py:fccMixedTwinSF.build_object", "czone/prefab/prefab.py:wurtziteStackingFault.build_object", "czone/util/misc.py:get_N_splits"]}
{"id": "C93", "title": "The wurtzite prefab works for rotated crystals", "statement": "For every orientation of the crystal the stacking faults of wurtziteStackingFault are inside the body.", "quantifier": "every orientation of the generator", "why_tests_cant": "All orientations.", "anchors": ["czone/prefab/prefab.py:wurtziteStackingFault.build_object", "czone/volume/voxel.py:Voxel.reciprocal_bases"]}
{"id": "C94", "title": "The wurtzite prefab produces basal stacking faults", "statement": "For a wurtzite crystal every grain of a built wurtziteStackingFault is stacked ABAB; the layer at a fault is common to the grains on both sides, and the layers above and below it are not on top of each other (I1 faults ...ABABCBC...), also after several faults.", "quantifier": "every crystal with c perpendicular to a and b, volume, N, min_sep and random stream", "why_tests_cant": "Alternating displacements and parity of planes over any number of faults.", "anchors": ["czone/prefab/prefab.py:wurtziteStackingFault.build_object"]}
{"id": "C95", "title": "A populated scene shows what its actual objects contain, subject to precedence", "statement": "After scene.populate() on a scene of Volumes, nested MultiVolumes and Molecules, all_atoms/all_species are exactly the contents of the objects (crystal sites inside a body, atoms of a molecule) that lie in no other body of smaller or equal priority number; populate() succeeds whenever every object can be populated.", "quantifier": "every scene, object state, generator and random stream", "why_tests_cant": "All object graphs and generators.", "anchors": ["czone/scene/scene.py:Scene.populate", "czone/scene/scene.py:Scene.all_atoms", "czone/volume/volume.py:MultiVolume.populate_atoms", "czone/volume/volume.py:Volume.populate_atoms", "czone/molecule/molecule.py:BaseMolecule.populate_atoms"]}
{"id": "C96", "title": "Moving every object of a scene moves the whole picture", "statement": "populate(), ob.transform(T) on every object for a locked rigid motion T, populate() again: the scene shows the image under T of what it showed before, with the same species; populating twice without a motion changes nothing.", "quantifier": "every scene of movable objects, every rigid motion", "why_tests_cant": "All scenes, nestings and motions; floor and ceil of the lattice extents change under motion.", "anchors": ["czone/scene/scene.py:Scene.populate", "czone/volume/volume.py:MultiVolume.transform", "czone/volume/volume.py:Volume.transform", "czone/molecule/molecule.py:BaseMolecule.transform"]}
{"id": "C97", "title": "A scene reports the current positions of its objects", "statement": "After populate() and ob.transform(T) on the objects, scene.all_atoms reports the positions of the moved objects.", "quantifier": "every scene and transformation", "why_tests_cant": "Mixed kinds of objects and histories.", "anchors": ["czone/scene/scene.py:Scene.all_atoms", "czone/volume/volume.py:Volume.transform", "czone/molecule/molecule.py:BaseMolecule.transform"]}
{"id": "C98", "title": "from_unit_cell makes the crystal with the given lengths and angles", "statement": "Atoms supplied by Generator.from_unit_cell(Z, coords, cellDims, cellAngs) have the interatomic distances of the crystal with lattice parameters a, b, c, alpha, beta, gamma.", "quantifier": "every proper cell, list of sites, origin and bounding box", "why_tests_cant": "Continuous family of cells; orthogonal test cells hide the convention.", "anchors": ["czone/generator/generator.py:Generator.from_unit_cell", "czone/generator/generator.py:Generator.structure"]}
{"id": "C99", "title": "from_spacegroup uses the space group asked for", "statement": "from_spacegroup expands the symmetric sites under the group given by sgn or sym; sgn overrides sym if both are supplied.", "quantifier": "every pair of sgn and sym, every table", "why_tests_cant": "All combinations of arguments.", "anchors": ["czone/generator/generator.py:Generator.from_spacegroup"]}
{"id": "C100", "title": "Adding an iterable of members adds all of them", "statement": "MultiTransform.add_transform, MultiVolume.add_volume, PostSequence.add_transform and the constructors append every element of an iterable argument in order; an argument with an object of another class raises AssertionError and adds nothing.", "quantifier": "every history of calls with single objects, containers and iterators", "why_tests_cant": "Histories and kinds of iterables.", "anchors": ["czone/transform/transform.py:MultiTransform.add_transform", "czone/volume/volume.py:MultiVolume.add_volume", "czone/transform/post.py:PostSequence.add_transform"]}
{"id": "C101", "title": "A PostSequence is the composition of its members", "statement": "apply_function of a PostSequence applies the members from left to right, each to the result of the previous one; nesting sequences makes no difference.", "quantifier": "every nested sequence of post transforms, every random stream", "why_tests_cant": "All nestings and functions.", "anchors": ["czone/transform/post.py:PostSequence.apply_function"]}
{"id": "C102", "title": "Seeding a PostSequence does not change what can come out", "statement": "apply_function(points, species, seed=s) of a sequence of substitutions has the same possible results as without a seed.", "quantifier": "every sequence and seed", "why_tests_cant": "Quantifies over all seeds.", "anchors": ["czone/transform/post.py:PostSequence.apply_function", "czone/transform/post.py:ChemicalSubstitution._replace_species"]}
{"id": "C103", "title": "Plots of a scene show the scene", "statement": "simple_scene_view, simple_scene_view_with_rotate and the widgets draw every atom of the scene exactly once on each of the four axes, grouped by species, with the scene bounds as limits; panels titled XY, XZ, YZ are seen along z, y, x; an argument which is not a Scene raises TypeError.", "quantifier": "every populated scene and viewing angle", "why_tests_cant": "All scenes and species lists.", "anchors": ["czone/viz/viz.py:simple_scene_view", "czone/viz/viz.py:simple_scene_view_with_rotate", "czone/viz/viz.py:simple_view_with_rotate"]}
{"id": "C104", "title": "species_from_object(i) refers to the i-th object added", "statement": "After populate(), species_from_object(i) gives the surviving atoms of the i-th object added to the scene.", "quantifier": "every scene", "why_tests_cant": "All orders of priorities.", "anchors": ["czone/scene/scene.py:Scene.species_from_object", "czone/scene/scene.py:Scene._get_priorities"]}
{"id": "C105", "title": "Calls on a molecule do exactly what they say", "statement": "update_species, update_positions, set_atoms, set_origin, transform, remove_atoms and the setters succeed exactly when counts and indices fit; then the new arrays are stored in the order given, and every attribute the call does not name (priority, orientation, origin, species) stays as it was.", "quantifier": "every molecule with matching arrays, every call after every history of calls", "why_tests_cant": "Frame conditions over all histories.", "anchors": ["czone/molecule/molecule.py:BaseMolecule.update_positions", "czone/molecule/molecule.py:BaseMolecule.update_species", "czone/molecule/molecule.py:BaseMolecule.transform", "czone/molecule/molecule.py:BaseMolecule.set_origin", "czone/molecule/molecule.py:BaseMolecule.remove_atoms"]}
{"id": "C106", "title": "Settings of prefabs and amorphous generators always make sense", "statement": "After construction and any sequence of assignments (refused ones raise and change nothing) a defect prefab has a non-negative integer N, a non-negative integer min_sep, a ratio in [0,1] and a generator and volume of the right class or unset; an AmorphousGenerator has positive density and min_dist and an origin of three numbers or unset.", "quantifier": "every sequence of assignments of values of any type", "why_tests_cant": "Histories, and values of unexpected types.", "anchors": ["czone/prefab/prefab.py:fccMixedTwinSF.ratio", "czone/prefab/prefab.py:fccMixedTwinSF.N", "czone/prefab/prefab.py:fccMixedTwinSF.min_sep", "czone/generator/generator.py:AmorphousGenerator.density", "czone/generator/generator.py:AmorphousGenerator.min_dist"]}
{"id": "C107", "title": "Strained tetrahedra close to an icosahedron", "statement": "_strain_from_111 keeps the component of a point along [111] of the crystal and multiplies the rest by the scale factor; with icosahedral_scale_factor the cubic tetrahedron spanned by <110> neighbours becomes a wedge of a regular icosahedron (dihedral angle 2 pi/5).", "quantifier": "every basis, point and factor; every orientation and lattice constant", "why_tests_cant": "Exact angles in every orientation.", "anchors": ["czone/prefab/wulff.py:WulffIcosahedron._strain_from_111", "czone/prefab/wulff.py:WulffIcosahedron.icosahedral_scale_factor"]}
{"id": "C108", "title": "Exported scenes hold the atoms inside the box", "statement": "Scene.ase_atoms has the surviving atoms with their species and a cell with the extents of the bounds, and atoms between the bounds are inside the cell; bounds are accepted exactly with shape (2,3); a new scene holds the objects given in order, with bounds from 0 to 10 by default.", "quantifier": "every populated scene and all bounds", "why_tests_cant": "All bounds, also not starting at the origin.", "anchors": ["czone/scene/scene.py:Scene.ase_atoms", "czone/scene/scene.py:Scene.bounds", "czone/scene/scene.py:Scene.__init__"]}
{"id": "C109", "title": "Transformations do to points and bases what they say", "statement": "applyTransformation of a Translation adds the shift; of a MatrixTransform, Rotation or Inversion with an origin it fixes the origin and multiplies the vector from it; a MultiTransform acts from the first to the last member and nesting makes no difference; applyTransformation_bases carries basis vectors along like differences of points. rot_v(v, theta) is the right-handed turn by theta about v; rot_vtv turns about the direction perpendicular to both vectors.", "quantifier": "every transformation, nested to any depth, every point and basis; every axis and angle", "why_tests_cant": "Continuous parameters and all nestings; a test of one angle does not see a sign or a modulus.", "anchors": ["czone/transform/transform.py:Translation.applyTransformation", "czone/transform/transform.py:MatrixTransform.applyTransformation", "czone/transform/transform.py:MatrixTransform.applyTransformation_bases", "czone/transform/transform.py:MultiTransform.applyTransformation", "czone/transform/transform.py:rot_v", "czone/transform/transform.py:rot_vtv"]}
{"id": "C110", "title": "rot_align finds the rotation between two sets of vectors", "statement": "rot_align(v, vt) returns the rotation matrix that best aligns v with vt.", "quantifier": "every pair of sets of vectors and every solver", "why_tests_cant": "Claims about all inputs and all answers of the solver.", "anchors": ["czone/transform/transform.py:rot_align"]}
{"id": "C111", "title": "Calls on a Volume change only what they name", "statement": "A Volume holds what its constructor was given. add_alg_object appends one surface, addPoints changes points and hull, add_generator the generator, the priority and tolerance setters one number, populate_atoms only atoms and species; after any history of such calls, some of them refused, checkIfInterior is the intersection of the hull with all surfaces at the tolerance assigned last. A refused call raises an exception whose type depends only on the call and on which points, hull, generator and kinds of surfaces the Volume has.", "quantifier": "every Volume, every history of succeeding and failing calls", "why_tests_cant": "Histories of any length and frame conditions.", "anchors": ["czone/volume/volume.py:Volume.__init__", "czone/volume/volume.py:Volume.add_alg_object", "czone/volume/volume.py:Volume.addPoints", "czone/volume/volume.py:Volume.add_generator", "czone/volume/volume.py:Volume.tolerance", "czone/volume/volume.py:BaseVolume.priority", "czone/volume/volume.py:Volume.checkIfInterior"]}
{"id": "C112", "title": "calc_rdf returns the histogram in steps of 0.1", "statement": "Entry i of the array returned by calc_rdf is the number of ordered pairs of points with a (minimum image) distance from 0.1*i to 0.1*(i+1); the first entry is zero.", "quantifier": "every array of points, cutoff and choice of periodic axes", "why_tests_cant": "All point sets and cutoffs.", "anchors": ["czone/util/measure.py:calc_rdf"]}
{"id": "C113", "title": "The surface normal points away from the neighbours", "statement": "When all neighbours of the chosen surface atom lie on one side of a plane through it, add_adsorbate attaches the molecule along a direction that points to the other side; find_approximate_normal returns a vector on the other side of every plane through the origin that leaves all points on one side.", "quantifier": "every set of points, decay, margin and random draws that visit every neighbour", "why_tests_cant": "All point sets and all random sequences.", "anchors": ["czone/surface/adsorbate.py:find_approximate_normal", "czone/surface/adsorbate.py:add_adsorbate"]}
{"id": "C114", "title": "The region inside a set of planes", "statement": "algebraic.get_bounding_box(planes) returns status 0 and exactly the vertices of the region interior to all planes when that region is bounded and has room for a ball, status 2 and no vertices when there is no such region, status 3 when it is unbounded; for the planes of convex_hull_to_planes(points) the vertices are those of the hull of the points.", "quantifier": "every list of planes; every linear-programming and half-space solver that answers as documented", "why_tests_cant": "Planes are real-valued and arbitrarily many; tests try random hulls around the origin only.", "anchors": ["czone/volume/algebraic.py:get_bounding_box", "czone/volume/algebraic.py:convex_hull_to_planes", "czone/volume/algebraic.py:Plane.params"]}
{"id": "C115", "title": "A WulffSingle object follows its attributes", "statement": "After any history of setting generator, surface_energies and natoms, get_construction returns the construction for the attributes now held, as an object made anew from them would; get_areas belongs to the construction returned; winterbottom uses the attributes now held; a value refused by a setter leaves the object unchanged.", "quantifier": "every history of setters and calls, every WulffPack", "why_tests_cant": "Histories are unboundedly long; tests make one object and construct once.", "anchors": ["czone/prefab/wulff.py:WulffSingle.wulff", "czone/prefab/wulff.py:WulffSingle.get_construction", "czone/prefab/wulff.py:WulffSingle.get_areas", "czone/prefab/wulff.py:WulffSingle.winterbottom", "czone/prefab/wulff.py:WulffBase.generator", "czone/prefab/wulff.py:WulffBase.natoms", "czone/prefab/wulff.py:WulffBase.surface_energies"]}
{"id": "C116", "title": "Grains of a prefab carry everything but the orientation from its generator", "statement": "Whenever build_object of a defect or grain-boundary prefab returns, every grain is filled with a copy of the given generator that has the same structure, strain field and post-transformation; the object returned has the precedence of the given volume; without defects it is the given volume filled with the given generator.", "quantifier": "every prefab, volume, number of defects and run", "why_tests_cant": "Random runs; tests look at pictures of unstrained grains.", "anchors": ["czone/prefab/prefab.py:fccMixedTwinSF.build_object", "czone/prefab/prefab.py:wurtziteStackingFault.build_object", "czone/prefab/prefab.py:SimpleGrainBoundary.build_object"]}
{"id": "C117", "title": "Transformation objects stay what their class says", "statement": "After construction and any sequence of assignments to shift, matrix, origin, plane, locked and basis_only (refused ones raise and change nothing), a Rotation keeps distances, an Inversion inverts at its origin, a Reflection mirrors in its plane, a Translation adds its shift to every point, and the object is the one its constructor would give for the values now held.", "quantifier": "every history of assignments, every set of points", "why_tests_cant": "Histories are unboundedly long; tests assign once in the constructor.", "anchors": ["czone/transform/transform.py:BaseTransform.locked", "czone/transform/transform.py:Translation.shift", "czone/transform/transform.py:MatrixTransform.matrix", "czone/transform/transform.py:MatrixTransform.origin", "czone/transform/transform.py:Inversion.matrix", "czone/transform/transform.py:Rotation.matrix", "czone/transform/transform.py:Reflection.matrix", "czone/transform/transform.py:Reflection.plane"]}
{"id": "C118", "title": "Generators can share a strain field", "statement": "A strain field attached to several generators strains each of them as a field of its own with the same settings would: matrix, mode and origin assigned last, about the generator's own origin unless a fixed one was given; which generator was asked for atoms before does not matter.", "quantifier": "every program of supply_atoms, transform and setter calls on any number of generators and fields", "why_tests_cant": "Programs are unboundedly long; tests attach a field to one generator.", "anchors": ["czone/generator/generator.py:Generator.strain_field", "czone/generator/generator.py:Generator.supply_atoms", "czone/transform/strain.py:BaseStrain.scrape_params", "czone/transform/strain.py:BaseStrain.origin", "czone/transform/strain.py:BaseStrain.origin_type", "czone/transform/strain.py:HStrain.matrix"]}
{"id": "C119", "title": "Working on one generator leaves the others alone", "statement": "transform, origin and structure of a generator change the crystal of that generator only, also when voxels and strain fields have been passed from one generator to another.", "quantifier": "every program of calls and assignments on any number of generators", "why_tests_cant": "Programs are unboundedly long.", "anchors": ["czone/generator/generator.py:Generator.transform", "czone/generator/generator.py:Generator.origin", "czone/generator/generator.py:Generator.structure", "czone/generator/generator.py:Generator.voxel"]}
{"id": "C120", "title": "Scenes can share objects", "statement": "The same Volume, MultiVolume or Molecule can be added to several scenes: populating a scene does to it what it would do if the objects were its own, what a populated scene reports does not change when other scenes or the shared objects are populated, and the order in which scenes are populated does not matter.", "quantifier": "every number of scenes and objects, every program of add_object, populate, populate_atoms, bounds and transform calls", "why_tests_cant": "Programs are unboundedly long; tests use one scene.", "anchors": ["czone/scene/scene.py:Scene.add_object", "czone/scene/scene.py:Scene.populate", "czone/scene/scene.py:Scene.all_atoms", "czone/scene/scene.py:Scene.all_species", "czone/volume/volume.py:Volume.populate_atoms", "czone/volume/volume.py:MultiVolume.populate_atoms"]}
{"id": "C121", "title": "Objects are shown where they were moved, in every scene they belong to", "statement": "However objects were added to scenes, scenes and objects populated and objects moved one by one, populate() of a scene makes it show the original contents of each of its objects carried along by the motions of that object (and no other), as far as the precedence rule between the moved objects lets them survive.", "quantifier": "every program of add_object, populate, populate_atoms, bounds and transform calls on any number of scenes and objects", "why_tests_cant": "Programs are unboundedly long and motions real-valued; tests move one object once.", "anchors": ["czone/scene/scene.py:Scene.populate", "czone/scene/scene.py:Scene.all_atoms", "czone/volume/volume.py:Volume.transform", "czone/volume/volume.py:MultiVolume.transform", "czone/molecule/molecule.py:BaseMolecule.transform"]}
{"id": "C122", "title": "Arrays passed in and handed out", "statement": "An array given to an attribute or returned by a property can be changed afterwards without changing any object: what the objects contain depends only on the calls made and the values passed at the time of the call. In particular calc_rdf, which writes into its argument, may be applied to any array of the library.", "quantifier": "every program of assignments, method calls, reads of attributes and writes to arrays on any number of objects", "why_tests_cant": "Which objects share an array depends on the whole history; tests do not look at arrays after passing them.", "anchors": ["czone/volume/algebraic.py:Sphere.center", "czone/volume/algebraic.py:Plane.normal", "czone/volume/algebraic.py:Plane.point", "czone/volume/voxel.py:Voxel.bases", "czone/volume/voxel.py:Voxel.origin", "czone/transform/transform.py:MatrixTransform.matrix", "czone/transform/transform.py:Rotation.matrix", "czone/molecule/molecule.py:BaseMolecule.atoms", "czone/molecule/molecule.py:BaseMolecule.set_atoms", "czone/molecule/molecule.py:BaseMolecule.orientation", "czone/volume/volume.py:BaseVolume.atoms", "czone/scene/scene.py:Scene.all_atoms", "czone/util/measure.py:calc_rdf"]}
{"id": "C123", "title": "Amorphous generation comes to an end", "statement": "gen_p_substrate and gen_p_substrate_batched return, for every box, as long as there is room: a coordinate that keeps the minimal distance to all atoms placed so far (and their images) is taken, a batch in which the first such coordinate of a voxel keeps it adds an atom, and when every configuration leaves room for one more atom and the random numbers come everywhere in the box, the loop ends. In particular an AmorphousGenerator supplies atoms whatever minimal distance it was given.", "quantifier": "all boxes, minimal distances, densities and streams of random numbers", "why_tests_cant": "Termination of a rejection loop over random streams; no finite number of runs settles it.", "anchors": ["czone/generator/amorphous_algorithms.py:gen_p_substrate", "czone/generator/amorphous_algorithms.py:gen_p_substrate_batched", "czone/generator/amorphous_algorithms.py:get_p_dist_batch", "czone/generator/generator.py:AmorphousGenerator.supply_atoms", "czone/generator/generator.py:AmorphousGenerator.min_dist"]}
{"id": "C124", "title": "Parameters of surfaces can be assigned at any time", "statement": "After any sequence of assignments to the radius, centre, normal, point, axis, length and tol of a Sphere, Plane or Cylinder, and of flip_orientation calls, checkIfInterior answers for the body given by the values accepted last; an assignment that raises (ValueError, TypeError, AssertionError or IndexError, by kind of value) leaves the surface as it was; values that do not describe a surface (zero or negative sizes, zero vectors, arrays of the wrong shape, nan) are refused.", "quantifier": "all surfaces, sequences of assignments of numbers, infinities, nan, strings, other objects and arrays of any shape, and points", "why_tests_cant": "Ranges over all histories and kinds of values, with the accepted set differing per class.", "anchors": ["czone/volume/algebraic.py:BaseAlgebraic.tol", "czone/volume/algebraic.py:Sphere.radius", "czone/volume/algebraic.py:Sphere.center", "czone/volume/algebraic.py:Plane.point", "czone/volume/algebraic.py:Plane.normal", "czone/volume/algebraic.py:Plane.flip_orientation", "czone/volume/algebraic.py:Cylinder.axis", "czone/volume/algebraic.py:Cylinder.point", "czone/volume/algebraic.py:Cylinder.radius", "czone/volume/algebraic.py:Cylinder.length", "czone/volume/algebraic.py:Sphere.checkIfInterior", "czone/volume/algebraic.py:Plane.checkIfInterior", "czone/volume/algebraic.py:Cylinder.checkIfInterior"]}
{"id": "C125", "title": "The settings of a crystal can be changed at any time", "statement": "After any sequence of assignments to structure, origin, voxel, strain_field and post_transform of a Generator and to bases, scale and origin of its voxel, of transform and supply_atoms calls, every setting is the one accepted last (moved by the transformations since), whatever was done to the other settings; a structure resets bases and scale and keeps the origin; supply_atoms gives the crystal of these settings. An assignment that raises (AssertionError, TypeError, ValueError or AttributeError, by kind of value) leaves the generator as it was, and values that give no crystal are refused.", "quantifier": "all generators, sequences of assignments of objects of the right and of other classes, arrays of any shape, lists and non-numbers, and boxes", "why_tests_cant": "Ranges over all histories and kinds of values; the settings live in two objects and one setter replaces the other's state.", "anchors": ["czone/generator/generator.py:Generator.structure", "czone/generator/generator.py:Generator.origin", "czone/generator/generator.py:Generator.voxel", "czone/generator/generator.py:Generator.strain_field", "czone/generator/generator.py:Generator.post_transform", "czone/generator/generator.py:Generator.transform", "czone/generator/generator.py:Generator.supply_atoms", "czone/volume/voxel.py:Voxel.scale", "czone/volume/voxel.py:Voxel.bases", "czone/volume/voxel.py:Voxel.origin"]}
{"id": "C126", "title": "A seed makes a call reproducible", "statement": "get_N_splits, gen_p_substrate, gen_p_substrate_batched, find_approximate_normal, both alpha shape functions, add_adsorbate and ChemicalSubstitution return, when called with a seed, the same for the same arguments, wherever in a program the call stands and whatever was drawn before from numpy's global generator; the call leaves the global generator as it was, so that the rest of the program returns what it would return without it. A program that begins with np.random.seed(s) returns the same in every process.", "quantifier": "all arguments, seeds, states of the random generators and programs, whatever numbers numpy's generators give", "why_tests_cant": "Ranges over all states of two hidden sources of randomness; a test runs in one process, where the state usually repeats.", "anchors": ["czone/util/misc.py:get_N_splits", "czone/generator/amorphous_algorithms.py:gen_p_substrate", "czone/generator/amorphous_algorithms.py:gen_p_substrate_batched", "czone/surface/alpha_shape.py:alpha_shape_alg_3D", "czone/surface/alpha_shape.py:alpha_shape_alg_3D_with_sampling", "czone/surface/adsorbate.py:find_approximate_normal", "czone/surface/adsorbate.py:add_adsorbate", "czone/generator/post.py:ChemicalSubstitution"]}
{"id": "C127", "title": "Zone axes can be assigned at any time", "statement": "After any sequence of assignments to z1, z2, r1, r2, plane, volume and generator of a SimpleGrainBoundary, of changes of entries of z1 and z2 in place and of build_object calls, build_object turns the first grain so that the zone axis last assigned to z1 points along z and the second one so that the one last assigned to z2 does; None for z2 stands for the z1 of that moment. Refused values (AssertionError) change nothing and accepted ones can be used.", "quantifier": "all builders, crystals, volumes and sequences of assignments", "why_tests_cant": "Ranges over all histories; two attributes may be one array object.", "anchors": ["czone/prefab/prefab.py:SimpleGrainBoundary.__init__", "czone/prefab/prefab.py:SimpleGrainBoundary.z1", "czone/prefab/prefab.py:SimpleGrainBoundary.z2", "czone/prefab/prefab.py:SimpleGrainBoundary.build_object"]}
{"id": "C128", "title": "Volumes can be shared between MultiVolumes and scenes", "statement": "A Volume or MultiVolume may be added to several MultiVolumes and scenes, and to a scene together with a MultiVolume that contains it; add_volume and add_object keep the object, not a copy. If the generators are deterministic, populate of a scene ends as for private copies of its objects (same exception, or same objects, atoms and species), and afterwards nothing that is populated anywhere, and no transformation of objects that have nothing in common with it, changes what the scene reports. A MultiVolume that has been put into itself, directly or through others, cannot be populated or transformed under any recursion limit.", "quantifier": "all graphs of volumes, MultiVolumes, molecules and scenes, deterministic generators, recursion limits and programs of add_object, add_volume, populate, populate_atoms and transform calls", "why_tests_cant": "Ranges over all sharing graphs and call sequences; the effects pass through objects reached along several paths.", "anchors": ["czone/volume/volume.py:MultiVolume.add_volume", "czone/volume/volume.py:MultiVolume.populate_atoms", "czone/volume/volume.py:MultiVolume.transform", "czone/volume/volume.py:Volume.populate_atoms", "czone/scene/scene.py:Scene.add_object", "czone/scene/scene.py:Scene.populate", "czone/scene/scene.py:Scene.all_atoms"]}
{"id": "C129", "title": "Defects of the fcc prefabs put no atoms too close together", "statement": "In what fccMixedTwinSF, fccTwin or fccStackingFault builds from an fcc crystal with cell a, any two atoms are at least a/sqrt(2) apart, the distance of nearest neighbours in the perfect crystal, within the grains and across every twin plane and stacking fault, whatever number, order and kinds of defects were drawn.", "quantifier": "all volumes, orientations of the crystal, planes {111}, numbers of defects, separations of at least one plane and random numbers", "why_tests_cant": "Ranges over all random sequences of defects; each grain is a product of mirrors and displacements of the one before.", "anchors": ["czone/prefab/prefab.py:fccMixedTwinSF.build_object", "czone/prefab/prefab.py:fccTwin", "czone/prefab/prefab.py:fccStackingFault", "czone/util/misc.py:get_N_splits", "czone/volume/volume.py:MultiVolume.populate_atoms"]}
{"id": "C130", "title": "The worked examples of the documentation do what their text says", "statement": "For every fcc crystal in its cubic cell a with an atom at the coordinate origin and every radius, the program of 'nanoparticle on substrate' (sphere, twin plane through the centre, two stacking faults below, priorities 4 to 1) makes a MultiVolume of four grains. Every point of the sphere belongs to exactly the grain its height along [111] says: above the twin plane the twin, then the crystal, then the two faulted grains. The twin has the layers of the crystal in the opposite order, each faulted grain those of the one above it with two layers skipped. Populating it ends without an exception and no two atoms are nearer than a/sqrt(2). The faults are however not at the layers asked for: snap_plane_near_point puts them at multiples of three layers (the one asked for at -8 is at -9). The same page then places the particle with s2s_alignment, which raises IndexError; and the core of 'core-shell nanoparticle', bounded by six planes, can be made but never populated (ValueError).", "quantifier": "all cells, orientations, radii, numbers of layers at least 2 and 3 apart, states of the random number source", "why_tests_cant": "The claim is about every point of the region and every pair of atoms, for every crystal and radius the example may be changed to; a run of the page checks one.", "anchors": ["docs/source/examples/nanoparticle_on_substrate.rst", "docs/source/examples/core_shell_nanoparticle.rst", "czone/generator/generator.py:Generator.from_generator", "czone/volume/algebraic.py:snap_plane_near_point", "czone/transform/transform.py:s2s_alignment", "czone/volume/volume.py:MultiVolume.populate_atoms"]}
{"id": "C131", "title": "A built prefab can be populated and holds exactly the sites of its grains", "statement": "What fccMixedTwinSF (fccTwin, fccStackingFault), wurtziteStackingFault and SimpleGrainBoundary build can be populated without an exception. The MultiVolume then holds, without repetitions, exactly the sites of the crystal of each grain in the part of the body that belongs to the grain: between the planes of the layer for the stacking prefabs, on its side of the plane for the boundary. Nothing of a neighbouring grain is left over and no site at a defect plane is lost or doubled.", "quantifier": "all crystals (cells, origins, sites), bodies, numbers of defects, random numbers, zone axes and planes", "why_tests_cant": "Ranges over all crystals, bodies and sequences of defects; a missing or doubled atom at one plane is invisible in counts, and whether populate_atoms raises depends on the surfaces the body already has.", "anchors": ["czone/prefab/prefab.py:fccMixedTwinSF.build_object", "czone/prefab/prefab.py:wurtziteStackingFault.build_object", "czone/prefab/prefab.py:SimpleGrainBoundary.build_object", "czone/volume/volume.py:MultiVolume.populate_atoms", "czone/volume/volume.py:Volume.get_bounding_box", "czone/generator/generator.py:Generator.supply_atoms"]}
{"id": "C132", "title": "Editing the object list of a scene", "statement": "scene.objects is the list the scene works on, and scene.objects.remove(ob) is the only way to take an object out. Whatever was added, removed, cleared, reprioritised or populated before (also with exceptions), after populate() all_atoms, all_species and ase_atoms are those of a scene made anew from the objects now present at their present priorities. A scene that was never populated, or to which objects were added since, cannot be read: AttributeError when the first object without a mask is a MultiVolume (for species also a Volume) that holds no arrays yet, otherwise TypeError (never populated) or IndexError (added later); an empty scene gives TypeError, an emptied one ValueError. Between removal of an object and the next populate() the scene is either refused or shows the contents of the remaining objects.", "quantifier": "all histories of add_object, remove, clear, priority assignments, populate_atoms and populate calls; all objects", "why_tests_cant": "A statement about every history of calls; the masks of the last populate() belong to positions in a list that is sorted and edited, which shows only for particular orders and numbers of atoms.", "anchors": ["czone/scene/scene.py:Scene.objects", "czone/scene/scene.py:Scene.populate", "czone/scene/scene.py:Scene.all_atoms", "czone/scene/scene.py:Scene.all_species", "czone/scene/scene.py:Scene.ase_atoms", "czone/volume/volume.py:BaseVolume.atoms", "czone/volume/volume.py:MultiVolume.__init__"]}
{"id": "C133", "title": "A Volume and the Molecule made of its atoms stay equal under motions", "statement": "Molecule(vol.species, vol.atoms) of a populated Volume or MultiVolume (or of the all_species and all_atoms of a scene) is interchangeable with it as far as rigid motions go: after the same locked rigid motions, applied by transform with any calls of populate() in between, or by from_volume(transformation=...) and from_molecule(transformation=...), the repopulated volume or scene holds the same atoms and species as the Molecule. Put into a scene in place of the Volume, at its priority, the Molecule gives the same scene.", "quantifier": "all scenes of molecules and nested volumes of crystal, all sequences of rigid motions, all interleavings with populate()", "why_tests_cant": "The README of the tests names it as an integration test still to be written. It compares two ways of building for every body, crystal and sequence of motions; sites at the edge of a body or the box decide it.", "anchors": ["czone/volume/volume.py:Volume.transform", "czone/volume/volume.py:Volume.from_volume", "czone/volume/volume.py:MultiVolume.from_volume", "czone/molecule/molecule.py:BaseMolecule.from_molecule", "czone/molecule/molecule.py:BaseMolecule.transform", "czone/molecule/molecule.py:BaseMolecule.checkIfInterior", "czone/scene/scene.py:Scene.populate"]}
{"id": "C134", "title": "Warnings are issued when something is left undone, and only then", "statement": "Scene.populate() warns that a Molecule removes no atoms exactly when a Molecule has the same or a smaller priority number than another object, once for every such pair; if it does not warn, no region one could attribute to the Molecules would change the scene, and if it raises it has not warned. Molecule.transform and from_molecule warn once per transformation exactly when the origin is to be transformed, tracks an atom and print_warnings is set; the warning changes nothing else, and print_warnings=False silences the Molecule for good. A Molecule that warns that its origin will not be transformed has the same origin afterwards.", "quantifier": "all scenes of molecules and nested volumes, all molecules, transformations and histories of calls", "why_tests_cant": "Absence of warnings over all scenes and histories; tests look for a warning in one example. What silence means for the contents is a statement about all regions.", "anchors": ["czone/molecule/molecule.py:BaseMolecule.transform", "czone/molecule/molecule.py:BaseMolecule.checkIfInterior", "czone/molecule/molecule.py:BaseMolecule.from_molecule", "czone/scene/scene.py:Scene.populate"]}
{"id": "C135", "title": "Planes measure distances that motions and flips do not change; boxes of cylinders fit", "statement": "Moving a Plane and points by the same rigid motion leaves dist_from_plane and sdist_from_plane unchanged, and project_point of the moved points is the moved projections; flip_orientation keeps distances and projections; distances vanish exactly on the plane, and projecting twice is projecting once. Cylinder.get_bounding_box returns eight corners centred at the cylinder's point, the first four displaced from the last four by the length along the axis; it encloses exactly the points within half the length along the axis and within the radius along two perpendicular directions, and no face can be moved inwards without cutting the cylinder. The box of a moved cylinder is the moved box.", "quantifier": "all planes, point batches, cylinders and rigid motions, of any nesting", "why_tests_cant": "Universally quantified versions of the checks the repository makes on random surfaces; exactness of the region of the box and the effect of motions are statements about all points.", "anchors": ["czone/volume/algebraic.py:Plane.dist_from_plane", "czone/volume/algebraic.py:Plane.project_point", "czone/volume/algebraic.py:Plane.flip_orientation", "czone/volume/algebraic.py:Cylinder.get_bounding_box", "czone/transform/transform.py:MatrixTransform.applyTransformation_alg"]}
{"id": "C136", "title": "What fills a Volume is the crystal, not its description", "statement": "Two crystalline generators that describe the same infinite crystal are interchangeable: a Volume, or a MultiVolume of Volumes, populated with one holds the same atoms and species as with the other, each once. Descriptions of the same crystal are: a generator and its copy translated by a lattice vector, a generator and its copy transformed by a symmetry of the crystal, and cells spanned by other basis vectors of the same lattice with the fractional coordinates converted.", "quantifier": "all volumes, all unstrained crystals, all pairs of descriptions", "why_tests_cant": "Quantified over all pairs of descriptions of a crystal and all bodies; which cells are visited differs between the descriptions, and a site lost at the rim of one block of cells shows only for particular bodies.", "anchors": ["czone/generator/generator.py:Generator.supply_atoms", "czone/generator/generator.py:Generator.transform", "czone/volume/volume.py:Volume.populate_atoms", "czone/volume/volume.py:MultiVolume.populate_atoms", "czone/volume/volume.py:Volume.get_bounding_box"]}
{"id": "C137", "title": "Large bodies hold the density and the composition of the crystal", "statement": "For a Volume given by a sphere, a cylinder or the corner points of a block or another convex solid, filled by an unstrained crystal: when the body grows, the number of atoms divided by the volume of the body tends to the number of atoms in the unit cell divided by the volume of the cell, for all atoms and for every species; so the composition tends to that of the cell. Position and orientation of the body and of the crystal, the tolerance, and the choice of the basis positions do not matter.", "quantifier": "all unstrained crystals with an invertible cell, all centres, axes, proportions and tolerances; limit of the size", "why_tests_cant": "A limit over all sizes; a test counts atoms of one body and cannot tell a lost layer, which is negligible, from a wrong cell or a missed site.", "anchors": ["czone/volume/volume.py:Volume.populate_atoms", "czone/volume/volume.py:Volume.get_bounding_box", "czone/volume/algebraic.py:Sphere.checkIfInterior", "czone/volume/algebraic.py:Cylinder.checkIfInterior", "czone/volume/volume.py:makeRectPrism", "czone/generator/generator.py:Generator.supply_atoms", "czone/volume/voxel.py:Voxel.get_extents"]}
{"id": "C138", "title": "Rounding does not decide about atoms on a surface", "statement": "The tests of spheres, planes and cylinders are made with 64-bit floats, and so are the normalised directions and the coordinates of atoms. With a tolerance that is not absurdly small (10^-12 of the lengths involved; the default of 10^-5 does for lengths up to 10^7): a point on a surface or inside it is interior, also when it is given by computed coordinates; a point two tolerances beyond it is not. So a Volume bounded by surfaces and filled by a crystal holds every site of the closed body, and nothing two tolerances outside. Unless a site lies within two tolerances outside a surface, every machine, whatever the order of summation in its linear algebra library, with or without fused operations, fills the Volume with the same atoms in the same order, and they are those of exact arithmetic.", "quantifier": "all surfaces, points, unstrained crystals; all arithmetics with the error bounds of IEEE 754 double precision", "why_tests_cant": "A test runs on one machine and samples points; whether atoms on a surface survive rounding depends on the last bits of every input. Quantified over all arithmetics, the claim also covers libraries no test has run on.", "anchors": ["czone/volume/algebraic.py:Sphere.checkIfInterior", "czone/volume/algebraic.py:Plane.checkIfInterior", "czone/volume/algebraic.py:Plane.normal", "czone/volume/algebraic.py:Cylinder.checkIfInterior", "czone/volume/algebraic.py:Cylinder.axis", "czone/generator/generator.py:Generator.supply_atoms", "czone/volume/voxel.py:Voxel.get_extents", "czone/volume/volume.py:Volume.populate_atoms"]}
{"id": "C139", "title": "Moving a filled body in floats loses no atoms on its surfaces", "statement": "A Volume bounded by spheres, planes and cylinders is moved together with its crystal by any number of translations, rotations and inversions, all computed with 64-bit floats (positions, basis vectors, normals and axes, which are normalised again each time). With a tolerance that is not too small for the number of moves and the distances (128 (k+1)(d + 10^-12) R for k moves within R, d being how far the matrices are from orthogonal): the moved surface accepts the moved image of each point on the surface or inside it, and refuses those two tolerances beyond. Filled again, the Volume has the images of all sites of the closed body and nothing two tolerances outside, and unless a site lies in between, its atoms are the images of its former atoms, one by one in the same order; on every machine, and as in exact arithmetic.", "quantifier": "all surfaces, unstrained crystals with scale 1, lists of moves, near-orthogonal matrices; all arithmetics with the error bounds of IEEE 754 double precision", "why_tests_cant": "Errors accumulate over moves and the atoms at stake lie exactly on a surface; a test sees one history on one machine. Rotation also accepts matrices off by 10^-6, which do lose atoms, so the dependence on the accuracy is part of the claim.", "anchors": ["czone/transform/transform.py:Translation.applyTransformation_alg", "czone/transform/transform.py:MatrixTransform.applyTransformation", "czone/transform/transform.py:MatrixTransform.applyTransformation_bases", "czone/transform/transform.py:MatrixTransform.applyTransformation_alg", "czone/transform/transform.py:Rotation.matrix", "czone/volume/volume.py:Volume.transform", "czone/volume/volume.py:Volume.populate_atoms", "czone/generator/generator.py:Generator.transform", "czone/volume/algebraic.py:Plane.checkIfInterior", "czone/volume/algebraic.py:Cylinder.checkIfInterior"]}
{"id": "C140", "title": "Grains that touch are resolved alike on every machine", "statement": "Several Volumes bounded by spheres, planes and cylinders and filled by crystals stand in a Scene; their atoms, their surfaces and the tests between bodies are computed with 64-bit floats. With tolerances that are not absurdly small: an atom on a surface shared by two bodies (a grain boundary, a particle cut in two) is contributed by the body with the smaller priority number and not by the other, so it is neither lost nor doubled; with equal priority numbers both bodies lose it, on every machine. No row of a body lies at a point of another body of smaller or equal priority number. If every site is in the closed body or two tolerances beyond, for every body of the scene, then all_atoms and all_species list exactly the sites that the precedence rule leaves over in exact arithmetic, in the same order on every machine and with every accurate solver of the extents.", "quantifier": "all lists of bodies, unstrained crystals, priorities, points; all arithmetics with the error bounds of IEEE 754 double precision", "why_tests_cant": "Atoms on a common surface pass or fail two tests at once, and both are decided by the last bits; a test sees one pair of grains on one machine and cannot tell a boundary atom kept by luck from one kept by the tolerance.", "anchors": ["czone/scene/scene.py:Scene.populate", "czone/scene/scene.py:Scene.all_atoms", "czone/volume/volume.py:Volume.checkIfInterior", "czone/volume/volume.py:Volume.populate_atoms", "czone/volume/algebraic.py:Plane.checkIfInterior", "czone/volume/algebraic.py:Sphere.checkIfInterior"]}
{"id": "C141", "title": "Amorphous blocks keep their minimal distance in floats", "statement": "gen_p_substrate computes coordinates, voxel indices, distances and the square of min_dist with 64-bit floats. For a box of at most 10^6 minimal distances and whatever the generator draws: it does not raise, and in what it returns no two atoms are closer than min_dist up to one part in 10^9, all atoms are in the box up to one part in 10^15, and their number is volume times density rounded.", "quantifier": "all boxes, distances, densities and streams of random numbers; all arithmetics with the error bounds of IEEE 754 double precision", "why_tests_cant": "An atom put into the wrong voxel by rounding is not compared with its neighbours; it takes a coordinate at a voxel face and a neighbour two voxels on, which random draws hardly ever give. The draws that lead out of the grid have probability 2^-53.", "anchors": ["czone/generator/amorphous_algorithms.py:gen_p_substrate", "czone/generator/amorphous_algorithms.py:get_p_dist", "czone/generator/amorphous_algorithms.py:get_voxels"]}
{"id": "C142", "title": "Molecules keep their shape when moved in floats", "statement": "A Molecule is moved by any number of translations, rotations, inversions and reflections, computed with 64-bit floats, by transform or from_molecule. No call raises; species and order of the atoms stay; bond lengths, angles and distances from the origin of the molecule change by no more than 2 k d relatively and 2^-44 k R, for k moves within the distance R whose matrices are orthogonal up to d. Moves that cancel bring every atom back to its place up to 2^-45 k R. The matrix of a Reflection is orthogonal up to 2^-43. The drift with k is real for matrices that Rotation accepts although they stretch.", "quantifier": "all molecules, lists of moves, near-orthogonal matrices; all arithmetics with the error bounds of IEEE 754 double precision", "why_tests_cant": "Distortion accumulates over moves and depends on the accuracy of every matrix; a test sees one history, and bounds for all histories and machines are not samples.", "anchors": ["czone/molecule/molecule.py:BaseMolecule.transform", "czone/molecule/molecule.py:BaseMolecule.from_molecule", "czone/transform/transform.py:Translation.applyTransformation", "czone/transform/transform.py:MatrixTransform.applyTransformation", "czone/transform/transform.py:Reflection.matrix", "czone/transform/transform.py:Rotation.matrix"]}
{"id": "C143", "title": "Aligning two vectors in floats", "statement": "rot_vtv(v, vt), computed with 64-bit floats, returns a matrix that Rotation accepts, that keeps inner products up to 2^-39, and that takes v into the direction of vt up to 2^-24 of its length. For equal vectors it returns the identity; for opposite ones a half turn that reverses v.", "quantifier": "all pairs of vectors of length at least 2^-200; all arithmetics with the error bounds of IEEE 754 double precision and all libraries for arccos, sin, cos within a few units of the last place", "why_tests_cant": "Whether the computed cosine of parallel vectors is 1, below or above depends on the digits of the vectors; a test tries some directions.", "anchors": ["czone/transform/transform.py:rot_vtv", "czone/transform/transform.py:Rotation.matrix"]}
{"id": "C144", "title": "Nested MultiVolumes in floats", "statement": "A scene holds Volumes and MultiVolumes, nested to any depth, filled by crystals with 64-bit floats. When every site of every crystal is, for every volume of the scene, in the closed body or two tolerances beyond one of its surfaces, the atoms of the scene are one by one the exact sites: within a MultiVolume members yield to members of smaller or equal priority number, then MultiVolumes yield to each other by their own numbers. Two machines give the same atoms in the same order. Even for unsettled sites no object keeps an atom near a point of an object it has to give way to. populate raises exactly when some MultiVolume, however deep, is empty (ValueError).", "quantifier": "all scenes of nested MultiVolumes, priorities, crystals and surfaces; all arithmetics with the error bounds of IEEE 754 double precision", "why_tests_cant": "An atom on a common surface is asked for by every level of the nesting, each time with rounded coordinates; tests fix one nesting and one machine.", "anchors": ["czone/volume/volume.py:MultiVolume.populate_atoms", "czone/volume/volume.py:MultiVolume.checkIfInterior", "czone/scene/scene.py:Scene.populate"]}
{"id": "C145", "title": "Scenes moved as a whole in floats", "statement": "All objects of a scene, Volumes and MultiVolumes nested to any depth, are moved by the same locked translations, rotations and inversions, computed with 64-bit floats, and the scene is populated again. No call raises, and the atoms are one by one and in the same order the images of the atoms the scene had before, up to 1/16 of the tolerances, whatever the machines, when every site of every crystal is, for every volume of the scene, in the closed body or two tolerances beyond one of its surfaces.", "quantifier": "all scenes of nested MultiVolumes, all lists of at most 2^30 moves within the budget of C139, all arithmetics with the error bounds of IEEE 754 double precision", "why_tests_cant": "Grains that touch share atoms on their common surface; after a move both surfaces and atoms are off by rounding errors, in different directions, and a test sees one move.", "anchors": ["czone/volume/volume.py:MultiVolume.transform", "czone/volume/volume.py:Volume.transform", "czone/volume/volume.py:MultiVolume.populate_atoms", "czone/scene/scene.py:Scene.populate"]}
{"id": "C146", "title": "Numbers drawn by calls", "statement": "Calls without a seed take fresh numbers: every generator that the operating system makes and every number of the global generator is used by one call only and none is skipped, so the k-th gen_p_substrate without a seed works with the k-th generator, and two alpha shapes one after the other are computed with four different arrays of noise (scaled by 1e-4 and 1e-10 in turn). Within a call, positions, batches, noise and probabilities are the answers to successive requests of one generator; add_adsorbate with a seed draws twenty arrays of noise if it samples, then the choice of the atom, then one number per attempt, the remainder of which by 10000 seeds that attempt.", "quantifier": "all programs of calls with and without seeds, all generators of numpy (any states, any answers)", "why_tests_cant": "A test cannot tell fresh numbers from reused ones by looking at one output, and repeats of a script hide numbers shared between calls.", "anchors": ["czone/util/misc.py:get_N_splits", "czone/generator/amorphous_algorithms.py:gen_p_substrate", "czone/generator/amorphous_algorithms.py:gen_p_substrate_batched", "czone/surface/alpha_shape.py:alpha_shape_alg_3D", "czone/surface/adsorbate.py:add_adsorbate"]}
{"id": "C147", "title": "Adsorbates placed in floats", "statement": "With 64-bit floats add_adsorbate puts the molecule where it should be: it does not raise when a normal has been found, species and order stay, distances between atoms change by no more than 2^-36 relatively, the bonding atom is at target + bond_length * normal up to 2^-46 of the size R of the system, and the height of every atom over the bonding atom along the normal is its former component along the direction of the molecule up to 2^-21 R. A mol_rotation turns the molecule about the normal through the bonding atom by exactly that angle, up to 2^-31 R.", "quantifier": "all molecules, bonding atoms, targets and bond lengths within R, all angles up to 64, all normals of length one up to 2^-40; all arithmetics with the error bounds of IEEE 754 double precision, all libraries for arccos, sin, cos and rotation vectors within a few units of the last place", "why_tests_cant": "Three moves are computed one after the other, each from the rounded result of the one before, and whether the matrices are accepted depends on the last digits of the normal.", "anchors": ["czone/surface/adsorbate.py:add_adsorbate", "czone/transform/transform.py:rot_v", "czone/transform/transform.py:rot_vtv"]}
{"id": "C148", "title": "Success of add_adsorbate in floats", "statement": "The boolean returned by add_adsorbate, computed with 64-bit floats, is honest: with True no atom of the molecule is in the closed volume or within a quarter of the tolerance of it; with False some atom is not two tolerances outside of any surface. For a direction of the molecule at least 10^-6 away from the normal: on a flat face a molecule that reaches down by less than the bond length, by two tolerances, is placed with True, and a molecule whose bonding atom belongs into the volume is returned with False.", "quantifier": "all volumes of spheres, planes and cylinders with tolerances above 10^-12 of their sizes, all molecules, targets, bond lengths and angles; all arithmetics with the error bounds of IEEE 754 double precision", "why_tests_cant": "The flag is a test of computed positions against computed surfaces, and the errors of both decide near the surface.", "anchors": ["czone/surface/adsorbate.py:add_adsorbate", "czone/volume/volume.py:Volume.checkIfInterior"]}
{"id": "C149", "title": "Adsorbates in a scene with their volume", "statement": "A scene of a volume and of molecules that add_adsorbate placed on it with success holds exactly the atoms of the volume and of all these molecules, each with its species, whatever the priorities. If add_adsorbate reported failure and the priority number of the volume is not larger than that of the molecule, the scene loses an atom of the molecule; if the number of the molecule is smaller, all atoms of both stay, also those that overlap.", "quantifier": "all volumes of spheres, planes and cylinders with a crystal, any number of adsorbates, all priorities; all arithmetics with the error bounds of IEEE 754 double precision", "why_tests_cant": "The scene tests the atoms again, with objects sorted and grouped by priority; whether the flag predicts the outcome depends on both tests agreeing for every position and every order.", "anchors": ["czone/surface/adsorbate.py:add_adsorbate", "czone/scene/scene.py:Scene.populate", "czone/molecule/molecule.py:BaseMolecule.checkIfInterior"]}
