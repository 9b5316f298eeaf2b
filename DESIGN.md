# Formal model of construction_zone (czone)

`properties.jsonl` lists what a user of the package relies on.  `lean/Verif/` holds a Lean 4 model of
the Python code and the theorems.  `MANIFEST.json` maps properties to theorems.  `seeded/` records the tests of the
theorems against wrong programs.

## 1. Trusted base

* Lean 4.33.0 kernel, and the three standard axioms `propext`, `Classical.choice`, `Quot.sound`
  (section 6 lists the result per group of theorems).  No own axioms, no `sorry`, no `native_decide`, no `bv_decide`.
* The transcription Python -> Lean, made by reading `/repo` as text.  Every model definition cites file
  and lines.  It is not checked mechanically.
* Numeric idealisation (below) and the contracts of external libraries (below).

### Numeric idealisation
* Floats are exact numbers.  Geometry with square roots or trigonometry is over the reals.  Code that only
  compares and does field arithmetic (cell lists, voxel grids, extents, minimum image, molecules) is over an arbitrary
  linearly ordered field with floor, so witnesses can be evaluated over the rationals by the kernel.
* Rounding errors are modelled in `Rounded`, `RoundedMotion`, `RoundedScene`, `RoundedAmorphous`, `RoundedMolecule`, `RoundedAlign`, `RoundedMulti`, `RoundedMultiMotion` and `RoundedAdsorbate` only: interior tests of surfaces, normalisation of directions,
  coordinates of the atoms of a crystal, filling a Volume with them, and moving both, in any arithmetic with the error bounds of 64-bit
  floats (`Arith`).  C138 to C145, C147 and C148 say when the exact model and the rounded program agree; everywhere else floats are exact.
* Overflow, signed zeros, NaN and infinities are not modelled.  Where Python would produce NaN
  through a division by a zero norm, the model has an explicit `PyErr.nan` outcome instead of Lean's totalised `x/0`.
* Tolerances which are in the code (`tol`, `np.allclose`, `1e-...`) are in the model with their exact values.
* Python exceptions are values: `Except PyErr a`.  For mutating methods the model also gives the state left
  behind by a failing call.

### External calls: contracts
| call | how it appears in the model |
|---|---|
| `scipy.spatial.Delaunay(points).find_simplex(p,tol)>=0` | `Env.inHull`; contract `ExactHull` used only where a theorem names it |
| `ConvexHull(points)` | `Env.hullOk`: whether creation succeeds |
| `HalfspaceIntersection`, `scipy.optimize.linprog` | fields of `Solvers` (module `Bounding`); contract `ExactSolvers` (what the documentation says; `exists_exact` proves that such solvers exist); inside `Volume` the pair returned is `Env.planesBox` |
| `np.random.*` | explicit argument: the stream of numbers drawn; theorems quantify over all streams |
| loops that end by chance | run with a number of passes; `none` means not finished; theorems hold for every number |
| `np.linalg.solve/inv` | exact Cramer solution, `linAlg` error when the determinant is 0 |
| `scipy` `Rotation.align_vectors` | parameter of `Tr.rotAlign`, a pair or an exception |
| pymatgen `Structure` | `Struct`: lattice matrix (rows are the lattice vectors), fractional coordinates, atomic numbers |
| pymatgen `Lattice.from_parameters` | its formula (`latticeFromParameters`), checked against lengths and angles (`latticeFromParameters_rows`) |
| pymatgen space group tables | parameter `SpaceGroups` |
| WulffPack | parameter: lists of facets with unit normals and distances |
| Delaunay triangulation of alpha shapes | parameter: tetrahedra and neighbours |
| `copy.deepcopy` | fresh heap cells with equal content (module `Heap`), value copy elsewhere |
| `list.sort`, `np.unique`, `np.delete`, `np.append`, boolean masks | defined in `Verif/Py.lean` |
| ASE file writing | `to_file` is a list of write effects |
| matplotlib | a `Figure` records scatter calls, angles, limits and titles of the four axes |

### Code not modelled
Logging and printing; what the `warnings` filters do with a warning (the calls of `warnings.warn` are in `Notices`); drawing done by matplotlib and ipywidgets; file formats;
`IStrain.apply_strain` (the class cannot be constructed, C36); abstract base classes; `__repr__`.  Ownership of one object
by several owners is expressed in `Heap`, `Sharing`, `Studio` and `Gallery` only.

## 2. Layout

Model files contain definitions with citations, `*Lemmas` files contain auxiliary lemmas, `Spec/*` contains
specifications that do not mention the model, `Props/*` contains the property theorems with non-vacuity examples.
Findings (properties that are false of the code) are theorems whose name ends in `_refuted`, always with a concrete
witness; the part which does hold is a theorem named `..._partial`.

| module | Python | remarks |
|---|---|---|
| `Py` | numpy and list primitives | stable sort, unique, masks, indices |
| `Geom` | arrays of shape (3,), (3,3) | records with explicit components |
| `Precedence`, `Scene` | scene.py, MultiVolume precedence | objects abstract: what they supply, where they are; repeated supply gives the same |
| `World` | scene.py | scenes of actual Volumes, MultiVolumes and Molecules; supply is called anew at every populate |
| `Algebraic`, `Snap` | volume/algebraic.py | Sphere, Plane, Cylinder, snap_plane_near_point |
| `Bounding` | `algebraic.get_bounding_box` | the two scipy routines are parameters |
| `Transform` | transform/transform.py | inductive type of transformations; s2s_alignment as state change |
| `TransformSet` | setters of transform.py | histories of assignments; arrays by shape |
| `Sharing` | setters and methods of generator.py and strain.py on shared objects | generators, voxels and strain fields by address; exact field with floor |
| `Studio` | scene.py:61-72, 83-93, 135-164 on named objects | objects held by several scenes; a Volume at once in a scene and in a MultiVolume is in `Gallery` |
| `Gallery` | scene.py:61-72, 83-93, 135-164, volume.py:347-353, 415-431, 446, 457-462, 479-503 on named volumes | MultiVolumes and scenes hold names; recursion limited as in Python (RecursionError); surfaces and generators are owned by their Volume (`Heap`, `Sharing`) |
| `Roster` | scene.py:56-109, 135-164, volume.py:43-56, 93-100, 141, 347-353, 403-410, molecule.py:62-70, 118-121 on named objects | the object list edited by the user; outcome of `populate_atoms()` fixed per object; exceptions in Python's order of evaluation |
| `Notices` | molecule.py:176-181, 231-236, scene.py:154-162 | the calls of `warnings.warn`, in order |
| `Rounded` | algebraic.py:94-96, 171-182, 199-200, 261-267, 302-311; generator.py:200-232; voxel.py:124-128; volume.py:347-353 | the same calls as `Algebraic`, `Generator`, `Volume`, with every operation rounded |
| `RoundedMotion` | transform.py:135-149, 207-249, 411-424 | points, basis vectors and surfaces under translations and matrices, with every operation rounded |
| `RoundedScene` | scene.py:135-164 with volume.py:308-353 | scenes of crystal-filled bodies whose atoms and interior tests are rounded |
| `RoundedAmorphous` | generator/amorphous_algorithms.py:12-158 | `gen_p_substrate` with rounded coordinates, quotients and distances |
| `RoundedMolecule` | molecule.py:166-182, 253-267, transform.py:316-319 | molecules moved by rounded transformations, the matrix of a reflection |
| `RoundedAlign` | transform.py:448-483 | `rot_vtv` with every operation rounded; arccos, sin, cos and pi of the libraries are parameters with error bounds (`Trig`) |
| `RoundedMulti` | volume.py:381-503 | MultiVolumes of rounded crystals, nested; the loops are those of `Scene.populate`, earlier arrays are left out |
| `RoundedMultiMotion` | volume.py:276-291, 457-462 | MultiVolumes moved by locked transformations, with every operation rounded; outcome of failing calls is not followed |
| `RoundedAdsorbate` | surface/adsorbate.py:181, 265-292, transform.py:432-445, molecule.py:227-236 | scipy `from_rotvec` is a parameter (`RotVec`), within 2^-43 of the exact rotation in every entry |
| `Recipes` | docs/source/examples/nanoparticle_on_substrate.rst:52-103, 126-131, core_shell_nanoparticle.rst:51-58 | programs composed of the modelled calls; the numbers written in the pages are parameters; the substrate, the shell and the random rotation are left out |
| `Arrays` | setters and getters of all attributes that hold arrays (algebraic.py, voxel.py, transform.py, strain.py, molecule.py, volume.py, scene.py, generator.py), measure.py:211 | which assignment stores the array it is given and which a copy; checks and shapes of the setters are in the modules of the classes; views are not expressed |
| `RotAlign` | transform.py: rot_align | solver as parameter |
| `Voxel` | volume/voxel.py | four shapes of `scale` |
| `Generator`, `UnitCell` | generator/generator.py, transform/strain.py, transform/post.py | HStrain with origin scraped at every supply; post transforms with random streams |
| `Containers` | add_transform, add_volume | single objects, containers, one-shot iterators |
| `Volume` | volume/volume.py | records and trees, state after failing calls |
| `VolumeCalls` | volume.py: public calls of a Volume | one step per call, histories |
| `Heap` | copy semantics of surfaces, generators, volumes | typed store with addresses |
| `Molecule` | molecule/molecule.py | state machine incl. tracked origins |
| `Misc`, `Measure`, `RdfHist`, `Round` | util/misc.py, util/measure.py | `Round` is Python's round half to even |
| `Amorphous`, `Batched` | generator/amorphous_algorithms.py | cell lists, random streams |
| `Surface`, `Adsorbate` | surface/alpha_shape.py, surface/adsorbate.py | triangulation and random choices as parameters |
| `Prefab`, `Wulff`, `WulffCache` | prefab/prefab.py, prefab/wulff.py | builders with bounded number of passes of get_N_splits; the attributes of a WulffSingle object over histories |
| `Settings` | setters of prefab.py and AmorphousGenerator | values of any type |
| `SceneAse` | Scene constructor, bounds, ase_atoms | |
| `Viz` | viz/viz.py | what is handed to matplotlib |

## 3. Properties: model and proof plan

| id | model | proof |
|---|---|---|
| C01 | `_get_priorities` (stable sort, `np.unique`, level loop, offsets) and the double loop of `populate` | sorted-list invariants: `offsets[rel[i]+1]` = number of objects with priority <= own; then loop induction |
| C02-C05,C07 | same | from the characterisation C01 against an order-free specification |
| C06 | masks on atoms and species | induction on mask selection |
| C08,C09 | Scene state machine (`objects`, `checks`) | refutation by witness history, positive part by induction over histories |
| C10,C11 | bounds, `to_file` effects | refutation + partial |
| C12-C14 | inductive tree of volumes, recursive populate | structural induction |
| C15 | extents + supply + interior filter | convexity of fractional coordinates, floor/ceil |
| C16,C17 | Volume transform on algebraic objects, generator transform | isometry algebra; Cramer solution is natural in the matrix |
| C18-C21 | Volume state machine with partial states after exceptions | case analysis; refutations |
| C22 | Generator.transform | case analysis |
| C23-C25 | heap with addresses for volumes, surfaces, generators | frame/footprint theorem by induction over operation sequences |
| C26 | bounding boxes | barycentric coordinates |
| C27 | Python value kinds | case analysis |
| C28-C31 | Voxel.get_extents, supply_atoms | min/max/floor/ceil lemmas; product enumeration is a bijection; C30 needs fractional coordinates strictly between -1 and 1; strained and doped crystals (C17, C31, C38) in `Props/StrainMotion`: the strain of a moved crystal is the moved strain |
| C32 | lattice.matrix used without transpose | refutation for a non-symmetric matrix; exact condition for equality |
| C33 | Voxel.bases setter | refutation (coplanar bases), exact characterisation |
| C34-C38 | strain, post transforms | matrix algebra, list induction |
| C39-C47 | transforms as inductive type | structural induction; matrix identities; trigonometric identities |
| C48-C53 | algebraic surfaces | real geometry |
| C54-C56 | misc | integer arithmetic; transition system with RNG choices as nondeterminism |
| C57-C59 | voxel grid, distances, rdf (several voxels in `Props/RdfVoxels`) | index arithmetic for all sizes |
| C60-C63 | cell-list rejection sampling with random stream | loop invariants over all streams |
| C64-C68 | surface code | algebraic identity; graph walks; loop termination |
| C69,C70 | prefab loop over the planes | invariants over the list of grains |
| C71 | grain boundary | interior of half spaces, atoms of the two grains |
| C72,C73,C91,C92 | Wulff constructors | arithmetic of grouping; intersection of half spaces; every path of the constructors raises |
| C74-C79,C84-C86 | Molecule state machine | invariant over all operation histories |
| C80 | generator setters | case analysis |
| C81,C82 | volume queries | convex hull of images |
| C83 | vangle | arccos identities |
| C87,C88,C93 | planes snapped by the prefabs | integer combinations of reciprocal vectors; extrema of bodies |
| C89,C94 | stacking sequences | layers as residues of integers; induction over the defects |
| C90 | termination of the prefabs | existence of a stream that ends the search; invariants exclude exceptions |
| C95-C97 | `World` | C01 applied to the states after the supply loop; images under isometries; induction over histories |
| C98,C99 | `UnitCell` | quadratic form of the cell against columns of the matrix |
| C100-C102 | `Containers`, post transforms | induction over calls, over nested sequences; locality in the random stream |
| C103 | `Viz` | grouping by label is a permutation |
| C104 | Scene index | stable sort of a sorted list |
| C105 | Molecule state machine | relation between states before and after, case analysis over the calls |
| C106 | `Settings` | values of any Python type as an inductive type; invariant over histories |
| C107 | `Wulff` | orthogonal decomposition; algebraic identities of the square root of 5 |
| C108 | `SceneAse` | C01 and the masks on positions and species |
| C109 | `Transform`, `Props/LinAlg` | action on points and bases; `Props/LinAlg` identifies the own vectors and matrices with those of Mathlib |
| C110 | `RotAlign` | the solver is a parameter; the failing attribute access is an exception value |
| C111 | `VolumeCalls` | state machine over all public calls of a Volume, invariant over histories |
| C112 | `RdfHist` | histogram on top of C59; numpy's bins are closed to the left, the last one on both sides |
| C113 | `Adsorbate` (proofs in `Props/AdsorbateAway`) | every vector returned is `w0` changed by updates `w - decay^j x`; each keeps the sign of the product with a common normal of the points |
| C114 | `Bounding`, `BoundingLemmas` (proofs in `Props/Bounding`, `Props/BoundingHull`) | status 0 iff a ball fits whose centre is not negative after the shift (`linprog` has non-negative variables by default); polyhedra are hulls of their extreme points (Krein-Milman and finiteness); refuted as documented: a frustum is reported absent, an infinite prism is not reported unbounded |
| C115 | `WulffCache` (proofs in `Props/WulffCache`) | invariants over histories of calls: the kept particle never changes; refuted: setters after the first construction have no effect on the shape, a refused generator is attached |
| C116 | `Prefab` (proofs in `Props/PrefabRest`) | induction over the grains: only the voxel changes; priorities N, …, 0; refuted: the object returned has precedence 0 whatever the volume has |
| C117 | `TransformSet` (proofs in `Props/TransformSet`) | invariants over histories of assignments; lengths under an accepted rotation matrix by Cauchy-Schwarz in both directions; refuted: reflections after assignments to origin or matrix, columns as shift |
| C118, C119 | `Sharing` (proofs in `Props/Sharing`) | invariants over programs on generators, voxels and strain fields held by reference; what `scrape_params` writes is overwritten before it is used; refuted: `origin_type` switched, origin assigned to a field of the generator kind, voxel assigned from another generator |
| C120 | `Studio` (proofs in `Props/Studio`) | named objects and scenes; populated crystals are fixed points of `populate_atoms` (tree induction), so that settled scenes are invariant under programs; `populate` of a scene of different objects is that of `World` |
| C121 | `Studio` (proofs in `Props/StudioHistory`) | invariant over programs: every object of the scene is the image of what it was under its own motions (`Seen`), the list of the scene is the list of names added, up to order |
| C128 | `Gallery` (proofs in `Props/Gallery`, `Props/GalleryRuns`, `Props/GalleryEdits`) | during a loop every object is as at the beginning or populated with all below it (`Inv`); sets of objects closed under membership that populate to themselves (`Stable`) are kept by every call; successful recursion implies a finite depth (`Fit`) |
| C129 | `Props/PrefabDistance` (on top of C89) | every grain has the layers of the first one in the same or the opposite order (`grains_order`); layers of an fcc stack are sixths of the squared cell apart (`fccLayer_normSq`), hence `stack_distance`; `Fills` for the populated object |
| C130 | `Recipes` (proofs in `Props/Recipes`) | planes snapped below the centre (`snap_below`), ownership by priority (`owns_iff`), layers of the mirrored and displaced generators, then `layered_distance` and `layered_populated` of C129 |
| C131 | `Props/PrefabContents` (on top of C12, C70, C71) | the box of a grain is that of the body (`boundingBox_plane`, `assemble_boxes`), cells of the grains stay invertible (`refl_det`), then `grains_held` for any MultiVolume of crystals; four planes give a tuple instead of a box (`populate_planes`) |
| C132 | `Roster`, `Props/Roster` | the calls determine the objects up to order (`run_objs`), `populate_state` gives the masks, `read` reduces reading to `Scene.gather_contents`; for the exceptions Python's order of evaluation is followed |
| C133 | `Props/VolumeMolecule` (on top of C12, C84, C85, C95, C96) | histories of the scene without `add` (`Reached.contents`) against one composite motion (`carry`), `contents_image`; copies by induction over the tree (`SolidTree.copy`); a body that blocks nothing can lose its region (`contents_unblocked`) |
| C134 | `Notices`, `Props/Notices` (on top of C75, C95) | calls of `checkIfInterior` made by the loop (`Precedence.asked`) counted by `rivals`, invariant under sorting; contents with other regions for the molecules (`contents_map`); `print_warnings` invariant under all other calls |
| C135 | `Props/SurfaceMotion` (on top of C26, C50) | linear part of a rigid motion turns normals (`rigid_plane`); orthonormal frame of the box read off the code (`bbox_frame`), convex hull of the rows both ways; supports of the cylinder in the face directions |
| C136 | `Props/SameCrystal` (on top of C15, C131) | contents of a Volume and of grains as sets of sites of the crystal inside the region of the box (`filled`, `grains_held`); equality of crystals for lattice vectors, symmetries, integer changes of basis |
| C137 | `Density`, `Props/Density` | lattice points in multiples of a convex body (Mathlib: `tendsto_card_div_pow_atTop_volume'`), sandwich between `R - δ` and `R + δ`; volumes of ball, cylinder, block; number of atoms as a sum over basis positions of cells kept (`number_eq`) |
| C138 | `Rounded`, `RoundedLemmas`, `Props/Rounded` | forward error analysis of each test for an arbitrary `Arith`; errors below half a tolerance; extents via an affine functional on the box; list correspondence by `flatMap_cells`; `populate_fill`: the exact model is the instance `exact` |
| C139 | `RoundedMotion`, `Props/RoundedMotion`, `Props/RoundedMoved` | matrices as near-isometries (`Keeps`); errors of points, normals and bases by induction over the moves, amplified by (1+d)^k; Gram error of the composed map; distance from an axis by splitting along and across; `transformAll_exact`: the exact model is the instance `exact` |
| C140 | `RoundedScene`, `Props/RoundedScene` | the exact scene model over objects whose supply and tests are rounded; C01 row by row, C138 for each pair of site and body; list form by comparing filters of corresponding lists |
| C141 | `RoundedAmorphous`, `Props/RoundedAmorphous` | error bounds of quotients (voxel indices) and of the computed distance; loop invariant as in C60; the refutation evaluates binary64 rounding at four numbers |
| C142 | `RoundedMolecule`, `Props/RoundedMolecule` | points of C139 for each atom; inner products of differences under nearly orthogonal maps |
| C143 | `RoundedAlign`, `Props/RoundedAlign`, `Props/RoundedFlip` | entries near the exact rotation about the computed axis; error of the axis relative to the cross product; witnesses computed in binary64 |
| C144 | `RoundedMulti`, `Props/RoundedMulti` | induction over the nesting; supplies and interior answers related site by site as in C140 |
| C145 | `RoundedMultiMotion`, `Props/RoundedMultiMotion` | the induction of C144 for replaced leaves, with the tests of C139 at the leaves |
| C146 | `Seeds`, `Props/Fresh` | requests are counted per call; the state before a call is the start moved on by the requests of the calls before it |
| C147 | `RoundedAdsorbate`, `Props/RoundedAdsorbate`, `Props/RoundedTurn`, `Props/RoundedFlip`, `Props/RoundedExact` | C143 for the first rotation, a bound by the cross product for the second, C142 for the three moves; false for directions along the normal |
| C148 | `RoundedAdsorbate`, `Props/RoundedLanding` | C147 for the positions, C138 for the test of each position |
| C149 | `RoundedAdsorbate`, `Props/RoundedAdsorbed` | the flag of C148 is the test of the scene (C01); molecules are inside-free |
| C122 | `Arrays` (proofs in `Props/Arrays`) | machine with cells against a machine on values; invariant: the cell of a variable that is the user's own, by a syntactic discipline on the program, is held by nothing else |
| C123 | `Amorphous`, `Batched` (proofs in `Props/AmorphousEnds`) | one more atom after finitely many draws, by induction on the distance to the next fitting draw; capacity of a box by pigeonhole on cells of diagonal at most `min_dist` |
| C124 | `SurfaceSet` (proofs in `Props/SurfaceSet`) | assignments step by step, with numbers, infinities, nan, strings and array shapes as values; induction on the history; the interior tests reduced to C48 |
| C125 | `GeneratorSet` (proofs in `Props/GeneratorSet`) | one step at a time: an accepted step changes the settings it names, a refused one nothing; induction on the history; the atoms supplied reduced to C29, C30 |
| C126 | `Seeds` (proofs in `Props/Seeds`) | numpy as a parameter (arbitrary generators); which source each call draws from; case by case, then induction on the program; the refutation runs the bipyramid of C68 with a probe that just fits, under two states of the global generator |
| C127 | `BoundarySet` (proofs in `Props/BoundarySet`) | attributes with sharing of one array; induction on the history, then C71 |

Nothing in the list is inexpressible; for C11, C52, C62, C65, C68, C91, C99 external library results are parameters.

## 4. Findings

Properties which are false of the code, each with a machine-checked witness (`*_refuted`) or a theorem saying that it always fails:

* scenes: an object listed twice erases itself (C09); bounds are not enforced (C10); `to_file(format=...)` other than prismatic writes nothing and
  user Debye-Waller factors raise (C11); volumes show old positions after `transform` until populated again while molecules move at once (C97);
  scenes sharing an object with a random post-transformation change or break each other (C120), and a volume in a scene beside a MultiVolume of the same priority that contains it ends up empty (C128); `calc_rdf(mol.atoms)` moves the molecule, a Rotation keeps the array it was given (C122); the two zone axes of a grain boundary builder may be one array, and accepted axes need not be usable (C127); a rotated scene does not show the rotated atoms when sites lie in the tolerance shell or the crystal is compressed (C96); an AmorphousGenerator fills every box of the same extents with the same atoms (C63); with a large min_dist it never returns, whatever its density (C123); a Sphere takes a centre of shape (3,1), a Plane a point of shape (3,3), a Cylinder nan, and answer wrongly afterwards (C124); a structure with a refused lattice replaces the old structure but not the old lattice (C125); add_adsorbate with a seed still depends on the global generator when `use_sampling=False` (C126); `species_from_object` counts in order of priority, not of adding (C104); exported atoms lie outside the box when
  the bounds do not start at the origin (C108).
* volumes: cylinders along (1,1,1) have a bounding box of NaN (C26); sites with basis coordinates outside the cell are missed (C15); sites in the tolerance shell come and go with
  a rigid motion (C17); volumes with points cannot be transformed (C18); added points are ignored by the interior test (C19); four or more
  planes raise (C20, C92); a failed transform leaves a changed volume (C21); copies lose the tolerance and added points (C23); shared objects are transformed twice (C25); booleans accepted as priority (C27).
* crystals: sites with fractional coordinate 1 are missed (C30); row scales break transforms (C31); a compressed crystal leaves a gap at the surface, which changes when the volume is rotated (C38, C17); rows of the lattice matrix are used as
  columns (C32, C98); coplanar bases accepted (C33); strained sites outside the box before straining are missed (C38); `sym` overrides `sgn` (C99).
* strain: every mode string is accepted (C35); inhomogeneous strain cannot be constructed (C36); an origin assigned to a field of the generator kind is ignored, a field switched to the global kind keeps the origin of the generator asked last (C118); an assigned voxel is shared (C119).
* transforms: mixed lock flags (C42); non-orthogonal matrices do not carry surfaces (C43); reflections of surfaces raise (C44); rotation onto the
  opposite of a negative axis gives NaN (C45); in floats aligning a vector with itself can give NaN, and with an opposite one a wrong rotation (C143), so a molecule along the normal (1,1,1)/√3 cannot be placed, nor one that points exactly into a surface facing x, y or z (C147); extrinsic Euler rotations swap two angles (C46); s2s_alignment raises (C47); `rot_align` raises for every input (C110); one-shot iterators
  of members are dropped (C100); seeds correlate the members of a sequence (C102).
* surfaces and planes: project_points fails for one point (C50); thin hulls (C52); regions on the negative side are missed, prisms are not recognised as unbounded (C114); `snap_plane_near_point` is not nearest, ignores the origin and strain (C53).
* utilities: `get_N_splits` hangs for tight arguments (C56); distances without dims raise (C58); `calc_rdf` miscounts and changes its input (C59), its steps are not 0.1 (C112).
* amorphous: periodic images too close when the box is not a whole number of cells (C61, C62); density and box position ignored (C63).
  In floats a draw of 1 - 2^-53 can leave the voxel grid, IndexError (C141).
* surfaces: alpha shapes miss faces (C65); full neighbour graph joins vertices at the same place of the first four tetrahedra (C66); NaN normals (C67); the margin loop keeps the last normal, not the best (C113).
* prefabs: phases and point of the grain boundary ignored (C71); Wulff constructors never return (C73); a WulffSingle object keeps its first shape whatever is set later (C115); objects made by prefabs have precedence 0 whatever the volume has (C116); reflections are destroyed by assignments to origin or matrix, columns accepted as shift (C117); planes off the lattice when the
  origin is (C87), so that twins have atoms half a spacing apart (C89); centre of spheres ignored (C88); wrong search direction for rotated crystals (C93); a hang, and bodies given by planes refused (C90); negative numbers of defects accepted (C106).
* molecules: tracked origin after removals (C76); `set_origin` changes state before failing (C78); `new_origin_idx` ignored (C86).

## 5. Tests of the theorems

`seeded/mutants.py` lists wrong programs (edits of model definitions), `tools/mutate.py` builds each in a scratch copy and appends the
result to `seeded/LOG.jsonl`.  The verdicts mean:

* `killed`: a theorem of an expected property no longer checks.
* `killed-by-lemma`: something else no longer checks, usually an auxiliary lemma, and modules after it are not built.  **This does not show
  that the property theorem rejects the edit.**  The theorem was not reached, and the lemma may fail because its proof script follows the
  definition.  Despite its name the verdict is inconclusive for the property.
* `invalid`: the edited definition itself does not compile, nothing was tested.
* `SURVIVED`: everything still checks.
* `refuted`: in the edited model the *negation* of the property theorem is proved (or an evaluated witness contradicts it).  This is the only
  conclusive verdict.  `seeded/refutations.py` lists the refutations, `seeded/refutations_txt/` holds their text, `tools/refute.py` checks each
  one in a scratch copy where modules that do not compile are skipped.

A failing proof is also not a proof that the statement is false; `killed` is evidence, not a refutation.

`tools/automutate.py` draws edits at random (operators, constants, projections, branches, exception kinds in every model definition) and logs
those with ids beginning with `A`; `tools/again.py` runs survivors again after theorems were added; `seeded/tightened.py` records which theorems
a survivor led to (`TIGHT`) and which survivors change no observable behaviour (`EQUIVALENT`).

State after 1430 edits (last run of each): 60 `refuted`, 660 `killed`, 637 `killed-by-lemma`, 39 `equivalent`, 4 `invalid`, 30 open.
155 edits survived their first run.
Left open so far: the exception kind of a branch of `add_adsorbate` that the real triangulation cannot reach. It is a gap of the theorems, not an
equivalent program. Edits in the count beyond this one are survivors whose theorem or rerun is still to come.
Earlier log lines keep the verdict given at the time.

## 6. Axioms

Computed by `tools/axioms.py` (Lean's `collectAxioms`) over the 659 theorems of `Verif/Props` named `Cnn_*`:

| axioms | theorems |
|---|---|
| `Classical.choice`, `propext`, `Quot.sound` | 604: all not named below |
| `propext`, `Quot.sound` | 39: C11_user_dwf_raises, C27_molecule_partial, C32_agrees_iff_symmetric, C34_matrix_forms, C36_never_constructible, C58_no_dims_refuted, C59_exceptions, C65_complete_refuted, C75_origin_moves, C75_origin_stays, C78_set_origin_effect, C80_order_irrelevant, C80_structure_keeps_origin, C84_from_molecule, C85_construction, C85_set_origin, C86_ignored, C86_rejects_removed_partial, C100_history_partial, C100_iterator_dropped, C100_iterator_identity, C102_one_substitution_partial, C102_seeded_chain_refuted, C105_origin, C106_refused, C108_bounds, C108_export_refused, C109_sequence, C122_arrays_as_values_partial, C122_calc_rdf_writes, C122_handed_out, C122_until_renewed, C132_raises, C132_refused, C132_removed_refuted, C132_unpopulated, C134_from_molecule, C134_tracking_partial, C134_transform |
| `propext` | 11: C11_other_formats_write_nothing, C11_to_file_partial, C11_to_file_refuted, C37_sequences_keep_atoms, C57_shape, C66_full_raises, C104_index_refuted, C109_bases, C109_inversion, C109_matrix, C132_object |
| none | 5: C37_constructor, C101_composition, C101_functions, C101_nesting, C109_translation |

Everything over the reals uses `Classical.choice` already through the construction of the reals.
