import Verif.Measure

/-!
# Arrays as objects

numpy arrays are objects: an assignment `ob.attribute = x` can store `x` itself or a copy, and a property can hand out the array the
object works with.  The other modules treat arrays as values.  Here the arrays live in cells and both attributes and variables of the
user hold names of cells.  All arrays are written as lists of triples (a vector is a list with one triple, a matrix has three).
Shapes, element types and the checks of the setters are in the modules of the classes; views (`reshape`, rows) that are kept are not
expressed (`mol.origin` of a molecule that tracks an atom, molecule.py:124-126, is such a view).
-/

namespace CZ

/-- The attributes of the library that hold an array. -/
inductive Attr
  | center | planePoint | normal | axis | cylinderPoint | bases | voxelOrigin | shift | transformOrigin | matrix | rotation
  | positions | moleculeOrigin | orientation | strainOrigin | strainMatrix | bounds | points | atoms | amorphousOrigin | oldResult
deriving DecidableEq

/-- Whether the assignment stores the very array it is given.
`center` algebraic.py:120-125, `planePoint` 161-164, `normal` 171-177, `axis` 261-267, `cylinderPoint` 274-276, `bases` voxel.py:54-73,
`voxelOrigin` 80-83, `shift` transform.py:124-129, `transformOrigin` 196-201, `positions` molecule.py:72-88, `moleculeOrigin` 192-197,
`strainOrigin` strain.py:57-60, `strainMatrix` 128-142, `bounds` scene.py:50-54, `amorphousOrigin` generator.py:371-375: all of them make
a new array with `np.array` (or by a division).  `points`: `np.copy` and `np.append`, volume.py:260-268.
`matrix` transform.py:185-189, `rotation` 282-291, `orientation` molecule.py:207-220: the array itself.
`atoms` (volume.py:352, 500) and `oldResult` (generator.py:421) have no setter, they are only filled by methods. -/
def Attr.keeps : Attr → Bool
  | .matrix => true
  | .rotation => true
  | .orientation => true
  | _ => false

namespace Arrays
variable {K : Type} [Field K] [LinearOrder K] [FloorRing K]

/-- Contents of the cells, the next free cell, the cells held by attribute `t` of object `o` (none: `None`) and by the variables of the
user (none: unbound, or bound to `None`). -/
structure Mem (K : Type) where
  cell : ℕ → List (V3 K)
  next : ℕ
  slot : ℕ → Attr → Option ℕ
  var : ℕ → Option ℕ

/-- Contents of an attribute. -/
def Mem.val (m : Mem K) (o : ℕ) (t : Attr) : Option (List (V3 K)) := (m.slot o t).map m.cell

/-- Contents of a variable. -/
def Mem.arr (m : Mem K) (x : ℕ) : Option (List (V3 K)) := (m.var x).map m.cell

/-- Statements of a program that uses the library.
`gather x f`: `x` is the result of an expression that makes a new array out of what there is: `np.array(...)`, `scene.all_atoms`
(scene.py:84-87, `np.vstack` of selections), `voxel.sbases` (voxel.py:88), `supply_atoms` of a crystal generator (generator.py:200-236).
`get x o t`: `x = ob.attribute` (volume.py:46, 174, molecule.py:65, voxel.py:52, 78, transform.py:122, 183, 194, algebraic.py:118, 158, 169,
generator.py:409 and so on), the array itself; also `x = volume.get_bounding_box()` for a volume with points (volume.py:314-315) and
`x, _ = generator.supply_atoms(bbox)` of an amorphous generator (generator.py:417, 422).
`bind x y`: `x = y`.
`assign o t x g`: `ob.attribute = x`, where `g` is the conversion of the setter.
`renew o t f`: a method that gives the attribute a new array, computed from what there is: `transform` (molecule.py:175, generator.py:246-252,
transform.py:144, 147, 222-245), `populate_atoms` (volume.py:352, 500), `remove_atoms` (molecule.py:116), `scrape_params` (strain.py:47-50), and,
attribute by attribute, copies made with `deepcopy`.
`write x g`: the user changes the array in place.
`rdf x c px py pz`: `calc_rdf(x, c, px, py, pz)`, the function of the library that changes its argument (measure.py:211). -/
inductive Act (K : Type)
  | gather (x : ℕ) (f : (ℕ → Attr → Option (List (V3 K))) → (ℕ → Option (List (V3 K))) → List (V3 K))
  | get (x o : ℕ) (t : Attr)
  | bind (x y : ℕ)
  | assign (o : ℕ) (t : Attr) (x : ℕ) (g : List (V3 K) → List (V3 K))
  | renew (o : ℕ) (t : Attr) (f : (ℕ → Attr → Option (List (V3 K))) → Option (List (V3 K)))
  | write (x : ℕ) (g : List (V3 K) → List (V3 K))
  | rdf (x : ℕ) (c : K) (px py pz : Bool)

/-- `x` names a new array with contents `a`. -/
def Mem.fresh (m : Mem K) (x : ℕ) (a : List (V3 K)) : Mem K :=
  { m with cell := Function.update m.cell m.next a, next := m.next + 1, var := Function.update m.var x (some m.next) }

/-- Attribute `t` of `o` holds cell `r`. -/
def Mem.point (m : Mem K) (o : ℕ) (t : Attr) (r : Option ℕ) : Mem K :=
  { m with slot := Function.update m.slot o (Function.update (m.slot o) t r) }

/-- Attribute `t` of `o` holds a new array with contents `a`. -/
def Mem.place (m : Mem K) (o : ℕ) (t : Attr) (a : List (V3 K)) : Mem K :=
  { m.point o t (some m.next) with cell := Function.update m.cell m.next a, next := m.next + 1 }

/-- One statement.  A statement that uses an unbound variable raises and changes nothing. -/
def step (m : Mem K) : Act K → Mem K
  | .gather x f => m.fresh x (f m.val m.arr)
  | .get x o t => { m with var := Function.update m.var x (m.slot o t) }
  | .bind x y => { m with var := Function.update m.var x (m.var y) }
  | .assign o t x g =>
    match m.var x with
    | none => m
    | some r => if t.keeps then m.point o t (some r) else m.place o t (g (m.cell r))
  | .renew o t f =>
    match f m.val with
    | none => m.point o t none
    | some a => m.place o t a
  | .write x g =>
    match m.var x with
    | none => m
    | some r => { m with cell := Function.update m.cell r (g (m.cell r)) }
  | .rdf x c px py pz =>
    match m.var x with
    | none => m
    | some r => { m with cell := Function.update m.cell r (Rdf.calcRdf c px py pz (m.cell r)).1 }

/-- A program. -/
def run (m : Mem K) (as : List (Act K)) : Mem K := as.foldl step m

/-- Before the first statement. -/
def Mem.empty : Mem K := ⟨fun _ => [], 0, fun _ _ => none, fun _ => none⟩

end Arrays
end CZ
