import Verif.Py
import Mathlib.Algebra.Order.Floor.Ring
import Mathlib.Algebra.Order.Field.Basic

/-!
# Settings of prefabs and amorphous generators

Model of the setters of `czone/prefab/prefab.py` (fccMixedTwinSF, fccStackingFault, fccTwin, wurtziteStackingFault) and of
AmorphousGenerator in `czone/generator/generator.py`, on Python values of every kind.  `assert` statements are active (Python
without `-O`).
-/

namespace CZ

/-- Python values as far as the setters distinguish them.  `str` carries the integer it spells, if any; `array` is a
numpy array with its entries, flattened; `G` and `V` are the types of crystalline generators and of volumes. -/
inductive SetVal (K G V : Type)
  | int (n : ℤ)
  | npInt (n : ℤ)
  | bool (b : Bool)
  | float (x : K)
  | nan
  | str (spells : Option ℤ)
  | none
  | array (xs : List K)
  | generator (g : G)
  | amorphous
  | volume (v : V)
  | other

namespace SetVal
section
variable {K G V : Type} [Field K] [LinearOrder K] [FloorRing K]

/-- `int(val)`: floats are cut off towards zero, also as the only entry of an array. -/
def toInt : SetVal K G V → Py ℤ
  | .int n => .ok n
  | .npInt n => .ok n
  | .bool b => .ok (if b then 1 else 0)
  | .float x => .ok (if 0 ≤ x then ⌊x⌋ else ⌈x⌉)
  | .nan => .error .value
  | .str (some n) => .ok n
  | .str Option.none => .error .value
  | .array [x] => .ok (if 0 ≤ x then ⌊x⌋ else ⌈x⌉)
  | _ => .error .type

/-- Comparison of a number with constants; comparisons with NaN are false, comparisons of other objects raise.  (Arrays:
numpy compares entry by entry; `assert` of the result raises ValueError if the array has several entries; an empty array counts
as false, with a deprecation warning.) -/
def compare (p : K → Bool) : SetVal K G V → Py Bool
  | .int n => .ok (p n)
  | .npInt n => .ok (p n)
  | .bool b => .ok (p (if b then 1 else 0))
  | .float x => .ok (p x)
  | .nan => .ok false
  | .array [x] => .ok (p x)
  | .array [] => .ok false
  | .array _ => .error .value
  | _ => .error .type

/-- `isinstance(val, int)`: bool is a subclass of int, numpy integers are not. -/
def isInt : SetVal K G V → Bool
  | .int _ => true
  | .bool _ => true
  | _ => false

/-- `isinstance(val, Generator)`. -/
def isGenerator : SetVal K G V → Bool
  | .generator _ => true
  | _ => false

/-- `isinstance(val, BaseVolume)`. -/
def isVolume : SetVal K G V → Bool
  | .volume _ => true
  | _ => false

/-- `np.array(val).size`: every object which is not array-like is one entry. -/
def size : SetVal K G V → ℕ
  | .array xs => xs.length
  | _ => 1

end
end SetVal

/-- `assert c` and then the assignment. -/
def assertThen {α : Type} (a : α) (c : Py Bool) (new : α) : α × Py Unit :=
  match c with
  | .error e => (a, .error e)
  | .ok false => (a, .error .assertion)
  | .ok true => (new, .ok ())

/-- The four classes of prefab.py with settings. -/
inductive PrefabKind
  | mixed | stackingFault | twin | wurtzite
  deriving DecidableEq

/-- Private attributes of a defect prefab (prefab.py:65-70, 325-328); `none` stands for Python's None at the start. -/
structure PrefabSet (K G V : Type) where
  kind : PrefabKind
  N : Option ℤ
  minSep : SetVal K G V
  plane : SetVal K G V
  ratio : SetVal K G V
  generator : SetVal K G V
  volume : SetVal K G V

namespace PrefabSet
section
variable {K G V : Type} [Field K] [LinearOrder K] [FloorRing K]

/-- Assignments a user can make. -/
inductive Assign (K G V : Type)
  | N (x : SetVal K G V)
  | minSep (x : SetVal K G V)
  | plane (x : SetVal K G V)
  | ratio (x : SetVal K G V)
  | generator (x : SetVal K G V)
  | volume (x : SetVal K G V)

/-- The setters: N prefab.py:88-90, 344-346; min_sep 97-102, 353-358; plane 109-111 (none for wurtzite, 360-363: assigning to a
property without setter raises AttributeError); ratio 118-122, ignored at 254-256 and 291-293, an ordinary attribute without
meaning for wurtzite (kept apart from the modelled ones, so nothing changes here); generator 129-133, 370-374; volume 140-145,
381-386. -/
def assign (s : PrefabSet K G V) : Assign K G V → PrefabSet K G V × Py Unit
  | .N x => match x.toInt with
    | .error e => (s, .error e)
    | .ok n => ({ s with N := some n }, .ok ())
  | .minSep x => assertThen s (.ok x.isInt) { s with minSep := x }
  | .plane x => match s.kind with
    | .wurtzite => (s, .error .attribute)
    | _ => ({ s with plane := x }, .ok ())
  | .ratio x => match s.kind with
    | .mixed => assertThen s (x.compare fun r => decide (0 ≤ r) && decide (r ≤ 1)) { s with ratio := x }
    | _ => (s, .ok ())
  | .generator x => assertThen s (.ok x.isGenerator) { s with generator := x }
  | .volume x => assertThen s (.ok x.isVolume) { s with volume := x }

/-- The `ratio` property: prefab.py:113-116, 250-252, 287-289. -/
def getRatio (s : PrefabSet K G V) : SetVal K G V :=
  match s.kind with
  | .stackingFault => .float 1
  | .twin => .float 0
  | _ => s.ratio

/-- A sequence of assignments that stops at the first exception, as in a constructor. -/
def assignAll (s : PrefabSet K G V) : List (Assign K G V) → Py (PrefabSet K G V)
  | [] => .ok s
  | a :: as => match s.assign a with
    | (_, .error e) => .error e
    | (s', .ok ()) => assignAll s' as

/-- `if not x is None: self.attr = x`. -/
def unlessNone (f : SetVal K G V → Assign K G V) : SetVal K G V → List (Assign K G V)
  | .none => []
  | x => [f x]

/-- Constructors: prefab.py:58-81 (mixed), 238-248 and 275-285 (the default ratio 0.5 is passed to the ignoring setter), 320-337
(wurtzite: no ratio, no plane). -/
def make (kind : PrefabKind) (generator volume ratio N minSep plane : SetVal K G V) : Py (PrefabSet K G V) :=
  let s0 : PrefabSet K G V := ⟨kind, Option.none, .none, .none, .none, .none, .none⟩
  let rest := unlessNone .generator generator ++ unlessNone .volume volume
  match kind with
  | .mixed => s0.assignAll ([.N N, .plane plane, .ratio ratio, .minSep minSep] ++ rest)
  | .wurtzite => s0.assignAll ([.N N, .minSep minSep] ++ rest)
  | _ => s0.assignAll ([.N N, .plane plane, .ratio (.float (1 / 2)), .minSep minSep] ++ rest)

/-- A history of assignments, exceptions caught by the caller. -/
def run (s : PrefabSet K G V) (as : List (Assign K G V)) : PrefabSet K G V := as.foldl (fun s a => (s.assign a).1) s

end
end PrefabSet

/-- Attributes of an AmorphousGenerator (generator.py:347-361). -/
structure AmorphousSet (K G V : Type) where
  origin : SetVal K G V
  species : SetVal K G V
  density : SetVal K G V
  minDist : SetVal K G V

namespace AmorphousSet
section
variable {K G V : Type} [Field K] [LinearOrder K] [FloorRing K]

/-- Assignments a user can make. -/
inductive Assign (K G V : Type)
  | origin (x : SetVal K G V)
  | species (x : SetVal K G V)
  | density (x : SetVal K G V)
  | minDist (x : SetVal K G V)

/-- The setters, generator.py:371-375, 382-384, 391-394, 401-404. -/
def assign (s : AmorphousSet K G V) : Assign K G V → AmorphousSet K G V × Py Unit
  | .origin x => assertThen s (.ok (decide (x.size = 3))) { s with origin := x }
  | .species x => ({ s with species := x }, .ok ())
  | .density x => assertThen s (x.compare fun r => decide (0 < r)) { s with density := x }
  | .minDist x => assertThen s (x.compare fun r => decide (0 < r)) { s with minDist := x }

/-- A sequence of assignments that stops at the first exception. -/
def assignAll (s : AmorphousSet K G V) : List (Assign K G V) → Py (AmorphousSet K G V)
  | [] => .ok s
  | a :: as => match s.assign a with
    | (_, .error e) => .error e
    | (s', .ok ()) => assignAll s' as

/-- `AmorphousGenerator(origin, min_dist, density, species)`, generator.py:347-361. -/
def make (origin minDist density species : SetVal K G V) : Py (AmorphousSet K G V) :=
  let s0 : AmorphousSet K G V := ⟨.none, .none, .none, .none⟩
  let first : List (Assign K G V) := match origin with
    | .none => []
    | x => [.origin x]
  s0.assignAll (first ++ [.species species, .minDist minDist, .density density])

/-- A history of assignments, exceptions caught by the caller. -/
def run (s : AmorphousSet K G V) (as : List (Assign K G V)) : AmorphousSet K G V := as.foldl (fun s a => (s.assign a).1) s

end
end AmorphousSet

end CZ
