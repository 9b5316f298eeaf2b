import Verif.Heap

/-!
# Specification vocabulary: independent objects

What a user sees of an object is its value, read through all references.  A script is a sequence of calls; it acts on the
store, or on a plain value that shares nothing with anything.
-/

namespace CZ
namespace Spec

noncomputable section
open Classical

/-- A variable of the user's program: an algebraic surface, a generator, or a volume. -/
inductive Handle
  | alg (r : Ref)
  | gen (r : Ref)
  | vol (r : Ref)

/-- What the user sees. -/
inductive Value
  | alg (a : Alg)
  | gen (g : GenObj)
  | vol (v : Vol)
  | multi

/-- The value of an object. -/
def value (h : Heap) : Handle → Value
  | .alg r => .alg (h.alg r)
  | .gen r => .gen (h.genVal r)
  | .vol r => match h.vol r with
    | .vol c => .vol (h.fieldsVal c)
    | .multi _ _ _ => .multi

/-- The addresses reached from a generator. -/
def genParts (h : Heap) (r : Ref) : List Ref :=
  match h.gen r with
  | .crystal c => r :: (c.voxel.toList ++ c.strain.toList)
  | _ => [r]

/-- The addresses reached from an object. -/
def parts (h : Heap) : Handle → List Ref
  | .alg r => [r]
  | .gen r => genParts h r
  | .vol r => match h.vol r with
    | .vol c => r :: (c.algs ++ (c.gen.map (genParts h)).getD [])
    | .multi _ _ _ => [r]

/-- An object built by the constructors: its parts are in use and distinct from each other. -/
def Proper (h : Heap) (x : Handle) : Prop := (parts h x).Nodup ∧ ∀ r ∈ parts h x, r < h.next

/-- No address is reached from both objects. -/
def NoCommon (h : Heap) (x y : Handle) : Prop := ∀ r ∈ parts h x, r ∉ parts h y

/-- One call on an object: transform it, ask a generator for atoms, populate a volume, add a new surface or generator to it,
transform one of its surfaces (`v.alg_objects[i]`) or its generator (`v.generator`) directly. -/
inductive Act
  | transform (t : Tr ℝ)
  | supply (n : ℕ) (b : BBox)
  | populate (n : ℕ)
  | addAlg (a : Alg)
  | addGenerator (g : GenObj) (o : Option (V3 ℝ))
  | surface (i : ℕ) (t : Tr ℝ)
  | generator (t : Tr ℝ)

/-- The call on an object in the store.  Methods the class does not have raise AttributeError. -/
def Act.onHeap (env : Env) (h : Heap) : Handle → Act → Heap × Py Unit
  | .alg r, .transform t => h.transformAlg r t
  | .gen r, .transform t => h.transformGen r t
  | .gen r, .supply n b => let s := h.supplyGen env n r b; (s.1, s.2.map fun _ => ())
  | .vol r, a =>
    match h.vol r with
    | .multi _ _ _ => (h, .error .attribute)
    | .vol c =>
      match a with
      | .transform t => h.transformVol env r c t
      | .populate n => h.populateVol env n r c
      | .addAlg a => let k := h.newAlg a; (k.1.addAlg r c k.2, .ok ())
      | .addGenerator g o => let k := h.newGen g; k.1.addGenerator r c (some k.2) o
      | .surface i t => match c.algs[i]? with
        | none => (h, .error .index)
        | some a => h.transformAlg a t
      | .generator t => match c.gen with
        | none => (h, .error .attribute)
        | some g => h.transformGen g t
      | .supply _ _ => (h, .error .attribute)
  | _, _ => (h, .error .attribute)

/-- The same call on a plain value. -/
def Act.onValue (env : Env) : Value → Act → Value × Py Unit
  | .alg a, .transform t => let s := t.alg a; (.alg s.1, s.2)
  | .gen g, .transform t => let s := g.transform t; (.gen s.1, s.2)
  | .gen g, .supply n b => let s := g.supply env n b; (.gen s.1, s.2.map fun _ => ())
  | .vol v, .transform t => let s := v.transform env t; (.vol s.1, s.2)
  | .vol v, .populate n => let s := v.populate env n; (.vol s.1, s.2)
  | .vol v, .addAlg a => (.vol (v.addAlg a), .ok ())
  | .vol v, .addGenerator g o => let s := v.addGenerator (some g) o; (.vol s.1, s.2)
  | .vol v, .surface i t => match v.algs[i]? with
    | none => (.vol v, .error .index)
    | some a => let s := t.alg a; (.vol { v with algs := v.algs.set i s.1 }, s.2)
  | .vol v, .generator t => match v.gen with
    | none => (.vol v, .error .attribute)
    | some g => let s := g.transform t; (.vol { v with gen := some s.1 }, s.2)
  | v, _ => (v, .error .attribute)

/-- A script on one object; exceptions are caught by the caller and the script goes on. -/
def script (env : Env) : Value → List Act → Value
  | v, [] => v
  | v, a :: as => script env (a.onValue env v).1 as

/-- A program that calls methods of two objects in any order; the flag selects the first object. -/
def interleave (env : Env) (x y : Handle) : Heap → List (Bool × Act) → Heap
  | h, [] => h
  | h, (b, a) :: as => interleave env x y (a.onHeap env h (if b then x else y)).1 as

/-- The nesting below an object ends within the given depth. -/
def EndsWithin (h : Heap) : ℕ → Ref → Prop
  | 0, _ => False
  | n + 1, r => match h.vol r with
    | .vol _ => True
    | .multi vs _ _ => ∀ v ∈ vs, EndsWithin h n v

/-- The Volumes owned directly or indirectly, one entry for every way they are owned. -/
def owned (h : Heap) : ℕ → Ref → List Ref
  | 0, _ => []
  | n + 1, r => match h.vol r with
    | .vol _ => [r]
    | .multi vs _ _ => vs.flatMap (owned h n)

/-- Volumes that were built separately: each is proper and different ones have no common parts. -/
def Separate (h : Heap) (vs : List Ref) : Prop :=
  (∀ v ∈ vs, Proper h (.vol v)) ∧ ∀ v ∈ vs, ∀ w ∈ vs, v ≠ w → NoCommon h (.vol v) (.vol w)

/-- The calls on one of the two objects. -/
def callsOf (b : Bool) (as : List (Bool × Act)) : List Act := (as.filter fun p => p.1 = b).map Prod.snd

end
end Spec
end CZ
