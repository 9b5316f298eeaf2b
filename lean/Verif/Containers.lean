import Verif.Transform
import Verif.Generator

/-!
# Adding members to MultiTransform, MultiVolume and PostSequence

`MultiTransform.add_transform`, `MultiVolume.add_volume` and `PostSequence.add_transform` have the same body up to the class
in the assertion.  It is modelled once, for any type `M` of members.
-/

namespace CZ

/-- A Python object passed as or inside the argument: an instance of the class required, or something else. -/
inductive Elem (M : Type)
  | member (m : M)
  | other

/-- The argument: an object without `__iter__`; a container which can be iterated again and again (list, tuple, array);
or an iterator, for instance a generator expression, which is empty once it has been run through. -/
inductive AddArg (M : Type)
  | single (e : Elem M)
  | container (es : List (Elem M))
  | iterator (es : List (Elem M))

/-- `isinstance`. -/
def Elem.isMember {M : Type} : Elem M → Bool
  | .member _ => true
  | .other => false

/-- The object itself when it is an instance. -/
def Elem.get? {M : Type} : Elem M → Option M
  | .member m => some m
  | .other => none

/-- transform.py:398-409, volume.py:417-431, post.py:78-92.  The assertions are made in a first pass over the argument, `extend`
makes a second pass, in which an iterator has nothing left.  First component: the members after the call. -/
def addMembers {M : Type} (ms : List M) : AddArg M → List M × Py Unit
  | .single e => match e with
    | .member m => (ms ++ [m], .ok ())
    | .other => (ms, .error .assertion)
  | .container es =>
    if es.all Elem.isMember then (ms ++ es.filterMap Elem.get?, .ok ()) else (ms, .error .assertion)
  | .iterator es =>
    if es.all Elem.isMember then (ms ++ [], .ok ()) else (ms, .error .assertion)

/-- Constructors of the three classes (transform.py:362-366, volume.py:403-407, post.py:73-76): no argument or one call of
the function above. -/
def membersOf {M : Type} : Option (AddArg M) → Py (List M)
  | none => .ok []
  | some a => match addMembers [] a with
    | (ms, .ok ()) => .ok ms
    | (_, .error e) => .error e

/-- Successive calls, exceptions caught by the caller. -/
def addAll {M : Type} (ms : List M) (args : List (AddArg M)) : List M :=
  args.foldl (fun ms a => (addMembers ms a).1) ms

/-- `PostSequence(...).apply_function(points, species, seed=s)` (post.py:94-99 with the keyword passed on at 97, and
post.py:44-47): `np.random.default_rng(seed=s)` starts the same stream in every member; functions ignore the keyword
(post.py:65-66). -/
def Post.runSeeded {K : Type} [LE K] [DecidableLE K] (draws : ℕ → ℕ → K) (t : Post K) (ps : List (V3 K)) (zs : List ℤ) :
    List (V3 K) × List ℤ := (t.run (fun _ => draws) 0 ps zs).2

end CZ
