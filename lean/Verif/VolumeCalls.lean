import Verif.Volume

/-!
# Calls on a Volume (czone/volume/volume.py)
-/

namespace CZ
noncomputable section

/-- Everything a user can do to a Volume.  `addAlg none` and `addGenerator none` stand for objects of other classes. -/
inductive VolOp
  | addAlg (a : Option Alg)
  | addPoints (a : PtArg)
  | addGenerator (g : Option GenObj) (origin : Option (V3 ℝ))
  | setPriority (x : PyVal)
  | setTolerance (x : PyVal)
  | populate
  | transform (t : Tr ℝ)

namespace Vol

/-- One call; the volume afterwards and whether it raised: add_alg_object volume.py:189-198, addPoints 249-274, add_generator
225-235, priority 63-68, tolerance 219-222 (only floats pass the assertion), populate_atoms 347-353, transform 276-291.  `n` numbers
the calls of `supply_atoms`. -/
def step (env : Env) (n : ℕ) (v : Vol) : VolOp → Vol × Py Unit
  | .addAlg none => (v, .error .assertion)
  | .addAlg (some a) => (v.addAlg a, .ok ())
  | .addPoints a => v.addPoints env a
  | .addGenerator g o => v.addGenerator g o
  | .setPriority x => let r := volPrioritySet v.priority x; ({ v with priority := r.1 }, r.2)
  | .setTolerance (.float x) => ({ v with tol := x }, .ok ())
  | .setTolerance _ => (v, .error .assertion)
  | .populate => v.populate env n
  | .transform t => v.transform env t

/-- A history of calls, exceptions caught by the caller. -/
def runFrom (env : Env) (n : ℕ) (v : Vol) : List VolOp → Vol
  | [] => v
  | o :: os => runFrom env (n + 1) (v.step env n o).1 os

end Vol
end
end CZ
