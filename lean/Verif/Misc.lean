import Verif.Algebraic
import Mathlib.Algebra.Order.Floor.Ring
import Mathlib.Analysis.SpecialFunctions.Trigonometric.Inverse

/-!
# Utilities

Model of `czone/util/misc.py:7-67`.
-/

namespace CZ

/-- misc.py:7-16, `round_away` of one number: `np.sign(x) * np.ceil(np.abs(x))`. -/
def roundAway {K : Type} [Field K] [LinearOrder K] [FloorRing K] (x : K) : K :=
  (if 0 < x then 1 else if x < 0 then -1 else 0) * ((⌈|x|⌉ : ℤ) : K)

/-- misc.py:57-67, `vangle` of two vectors in space.  A zero norm gives NaN. -/
noncomputable def vangle (v w : V3 ℝ) : Py ℝ :=
  if norm3 v * norm3 w = 0 then .error .nan else .ok (Real.arccos (v.dot w / (norm3 v * norm3 w)))

namespace Splits

/-- `rng.integers(lo, hi)` with the raw random number `r`: ValueError for an empty range. -/
def integers (r : ℕ) (lo hi : ℤ) : Py ℤ := if hi ≤ lo then .error .value else .ok (lo + (r : ℤ) % (hi - lo))

/-- `rng.choice(xs)` with the raw random number `r`; `xs` is not empty where it is called. -/
def choice (r : ℕ) (xs : List ℤ) : ℤ := xs.getD (r % xs.length) 0

/-- misc.py:40, `range(m, l - m)`. -/
def data (m l : ℤ) : List ℤ := (List.range (l - m - m).toNat).map fun (k : ℕ) => m + (k : ℤ)

/-- `np.abs(data - s) < m` (misc.py:41, 47, 51). -/
def near (m s : ℤ) (d : List ℤ) : List Bool := d.map fun x => decide (|x - s| < m)

/-- Loop state: `splits` and `idx.mask`. -/
structure State where
  splits : List ℤ
  mask : List Bool

/-- `idx.compressed()`: the entries that are not masked. -/
def free (m l : ℤ) (st : State) : List ℤ := maskSel (npNot st.mask) (data m l)

/-- misc.py:43-51, one pass: the body of the inner loop if everything is masked, else the rest of the body of the outer
loop.  (After reseeding `len(splits) = 1 < n` still holds, so testing the outer condition again changes nothing.)
`r` is the random number used in this pass. -/
def pass (m l : ℤ) (r : ℕ) (st : State) : Py State :=
  if st.mask.all id then do
    let s ← integers r m (l - m)
    return ⟨[s], near m s (data m l)⟩
  else
    let s := choice r (free m l st)
    .ok ⟨st.splits ++ [s], npOr st.mask (near m s (data m l))⟩

/-- misc.py:43-54, the loop with a bound on the number of passes; `none`: not finished yet. -/
def loop (n m l : ℤ) (rng : ℕ → ℕ) : ℕ → ℕ → State → Option (Py (List ℤ))
  | fuel, k, st =>
    if (st.splits.length : ℤ) < n then
      match fuel with
      | 0 => none
      | fuel + 1 => match pass m l (rng k) st with
        | .error e => some (.error e)
        | .ok st' => loop n m l rng fuel (k + 1) st'
    else some (.ok (stableSort id st.splits))

/-- misc.py:31-41, what happens before the loop: a result, or the first state. -/
def start (n m l : ℤ) (r : ℕ) : Py (List ℤ ⊕ State) :=
  if n = 0 then .ok (.inl [])
  else if l - 2 * m < (n - 1) * m then .error .value
  else do
    let s ← integers r m (l - m)
    return .inr ⟨[s], near m s (data m l)⟩

/-- misc.py:19-54, `get_N_splits(n, m, l)` run for at most `fuel` passes of the loop; `rng k` is the k-th random number. -/
def getNSplits (n m l : ℤ) (rng : ℕ → ℕ) (fuel : ℕ) : Option (Py (List ℤ)) :=
  match start n m l (rng 0) with
  | .error e => some (.error e)
  | .ok (.inl xs) => some (.ok xs)
  | .ok (.inr st) => loop n m l rng fuel 1 st

/-- States the loop can be in. -/
inductive Reachable (n m l : ℤ) : State → Prop
  | start (r : ℕ) (st : State) (h : start n m l r = .ok (.inr st)) : Reachable n m l st
  | pass (r : ℕ) (st st' : State) (h : Reachable n m l st) (hc : (st.splits.length : ℤ) < n)
      (hp : pass m l r st = .ok st') : Reachable n m l st'

end Splits

end CZ
