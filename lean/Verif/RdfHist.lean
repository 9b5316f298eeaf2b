import Verif.Measure
import Mathlib.Analysis.Real.Sqrt
import Mathlib.Algebra.Order.Archimedean.Basic

/-!
# The histogram of calc_rdf

Model of the binning in `czone/util/measure.py` on top of the squared distances of `Rdf.calcRdf`.
-/

namespace CZ
namespace Rdf

noncomputable section
open Classical

/-- measure.py:232, `int(cutoff / 0.1)` for a positive cutoff (exact division). -/
def numBins (c : ℝ) : ℕ := ⌊c / (1 / 10)⌋.toNat

/-- numpy `histogram(dist, bins=n, range=(0, c))`: the bin of one value.  The bins are equally wide and closed to the left, the last one on
both sides; values outside the range are dropped. -/
def binOf (c : ℝ) (n : ℕ) (d : ℝ) : Option ℕ :=
  if 0 ≤ d ∧ d < c then some ⌊d * n / c⌋.toNat else if d = c then some (n - 1) else none

/-- measure.py:245-252: square roots, histogram (the sum over the voxels of the histograms of the parts is the histogram of all), and
`counts[0] = 0`. -/
def histogram (c : ℝ) (n : ℕ) (ss : List ℝ) : List ℕ :=
  (List.range n).map fun i => if i = 0 then 0 else ss.countP fun s => decide (binOf c n (Real.sqrt s) = some i)

/-- measure.py:196-254, the array returned by `calc_rdf(coords, cutoff, px, py, pz)` for a positive cutoff.  Below 0.1 there are no
bins and the call raises: ValueError in `np.histogram`, IndexError in `counts[0]` when there are no voxels (the model says
ValueError in both cases). -/
def calcRdfCounts (c : ℝ) (px py pz : Bool) (ps : List (V3 ℝ)) : Py (List ℕ) :=
  match (calcRdf c px py pz ps).2 with
  | .error e => .error e
  | .ok ss => if numBins c = 0 then .error .value else .ok (histogram c (numBins c) ss)

end

end Rdf
end CZ
