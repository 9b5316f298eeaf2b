import Verif.Misc
import Verif.Amorphous
import Verif.Batched
import Verif.Adsorbate
import Verif.Generator

/-!
# Sources of random numbers

Which random numbers the functions of czone use: a generator made from a seed (`np.random.default_rng(seed=s)`), a generator made from
the entropy of the operating system (`default_rng(seed=None)`), or the global generator of numpy (`np.random.rand`, `np.random.randint`).
The functions themselves are those of `Misc`, `Amorphous`, `Batched`, `Surface`, `Adsorbate` and `Generator`.
-/

namespace CZ
namespace Seeds

/-- numpy's random numbers.  `G` are the states of a `np.random.Generator`, `M` those of the global generator. -/
structure Np where
  G : Type
  M : Type
  /-- `np.random.default_rng(seed=s)` -/
  seeded : ℕ → G
  /-- the number behind `rng.integers(lo, hi)` or `rng.choice(a)` -/
  raw : G → ℕ × G
  /-- `rng.uniform(size=(n, 3))` -/
  uniform : G → ℕ → List (V3 ℝ) × G
  /-- `rng.standard_normal(size=(n, 3))` -/
  normal : G → ℕ → List (V3 ℝ) × G
  /-- `rng.uniform(0, 1, size=(n,))` -/
  probs : G → ℕ → (ℕ → ℝ) × G
  /-- `np.random.seed(s)` -/
  mseed : ℕ → M
  /-- `np.random.randint(0, 10000)` -/
  randint : M → ℕ × M
  /-- `np.random.rand(n, 3)` -/
  rand : M → ℕ → List (V3 ℝ) × M

/-- Everything random in the process: the state of the global generator, and what the operating system will give to the generators made
without a seed. -/
structure St (np : Np) where
  glob : np.M
  os : ℕ → np.G

namespace Np
variable (np : Np)

/-- The k-th of the numbers `raw`. -/
def rawAt : np.G → ℕ → ℕ
  | g, 0 => (np.raw g).1
  | g, k + 1 => rawAt (np.raw g).2 k

/-- The k-th coordinate of `rng.uniform(size=(1, 3))` (amorphous_algorithms.py:133, 145). -/
def pointAt : np.G → ℕ → V3 ℝ
  | g, 0 => (np.uniform g 1).1.headD 0
  | g, k + 1 => pointAt (np.uniform g 1).2 k

/-- The k-th batch of `n` coordinates (amorphous_algorithms.py:201). -/
def batchAt (n : ℕ) : np.G → ℕ → List (V3 ℝ)
  | g, 0 => (np.uniform g n).1
  | g, k + 1 => batchAt n (np.uniform g n).2 k

/-- The k-th array of noise for `n` points (alpha_shape.py:140). -/
def noiseAt (n : ℕ) : np.G → ℕ → List (V3 ℝ)
  | g, 0 => (np.normal g n).1
  | g, k + 1 => noiseAt n (np.normal g n).2 k

/-- The generator after `k` arrays of noise. -/
def afterNoise (n : ℕ) : np.G → ℕ → np.G
  | g, 0 => g
  | g, k + 1 => afterNoise n (np.normal g n).2 k

/-- The k-th array of probabilities for `n` atoms (post.py:51). -/
def probsAt (n : ℕ) : np.G → ℕ → ℕ → ℝ
  | g, 0 => (np.probs g n).1
  | g, k + 1 => probsAt n (np.probs g n).2 k

/-- `np.random.default_rng(seed=seed)`; without a seed the generator that the operating system makes up. -/
def defaultRng (seed : Option ℕ) (st : St np) : np.G × St np :=
  match seed with
  | some s => (np.seeded s, st)
  | none => (st.os 0, { st with os := fun k => st.os (k + 1) })

end Np

noncomputable section
open Classical

/-- Arguments of `add_adsorbate` (adsorbate.py:147-157) other than seed and `use_sampling`. -/
structure AdsArgs where
  mol : Mol ℝ
  idx : MolVal ℝ
  bond : ℝ
  vol : Ads.Vol
  molVector : V3 ℝ
  molRotation : ℝ
  r : ℝ
  filters : List Ads.Filter
  nShells : ℕ
  surfaceOnly : Bool

/-- Calls of a program.  `fuel` bounds the rounds of the loops that the models of the functions bound. -/
inductive Call
  /-- `np.random.seed(s)` -/
  | setSeed (s : ℕ)
  /-- `get_N_splits(n, m, l, seed)`, misc.py:19 -/
  | splits (n m l : ℤ) (seed : Option ℕ) (fuel : ℕ)
  /-- `gen_p_substrate(dims, min_dist, density, seed=…)`, amorphous_algorithms.py:72 -/
  | substrate (dims : V3 ℝ) (m density : ℝ) (seed : Option ℕ) (fuel : ℕ)
  /-- `gen_p_substrate_batched(dims, min_dist, density, voxel_scale=…, batch_size=…, seed=…)`, amorphous_algorithms.py:160 -/
  | batched (dims : V3 ℝ) (m density scale : ℝ) (size : ℕ) (seed : Option ℕ) (fuel : ℕ)
  /-- `find_approximate_normal(points, decay, tol, margin, seed, max_steps)`, adsorbate.py:51 -/
  | normal (pts : List (V3 ℝ)) (decay tol margin : ℝ) (seed : Option ℕ) (maxSteps fuel : ℕ)
  /-- `alpha_shape_alg_3D(points, probe_radius)`, alpha_shape.py:50 -/
  | alpha (pts : List (V3 ℝ)) (r : ℝ)
  /-- `alpha_shape_alg_3D_with_sampling(points, probe_radius, N_samples, std, seed=…)`, alpha_shape.py:113 -/
  | alphaSampled (pts : List (V3 ℝ)) (r : ℝ) (n : ℕ) (std : ℝ) (seed : Option ℕ)
  /-- `add_adsorbate(…, use_sampling=…, seed=…)`; `none`: no keyword `seed` -/
  | adsorb (a : AdsArgs) (sampling : Bool) (seed : Option ℕ) (fuel : ℕ)
  /-- `ChemicalSubstitution(…).apply_function(points, species, seed=…)`, post.py:57 -/
  | substitute (target subs : List ℤ) (frac : ℝ) (species : List ℤ) (seed : Option ℕ)

/-- What a call returns. -/
inductive Out
  | none
  | ints (x : Option (Py (List ℤ)))
  | points (x : Option (Py (List (V3 ℝ))))
  | vector (x : Option (Py (V3 ℝ)))
  | shape (x : Py (List ℕ × Surf.Shape))
  | placed (x : Option (Py Ads.Placed))
  | species (x : List ℤ)

variable (np : Np) (del : List (V3 ℝ) → List Surf.Tet)

/-- The two arrays of noise of alpha_shape.py:66 and 70. -/
def globalNoise (n : ℕ) (m : np.M) : List (V3 ℝ) × List (V3 ℝ) × np.M :=
  let a := np.rand m n
  let b := np.rand a.2 n
  (a.1.map ((1 / 10 ^ 4 : ℝ) • ·), b.1.map ((1 / 10 ^ 10 : ℝ) • ·), b.2)

/-- adsorbate.py:186-191, 127-131: the seed given, or one from the global generator. -/
def pickSeed (seed : Option ℕ) (st : St np) : ℕ × St np :=
  match seed with
  | some s => (s, st)
  | none => ((np.randint st.glob).1, { st with glob := (np.randint st.glob).2 })

/-- The random numbers of a call of `add_adsorbate` with the seed `s`: noise of the samples (lines 194-199; the generator is handed on), choice of
the target (line 232), a seed below 10000 for each round (line 248), with which `find_approximate_normal` makes a generator of its own. -/
def adsRand (n : ℕ) (sampling : Bool) (s : ℕ) (noise1 noise2 : List (V3 ℝ)) : Ads.Rand :=
  let g0 := np.seeded s
  let g1 := if sampling then np.afterNoise n g0 20 else g0
  { noise := fun k => (np.noiseAt n g0 k).map ((1 / 10 ^ 4 : ℝ) • ·), noise1 := noise1, noise2 := noise2, pick := (np.raw g1).1,
    seqs := fun k i => np.rawAt (np.seeded (np.rawAt (np.raw g1).2 k % 10000)) i }

/-- One call.  `alpha_shape_alg_3D_with_sampling` gets its seed from the global generator when none is given (alpha_shape.py:127-131), and so does
`add_adsorbate`; with `use_sampling=False` the latter uses the global generator for the noise also with a seed (adsorbate.py:201-203). -/
def exec : Call → St np → Out × St np
  | .setSeed s, st => (.none, { st with glob := np.mseed s })
  | .splits n m l seed fuel, st =>
    -- misc.py:31-36: the generator is made after the checks
    if n = 0 ∨ l - 2 * m < (n - 1) * m then (.ints (Splits.getNSplits n m l (fun _ => 0) fuel), st)
    else
      let g := np.defaultRng seed st
      (.ints (Splits.getNSplits n m l (np.rawAt g.1) fuel), g.2)
  | .substrate dims m d seed fuel, st =>
    let g := np.defaultRng seed st
    (.points (Amo.genPSubstrate dims m d (np.pointAt g.1) fuel), g.2)
  | .batched dims m d scale size seed fuel, st =>
    let g := np.defaultRng seed st
    (.points (Batch.gen dims m d scale (np.batchAt size g.1) fuel), g.2)
  | .normal pts decay tol margin seed maxSteps fuel, st =>
    let g := np.defaultRng seed st
    (.vector (Ads.findNormal pts decay tol margin (fun i => np.rawAt g.1 i % pts.length) maxSteps fuel), g.2)
  | .alpha pts r, st =>
    let z := globalNoise np pts.length st.glob
    (.shape (Surf.alphaShape del z.1 z.2.1 pts r), { st with glob := z.2.2 })
  | .alphaSampled pts r n std seed, st =>
    let s := pickSeed np seed st
    (.shape (Surf.alphaShapeSampled del (fun k => (np.noiseAt pts.length (np.seeded s.1) k).map (std • ·)) n pts r), s.2)
  | .adsorb a sampling seed fuel, st =>
    let s := pickSeed np seed st
    let n := a.vol.atoms.length
    let z := if sampling then ([], [], s.2.glob) else globalNoise np n s.2.glob
    (.placed (Ads.addAdsorbate del a.mol a.idx a.bond a.vol a.molVector a.molRotation a.r a.filters sampling a.nShells a.surfaceOnly
      (adsRand np n sampling s.1 z.1 z.2.1) fuel), { s.2 with glob := z.2.2 })
  | .substitute target subs frac species seed, st =>
    let g := np.defaultRng seed st
    (.species (Post.replaceSpecies target subs frac (np.probsAt species.length g.1) species), g.2)

/-- A program: the results of its calls, one after the other, and the random state at the end. -/
def run : List Call → St np → List Out × St np
  | [], st => ([], st)
  | c :: cs, st =>
    let r := exec np del c st
    let q := run cs r.2
    (r.1 :: q.1, q.2)

end
end Seeds
end CZ
