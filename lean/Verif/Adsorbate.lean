import Verif.Surface

/-!
# Adsorbates

Model of `find_approximate_normal` and `add_adsorbate` (`czone/surface/adsorbate.py`).  Random numbers are parameters: the
sequences of indices, the noise of the alpha shape and the choice of the target.
-/

namespace CZ
namespace Ads
open Surf

noncomputable section
open Classical

/-- `np.ones(3)*1e-10` (adsorbate.py:75). -/
def w0 : V3 ℝ := ⟨1 / 10 ^ 10, 1 / 10 ^ 10, 1 / 10 ^ 10⟩

/-- The variables `w`, `j`, `w_list` of adsorbate.py:75-83. -/
structure NState where
  w : V3 ℝ
  j : ℕ
  dots : List ℝ

/-- adsorbate.py:87-99, the body for the point `x`.  The value `nan` stands for `w` becoming nan: from then on no comparison is
true, nothing is updated, and the call returns nan after `max_steps` steps. -/
def nstep (decay margin : ℝ) (x : V3 ℝ) (st : NState) : Py NState :=
  if margin ≤ st.w.dot x then
    let wn := st.w - decay ^ st.j • x
    if norm3 wn = 0 then .error .nan
    else .ok ⟨(norm3 wn)⁻¹ • wn, st.j + 1, st.dots ++ [wn.dot st.w / (norm3 wn * norm3 st.w)]⟩
  else .ok st

/-- adsorbate.py:102-105. -/
def converged (tol : ℝ) (dots : List ℝ) : Prop := 5 < dots.length ∧ ∀ d ∈ dots.drop (dots.length - 5), 1 - tol < d

/-- The loop of adsorbate.py:84-108 at step `i`; `none`: not finished after `fuel` rounds. -/
def nloop (pts : List (V3 ℝ)) (decay tol margin : ℝ) (seq : ℕ → ℕ) (maxSteps : ℕ) : ℕ → ℕ → NState → Option (Py (V3 ℝ))
  | 0, _, _ => none
  | fuel + 1, i, st =>
    if maxSteps ≤ i then some (.error .index)
    else match pyGet pts (seq i) with
      | .error e => some (.error e)
      | .ok x => match nstep decay margin x st with
        | .error e => some (.error e)
        | .ok st' =>
          if converged tol st'.dots then some (.ok st'.w)
          else if i + 1 = maxSteps then some (.ok st'.w)
          else nloop pts decay tol margin seq maxSteps fuel (i + 1) st'

/-- adsorbate.py:51-110, `find_approximate_normal(points, decay, tol, margin, seed, max_steps)`; `seq` is the sequence drawn with
the seed.  `rng.integers(0, 0, n)` raises ValueError for `n > 0`. -/
def findNormal (pts : List (V3 ℝ)) (decay tol margin : ℝ) (seq : ℕ → ℕ) (maxSteps fuel : ℕ) : Option (Py (V3 ℝ)) :=
  if maxSteps = 0 then some (.error .index)
  else if pts = [] then some (.error .value)
  else nloop pts decay tol margin seq maxSteps fuel 0 ⟨w0, 0, []⟩

/-- An entry of `filters` (adsorbate.py:210-226) by the kind that its key selects; names of elements are already numbers. -/
inductive Filter
  | element (zs : List ℤ)
  | mask (m : List Bool)
  | indices (is : List ℤ)
  | spatial (f : List (V3 ℝ) → List Bool)
  | other

/-- `np.logical_and(a, b)` of two one-dimensional arrays with broadcasting. -/
def andBc (a b : List Bool) : Py (List Bool) :=
  if a.length = b.length then .ok (npAnd a b)
  else match a, b with
    | _, [y] => .ok (a.map (· && y))
    | [x], _ => .ok (b.map (x && ·))
    | _, _ => .error .value

/-- `m = np.zeros(n, dtype=bool); m[is] = True`. -/
def maskOf (n : ℕ) (is : List ℤ) : Py (List Bool) := do
  let js ← is.mapM (normIdx n)
  return js.foldl (fun m j => m.set j true) (List.replicate n false)

/-- The mask of one filter; `none` for an unknown key.  `reduce` of an empty list is a TypeError. -/
def Filter.eval (atoms : List (V3 ℝ)) (species : List ℤ) : Filter → Py (Option (List Bool))
  | .element [] => .error .type
  | .element (z :: zs) =>
    .ok (some (zs.foldl (fun m z => npOr m (species.map fun s => decide (s = z))) (species.map fun s => decide (s = z))))
  | .mask m => .ok (some m)
  | .indices is => do return some (← maskOf atoms.length is)
  | .spatial f => .ok (some (f atoms))
  | .other => .ok none

/-- adsorbate.py:210-226. -/
def applyFilters (atoms : List (V3 ℝ)) (species : List ℤ) : List Filter → List Bool → Py (List Bool)
  | [], m => .ok m
  | f :: fs, m => do
    match ← f.eval atoms species with
    | none => applyFilters atoms species fs m
    | some t => applyFilters atoms species fs (← andBc m t)

/-- adsorbate.py:205-228: the candidates. -/
def candidates (atoms : List (V3 ℝ)) (species : List ℤ) (surface : List ℕ) (fs : List Filter) : Py (List ℕ) := do
  let m0 ← maskOf atoms.length (surface.map fun i : ℕ => (i : ℤ))
  let m ← applyFilters atoms species fs m0
  return (List.range m.length).filter fun i => m.getD i false

/-- `rng.choice(l)`; `pick` is the random number. -/
def choose (pick : ℕ) (l : List ℕ) : Py ℕ := if l = [] then .error .value else pyGet l (pick % l.length)

/-- `np.min` of a non-empty list. -/
def npMin (a : ℝ) (l : List ℝ) : ℝ := l.foldl min a

/-- `np.max` of a non-empty list. -/
def npMax (a : ℝ) (l : List ℝ) : ℝ := l.foldl max a

/-- adsorbate.py:236-242: the scaled directions to the neighbours.  `none` when some distance is 0: then all entries are nan. -/
def directions (atoms : List (V3 ℝ)) (target : ℕ) (nn : List ℕ) : Py (Option (List (V3 ℝ))) := do
  let ps ← nn.mapM (pyGet atoms)
  let t ← pyGet atoms target
  match ps.map (fun p => norm3 (p - t)) with
  | [] => .error .value
  | d :: ds =>
    let m := npMin d ds
    if m = 0 then return none
    else return some (ps.map fun p => (1 / m / (norm3 (p - t) / m) ^ 2) • (p - t))

/-- adsorbate.py:245-258, the loop that improves the margin.  `k` counts the calls, `none` as result of a call stands for nan (for
which no comparison is true); the normal is the result of the last call.  `seqs k` are the random numbers behind the sequence of
call `k`. -/
def marginLoop (nn : List (V3 ℝ)) (seqs : ℕ → ℕ → ℕ) : ℕ → ℕ → ℕ → ℝ → Option (Py (Option (V3 ℝ)))
  | 0, _, _, _ => none
  | fuel + 1, k, j, best =>
    match findNormal nn (95 / 100) (1 / 10 ^ 4) best (fun i => seqs k i % nn.length) 1000 1000 with
    | none => none
    | some (.error .nan) => if j + 1 < 10 then marginLoop nn seqs fuel (k + 1) (j + 1) best else some (.ok none)
    | some (.error e) => some (.error e)
    | some (.ok w) =>
      match nn.map w.dot with
      | [] => some (.error .value)
      | d :: ds =>
        if npMax d ds < best then marginLoop nn seqs fuel (k + 1) 0 (npMax d ds)
        else if j + 1 < 10 then marginLoop nn seqs fuel (k + 1) (j + 1) best
        else some (.ok (some w))

/-- The normal (adsorbate.py:245-261).  With nan directions no step of any call changes `w`. -/
def normalOf (dirs : Option (List (V3 ℝ))) (seqs : ℕ → ℕ → ℕ) (fuel : ℕ) : Option (Py (Option (V3 ℝ))) :=
  match dirs with
  | none => some (.ok (some w0))
  | some nn => marginLoop nn seqs fuel 0 0 0

/-- adsorbate.py:181, 265-278: rotate the molecule onto the normal, about the normal, and move it.  A matrix of nan fails the test of
`Rotation`. -/
def place (mol : Mol ℝ) (idx : MolVal ℝ) (molVector : V3 ℝ) (molRotation bond : ℝ) (target normal : V3 ℝ) : Py (Mol ℝ) :=
  match mol.fromMolecule [] with
  | .error e => .error e
  | .ok m0 => match m0.setOriginByIdx idx with
    | (_, .error e) => .error e
    | (m1, .ok ()) => match Tr.rotVtv (m1.orientation.mulVec molVector) normal with
      | .error _ => .error .assertion
      | .ok R1 => match m1.origin with
        | .error e => .error e
        | .ok o1 => match Tr.mkRotation R1 (some o1) true false with
          | .error e => .error e
          | .ok t1 => match m1.transform t1 true with
            | (_, .error e) => .error e
            | (m2, .ok ()) => match Tr.rotV normal molRotation with
              | .error _ => .error .assertion
              | .ok R2 => match m2.origin with
                | .error e => .error e
                | .ok o2 => match Tr.mkRotation R2 (some o2) true false with
                  | .error e => .error e
                  | .ok t2 => match m2.transform t2 true with
                    | (_, .error e) => .error e
                    | (m3, .ok ()) => match m3.origin with
                      | .error e => .error e
                      | .ok o3 => match m3.transform (.translation (target + bond • normal - o3) true false) true with
                        | (_, .error e) => .error e
                        | (m4, .ok ()) => .ok m4

/-- The random numbers of a call. -/
structure Rand where
  noise : ℕ → List (V3 ℝ)
  noise1 : List (V3 ℝ)
  noise2 : List (V3 ℝ)
  pick : ℕ
  seqs : ℕ → ℕ → ℕ

/-- The populated volume: positions, species and the interior test. -/
structure Vol where
  atoms : List (V3 ℝ)
  species : List ℤ
  interior : V3 ℝ → Bool

/-- What the call returns; target, neighbours and directions are part of the result with `debug=True`, the normal is internal. -/
structure Placed where
  mol : Mol ℝ
  success : Bool
  target : ℕ
  neighbors : List ℕ
  normal : V3 ℝ

/-- adsorbate.py:147-292, `add_adsorbate`.  `del` is the Delaunay triangulation; `fuel` bounds the rounds of the margin loop. -/
def addAdsorbate (del : List (V3 ℝ) → List Tet) (mol : Mol ℝ) (idx : MolVal ℝ) (bond : ℝ) (vol : Vol) (molVector : V3 ℝ)
    (molRotation r : ℝ) (fs : List Filter) (sampling : Bool) (nShells : ℕ) (surfaceOnly : Bool) (rnd : Rand) (fuel : ℕ) :
    Option (Py Placed) :=
  match (if sampling then alphaShapeSampled del rnd.noise 20 vol.atoms r else alphaShape del rnd.noise1 rnd.noise2 vol.atoms r) with
  | .error e => some (.error e)
  | .ok (surf, sh) => match candidates vol.atoms vol.species surf fs with
    | .error e => some (.error e)
    | .ok cs => match choose rnd.pick cs with
      | .error e => some (.error e)
      | .ok target => match nearestNeighbors target sh nShells surfaceOnly with
        | .error e => some (.error e)
        | .ok nn => match directions vol.atoms target nn with
          | .error e => some (.error e)
          | .ok dirs => match normalOf dirs rnd.seqs fuel with
            | none => none
            | some (.error e) => some (.error e)
            | some (.ok none) => some (.error .assertion)
            | some (.ok (some normal)) => match pyGet vol.atoms target with
              | .error e => some (.error e)
              | .ok tp => match place mol idx molVector molRotation bond tp normal with
                | .error e => some (.error e)
                | .ok m => some (.ok ⟨m, m.atoms.all fun p => !(vol.interior p), target, nn, normal⟩)

end
end Ads
end CZ
