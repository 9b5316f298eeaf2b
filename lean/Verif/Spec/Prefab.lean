import Verif.Spec.Volume
import Verif.Spec.Transform
import Verif.Spec.Crystal
import Verif.Spec.Miller

/-!
# Specification of layered structures

Grains are numbered 0, 1, …; grain 0 fills the whole body.
-/

namespace CZ.Spec

/-- Coordinate of a point along a direction. -/
def height (n p : V3 ℝ) : ℝ := n.x * p.x + n.y * p.y + n.z * p.z

/-- Among the grains `ws 0 … ws (m-1)`, grain `k` owns the point: the point is inside the grain and inside no other grain of
smaller or equal priority number. -/
def Owns (env : Env) (ws : ℕ → Vol) (m k : ℕ) (p : V3 ℝ) : Prop :=
  Inside env (.vol (ws k)) p ∧
    ∀ j, j < m → j ≠ k → (ws j).priority ≤ (ws k).priority → ¬ Inside env (.vol (ws j)) p

/-- The k-th of the `N + 1` layers cut by `N` planes at the descending heights `c 0, c 1, …` (each taken with the tolerance `tol`):
below plane k-1 and not below plane k. -/
def InLayer (n : V3 ℝ) (c : ℕ → ℝ) (tol : ℝ) (N k : ℕ) (p : V3 ℝ) : Prop :=
  (∀ i, i + 1 = k → height n p < c i + tol) ∧ (k < N → c k + tol ≤ height n p)

/-- The parts of a Volume a copy is made from agree: default tolerance, and the triangulation belongs to the points. -/
def Intact (env : Env) (v : Vol) : Prop :=
  v.tol = 1 / 10 ^ 10 ∧ ((v.points = none ∧ v.tri = none) ∨
    ∃ ps, v.points = some (.arr ps) ∧ v.tri = some ps ∧ 3 < ps.length ∧ env.hullOk ps = true)

/-- The infinite crystal a generator stands for. -/
def CrystalOf (g : Gen ℝ) : Set (V3 ℝ × ℤ) :=
  {a | ∃ v s, g.voxel = some v ∧ g.struct = some s ∧ a ∈ Crystal v.sbases v.origin s.sites}

/-- The crystal of `g'` is that of `g` mirrored in the plane of unit normal `n` and height `c`. -/
def Mirrored (n : V3 ℝ) (c : ℝ) (g g' : Gen ℝ) : Prop :=
  ∀ a, a ∈ CrystalOf g' ↔ ∃ b ∈ CrystalOf g, a.2 = b.2 ∧ ∃ q, height n q = c ∧ MirrorImage n q b.1 a.1

/-- The crystal of `g'` is that of `g` displaced by `b`. -/
def Displaced (b : V3 ℝ) (g g' : Gen ℝ) : Prop :=
  ∀ a, a ∈ CrystalOf g' ↔ ∃ a' ∈ CrystalOf g, a.2 = a'.2 ∧ a.1 = a'.1 + b

/-- The crystal of `g'` is that of `g` turned by the matrix `R` about the coordinate origin. -/
def Turned (R : M3 ℝ) (g g' : Gen ℝ) : Prop :=
  ∀ a, a ∈ CrystalOf g' ↔ ∃ b ∈ CrystalOf g, a.2 = b.2 ∧ a.1 = cart R 0 b.1

/-- Number of Miller indices that are not zero. -/
def nonzeros (h : V3 ℤ) : ℤ := (if h.x = 0 then 0 else 1) + (if h.y = 0 then 0 else 1) + (if h.z = 0 then 0 else 1)

/-- The generator is an unstrained crystal whose cell has a volume; `r` is the reciprocal vector of its planes `h`, and these
planes have the same spacing as the planes `h` of the lattice the structure was defined with (whose vectors are the rows of
`lattice.matrix`). -/
structure Regular (g : Gen ℝ) (x : Voxel ℝ) (s : Struct ℝ) (h : V3 ℤ) (r : V3 ℝ) : Prop where
  voxel : g.voxel = some x
  struct : g.struct = some s
  strain : g.strain = none
  det : x.sbases.det ≠ 0
  lattice : s.latticeMatrix.det ≠ 0
  recip : IsReciprocal x.sbases h r
  length : machEps < len r
  spacing : ∃ r', IsReciprocal s.latticeMatrix.transpose h r' ∧ len r' = len r

/-- The heights searched for planes along the unit vector `n`: those of the bounding box, or from minus to plus the radius of
the only sphere. -/
def SearchRange (env : Env) (v : Vol) (n : V3 ℝ) (lo hi : ℝ) : Prop :=
  (∃ ps, v.boundingBox env = .ok (.rows ps) ∧ (∀ a ∈ v.algs, ∀ s, a ≠ .sphere s) ∧ (∃ p ∈ ps, height n p = lo) ∧ (∃ p ∈ ps, height n p = hi) ∧
    ∀ p ∈ ps, lo ≤ height n p ∧ height n p ≤ hi) ∨
  ∃ c tol, v.points = none ∧ v.algs = [.sphere ⟨hi, c, tol⟩] ∧ 0 < hi ∧ lo = -hi

/-- A cubic cell with lattice parameter `a`, in any orientation: perpendicular cell vectors of length `a`. -/
def CubicCell (a : ℝ) (B : M3 ℝ) : Prop := 0 < a ∧ B * B.transpose = (a ^ 2) • (1 : M3 ℝ) ∧ B.transpose * B = (a ^ 2) • (1 : M3 ℝ)

/-- Lateral positions of the atoms of species `Z` in the layer at height `j * d` of the crystal of `g`. -/
def Lateral (n : V3 ℝ) (d : ℝ) (g : Gen ℝ) (Z : ℤ) (j : ℤ) : Set (V3 ℝ) :=
  {w | ∃ q, (q, Z) ∈ CrystalOf g ∧ height n q = j * d ∧ w = q - height n q • n}

/-- All atoms of species `Z` are in layers at multiples of `d`. -/
def Layers (n : V3 ℝ) (d : ℝ) (g : Gen ℝ) (Z : ℤ) : Prop := ∀ q, (q, Z) ∈ CrystalOf g → ∃ j : ℤ, height n q = j * d

/-- Stacking ABCABC…. -/
def CubicStack (L : ℤ → Set (V3 ℝ)) : Prop := ∀ j, (L j).Nonempty ∧ L (j + 1) ≠ L j ∧ L (j + 2) ≠ L j ∧ L (j + 3) = L j

/-- Stacking ABAB…. -/
def HexStack (L : ℤ → Set (V3 ℝ)) : Prop := ∀ j, (L j).Nonempty ∧ L (j + 1) ≠ L j ∧ L (j + 2) = L j

/-- Species `Z` occupies the face-centred cubic sites. -/
def FccSites (s : Struct ℝ) (Z : ℤ) : Prop := ∀ f, (f, Z) ∈ s.sites ↔
  f = ⟨0, 0, 0⟩ ∨ f = ⟨1 / 2, 1 / 2, 0⟩ ∨ f = ⟨1 / 2, 0, 1 / 2⟩ ∨ f = ⟨0, 1 / 2, 1 / 2⟩

/-- Species `Z` occupies the hexagonal close-packed sites. -/
def HcpSites (s : Struct ℝ) (Z : ℤ) : Prop := ∀ f, (f, Z) ∈ s.sites ↔ f = ⟨1 / 3, 2 / 3, 0⟩ ∨ f = ⟨2 / 3, 1 / 3, 1 / 2⟩

/-- Lateral positions of the atoms of species `Z` in the layer at height `c + j * d` of the crystal of `g`. -/
def LateralFrom (n : V3 ℝ) (c d : ℝ) (g : Gen ℝ) (Z : ℤ) (j : ℤ) : Set (V3 ℝ) :=
  {w | ∃ q, (q, Z) ∈ CrystalOf g ∧ height n q = c + j * d ∧ w = q - height n q • n}

/-- All atoms of species `Z` are in layers at distance `d` from each other, one of them at height `c`. -/
def LayersFrom (n : V3 ℝ) (c d : ℝ) (g : Gen ℝ) (Z : ℤ) : Prop := ∀ q, (q, Z) ∈ CrystalOf g → ∃ j : ℤ, height n q = c + j * d

/-- Up to lattice vectors, species `Z` occupies the sites `a`, `a + (1/2, 1/2, 0)`, `a + (1/2, 0, 1/2)` and `a + (0, 1/2, 1/2)`: an fcc metal, or one of
the sublattices of zinc blende or rock salt. -/
def FccSitesAt (s : Struct ℝ) (Z : ℤ) (a : V3 ℝ) : Prop :=
  (∀ f, (f, Z) ∈ s.sites → ∃ i j l : ℤ, f = ⟨a.x + i / 2, a.y + j / 2, a.z + l / 2⟩ ∧ 2 ∣ i + j + l) ∧
    ∀ i j l : ℤ, 2 ∣ i + j + l → ∃ i' j' l' : ℤ, ((⟨a.x + i / 2 + i', a.y + j / 2 + j', a.z + l / 2 + l'⟩ : V3 ℝ), Z) ∈ s.sites

/-- Up to lattice vectors, species `Z` occupies the two sites `a` and `a + (1/3, -1/3, 1/2)`: one of the sublattices of wurtzite, or a
hexagonal close-packed metal. -/
def HcpSitesAt (s : Struct ℝ) (Z : ℤ) (a : V3 ℝ) : Prop :=
  (∀ f, (f, Z) ∈ s.sites → ∃ i j l : ℤ, f = ⟨a.x + i, a.y + j, a.z + l⟩ ∨ f = ⟨a.x + 1 / 3 + i, a.y - 1 / 3 + j, a.z + 1 / 2 + l⟩) ∧
    (∃ i j l : ℤ, ((⟨a.x + i, a.y + j, a.z + l⟩ : V3 ℝ), Z) ∈ s.sites) ∧
    ∃ i j l : ℤ, ((⟨a.x + 1 / 3 + i, a.y - 1 / 3 + j, a.z + 1 / 2 + l⟩ : V3 ℝ), Z) ∈ s.sites

/-- A basal fault of type I₁ between an upper stack `L` and a lower stack `L'`: every second layer is common to both, the layers between are
different; wherever the two are cut and joined, no layer lies on top of one like it. -/
def BasalFault (L L' : ℤ → Set (V3 ℝ)) : Prop := ∃ e : ℤ, ∀ j, (L' j = L j ↔ (j - e) % 2 = 0) ∧ L' (j - 1) ≠ L j

/-- The third cell vector is perpendicular to the other two. -/
def UprightCell (B : M3 ℝ) : Prop := ∀ u w : ℝ, Perp (cart B 0 ⟨u, w, 0⟩) (cart B 0 ⟨0, 0, 1⟩)

/-- The ends of the search for planes are at most `M` away from the coordinate origin. -/
def SearchWithin (env : Env) (v : Vol) (M : ℝ) : Prop :=
  (∀ s, .sphere s ∈ v.algs → |s.radius| ≤ M) ∧
    ((∀ s, .sphere s ∉ v.algs) → ∀ ps, v.boundingBox env = .ok (.rows ps) → ∀ p ∈ ps, len p ≤ M)

end CZ.Spec
