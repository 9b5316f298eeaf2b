import Verif.Settings

/-!
# Specification vocabulary for settings
-/

namespace CZ.Spec

variable {K G V : Type} [Field K] [LinearOrder K]

/-- The Python value `x` is the number `r`. -/
def IsNumber : SetVal K G V → K → Prop
  | .int n, r => r = n
  | .npInt n, r => r = n
  | .bool b, r => r = if b then 1 else 0
  | .float x, r => r = x
  | .array [x], r => r = x
  | _, _ => False

/-- The Python value `x` denotes the integer `n`: an integer, a truth value, the text of an integer, or a number without
its decimals (also as the only entry of an array). -/
def IsInt : SetVal K G V → ℤ → Prop
  | .int n, m => m = n
  | .npInt n, m => m = n
  | .bool b, m => m = if b then 1 else 0
  | .float x, m => (0 ≤ x ∧ (m : K) ≤ x ∧ x < m + 1) ∨ (x < 0 ∧ x ≤ m ∧ (m : K) - 1 < x)
  | .str (some n), m => m = n
  | .array [x], m => (0 ≤ x ∧ (m : K) ≤ x ∧ x < m + 1) ∨ (x < 0 ∧ x ≤ m ∧ (m : K) - 1 < x)
  | _, _ => False

/-- A defect prefab whose settings make sense: N is an integer, min_sep a Python integer (or truth value), the fraction of stacking
faults a number between 0 and 1 (0 for twins only, 1 for stacking faults only), generator and volume unset or of the right
class. -/
structure SettingsValid (s : PrefabSet K G V) : Prop where
  N : ∃ n, s.N = some n
  minSep : (∃ n, s.minSep = .int n) ∨ ∃ b, s.minSep = .bool b
  ratio : s.kind ≠ .wurtzite → ∃ r, IsNumber s.getRatio r ∧ 0 ≤ r ∧ r ≤ 1
  twin : s.kind = .twin → IsNumber s.getRatio 0
  fault : s.kind = .stackingFault → IsNumber s.getRatio 1
  generator : s.generator = .none ∨ ∃ g, s.generator = .generator g
  volume : s.volume = .none ∨ ∃ v, s.volume = .volume v

/-- What an accepted assignment makes of the settings: exactly the named one changes. -/
def Assigned (s : PrefabSet K G V) : PrefabSet.Assign K G V → PrefabSet K G V → Prop
  | .N x, s' => ∃ n, IsInt x n ∧ s' = { s with N := some n }
  | .minSep x, s' => ((∃ n, x = .int n) ∨ ∃ b, x = .bool b) ∧ s' = { s with minSep := x }
  | .plane x, s' => s.kind ≠ .wurtzite ∧ s' = { s with plane := x }
  | .ratio x, s' => (s.kind = .mixed ∧ (∃ r, IsNumber x r ∧ 0 ≤ r ∧ r ≤ 1) ∧ s' = { s with ratio := x }) ∨
      (s.kind ≠ .mixed ∧ s' = s)
  | .generator x, s' => (∃ g, x = .generator g) ∧ s' = { s with generator := x }
  | .volume x, s' => (∃ v, x = .volume v) ∧ s' = { s with volume := x }

/-- The same for an AmorphousGenerator. -/
def AssignedA (s : AmorphousSet K G V) : AmorphousSet.Assign K G V → AmorphousSet K G V → Prop
  | .origin x, s' => (∃ a b c, x = .array [a, b, c]) ∧ s' = { s with origin := x }
  | .species x, s' => s' = { s with species := x }
  | .density x, s' => (∃ r, IsNumber x r ∧ 0 < r) ∧ s' = { s with density := x }
  | .minDist x, s' => (∃ r, IsNumber x r ∧ 0 < r) ∧ s' = { s with minDist := x }

end CZ.Spec
