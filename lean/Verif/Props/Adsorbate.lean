import Verif.Spec.Adsorbate
import Verif.Props.Surface
import Verif.Props.Molecule
import Verif.Props.Rotation

/-!
# Properties C67-C68: normals of a surface and adsorbates
-/

namespace CZ
open Spec Ads Surf

/-! ## C67 -/

theorem w0_normSq : w0.normSq = 3 / 10 ^ 20 := by unfold w0 V3.normSq V3.dot; norm_num

theorem w0_ne : norm3 w0 ≠ 0 := by
  rw [Ne, norm3_eq_zero]
  intro h
  have := w0_normSq
  rw [h] at this
  norm_num [V3.normSq, V3.dot] at this

/-- What holds of the variables of the loop before step `i`. -/
def NInv (pts : List (V3 ℝ)) (margin : ℝ) (seq : ℕ → ℕ) (i : ℕ) (st : NState) : Prop :=
  (st.dots.length = st.j) ∧ ((norm3 st.w = 1 ∧ 1 ≤ st.j) ∨
    (st.w = w0 ∧ st.j = 0 ∧ ∀ k < i, ∀ x, pts[seq k]? = some x → w0.dot x < margin))

theorem nstep_inv (pts : List (V3 ℝ)) (decay margin : ℝ) (seq : ℕ → ℕ) (i : ℕ) (x : V3 ℝ) (hx : pts[seq i]? = some x) (st st' : NState)
    (h : NInv pts margin seq i st) (hs : nstep decay margin x st = .ok st') : NInv pts margin seq (i + 1) st' := by
  unfold nstep at hs
  by_cases hm : margin ≤ st.w.dot x
  · simp only [if_pos hm] at hs
    split at hs
    · cases hs
    · rename_i hn
      obtain rfl := Except.ok.inj hs
      refine ⟨by simp [h.1], .inl ⟨norm3_unit hn, by simp⟩⟩
  · rw [if_neg hm] at hs
    obtain rfl := Except.ok.inj hs
    refine ⟨h.1, ?_⟩
    rcases h.2 with h1 | ⟨h1, h2, h3⟩
    · exact .inl h1
    · refine .inr ⟨h1, h2, fun k hk y hy => ?_⟩
      rcases Nat.lt_succ_iff_lt_or_eq.mp hk with hk | rfl
      · exact h3 k hk y hy
      · rw [hx] at hy
        obtain rfl := Option.some.inj hy
        rw [h1] at hm
        exact not_le.mp hm

theorem nstep_error (decay margin : ℝ) (x : V3 ℝ) (st : NState) (e : PyErr) (hs : nstep decay margin x st = .error e) :
    e = .nan ∧ margin ≤ st.w.dot x ∧ st.w = decay ^ st.j • x := by
  unfold nstep at hs
  by_cases hm : margin ≤ st.w.dot x
  · simp only [if_pos hm] at hs
    split at hs
    · rename_i hn
      cases hs
      refine ⟨rfl, hm, ?_⟩
      have := (norm3_eq_zero _).mp hn
      have hx := congrArg V3.x this
      have hy := congrArg V3.y this
      have hz := congrArg V3.z this
      simp only [V3.sub_x, V3.sub_y, V3.sub_z, V3.zero_x, V3.zero_y, V3.zero_z] at hx hy hz
      ext
      · linarith
      · linarith
      · linarith
    · cases hs
  · rw [if_neg hm] at hs; cases hs

/-- The vectors found within the first `k` draws, the newest first: the initial vector, and one more whenever the draw asks for an
update. -/
noncomputable def foundVectors (pts : List (V3 ℝ)) (decay margin : ℝ) (seq : ℕ → ℕ) : ℕ → List (V3 ℝ)
  | 0 => [⟨1 / 10 ^ 10, 1 / 10 ^ 10, 1 / 10 ^ 10⟩]
  | k + 1 => match foundVectors pts decay margin seq k, pts[seq k]? with
    | w :: ws, some x => open Classical in
      if margin ≤ w.x * x.x + w.y * x.y + w.z * x.z then
        (len (w - decay ^ ws.length • x))⁻¹ • (w - decay ^ ws.length • x) :: w :: ws
      else w :: ws
    | ws, _ => ws

/-- The cosines of the angles between successive vectors. -/
noncomputable def cosines (ws : List (V3 ℝ)) : List ℝ := List.zipWith (fun v w => v.dot w / (len v * len w)) ws ws.tail

/-- More than five updates were made, and the last five changed the direction by an angle of cosine more than `1 - tol`. -/
def Settled (tol : ℝ) (ws : List (V3 ℝ)) : Prop := 6 < ws.length ∧ ∀ c ∈ (cosines ws).take 5, 1 - tol < c

theorem nloop_settles (pts : List (V3 ℝ)) (decay tol margin : ℝ) (seq : ℕ → ℕ) (maxSteps : ℕ)
    (fuel : ℕ) : ∀ i st ws, foundVectors pts decay margin seq i = st.w :: ws → st.j = ws.length → st.dots = (cosines (st.w :: ws)).reverse →
    (∀ k, 1 ≤ k → k ≤ i → ¬ Settled tol (foundVectors pts decay margin seq k)) → ∀ w,
    nloop pts decay tol margin seq maxSteps fuel i st = some (.ok w) →
    ∃ k vs, 1 ≤ k ∧ k ≤ maxSteps ∧ foundVectors pts decay margin seq k = w :: vs ∧
      (k = maxSteps ∨ Settled tol (w :: vs)) ∧ ∀ k', 1 ≤ k' → k' < k → ¬ Settled tol (foundVectors pts decay margin seq k') := by
  induction fuel with
  | zero => intro i st ws _ _ _ _ w h; simp [nloop] at h
  | succ fuel ih =>
    intro i st ws hw hj hd hno w h
    rw [nloop] at h
    by_cases hm : maxSteps ≤ i
    · rw [if_pos hm] at h; simp at h
    rw [if_neg hm] at h
    cases hx : pts[seq i]? with
    | none =>
      have : pyGet pts (seq i) = .error .index := by unfold pyGet; rw [hx]
      rw [this] at h; simp at h
    | some x =>
      have hp : pyGet pts (seq i) = .ok x := by unfold pyGet; rw [hx]
      rw [hp] at h
      simp only at h
      cases hs : nstep decay margin x st with
      | error e => rw [hs] at h; simp at h
      | ok st' =>
        rw [hs] at h
        simp only at h
        have hnew : ∃ ws', foundVectors pts decay margin seq (i + 1) = st'.w :: ws' ∧ st'.j = ws'.length ∧
            st'.dots = (cosines (st'.w :: ws')).reverse := by
          unfold nstep at hs
          by_cases hmm : margin ≤ st.w.dot x
          · simp only [if_pos hmm] at hs
            split at hs
            · cases hs
            · rename_i hn
              obtain rfl := Except.ok.inj hs
              refine ⟨st.w :: ws, ?_, by simp [hj], ?_⟩
              · rw [foundVectors, hw, hx]
                simp only
                rw [if_pos (by simpa [V3.dot] using hmm), hj, len_eq]
              · have hc : cosines ((norm3 (st.w - decay ^ st.j • x))⁻¹ • (st.w - decay ^ st.j • x) :: st.w :: ws) =
                    ((norm3 (st.w - decay ^ st.j • x))⁻¹ • (st.w - decay ^ st.j • x)).dot st.w /
                      (len ((norm3 (st.w - decay ^ st.j • x))⁻¹ • (st.w - decay ^ st.j • x)) * len st.w) :: cosines (st.w :: ws) := rfl
                rw [hc, List.reverse_cons, ← hd, len_eq, len_eq, norm3_unit hn]
                congr 2
                generalize st.w - decay ^ st.j • x = v at hn
                simp only [V3.dot, V3.smul_x, V3.smul_y, V3.smul_z]
                by_cases hw0 : norm3 st.w = 0
                · simp [hw0]
                · field_simp
          · rw [if_neg hmm] at hs
            obtain rfl := Except.ok.inj hs
            refine ⟨ws, ?_, hj, hd⟩
            rw [foundVectors, hw, hx]
            simp only
            rw [if_neg (by simpa [V3.dot] using hmm)]
        obtain ⟨ws', h1, h2, h3⟩ := hnew
        have hlen : (cosines (st'.w :: ws')).length = ws'.length := by simp [cosines]
        have hconv : converged tol st'.dots ↔ Settled tol (st'.w :: ws') := by
          unfold converged Settled
          rw [h3, List.length_reverse, hlen, List.length_cons]
          have : (cosines (st'.w :: ws')).reverse.drop (ws'.length - 5) = ((cosines (st'.w :: ws')).take 5).reverse := by
            rw [List.reverse_take, hlen]
          rw [this]
          simp only [List.mem_reverse]
          constructor
          · rintro ⟨a, b⟩; exact ⟨by omega, b⟩
          · rintro ⟨a, b⟩; exact ⟨by omega, b⟩
        by_cases hc : converged tol st'.dots
        · rw [if_pos hc] at h
          simp only [Option.some.injEq, Except.ok.injEq] at h
          subst h
          exact ⟨i + 1, ws', by omega, by omega, h1, .inr (hconv.mp hc), fun k' a b => hno k' a (by omega)⟩
        · rw [if_neg hc] at h
          split_ifs at h with hlast
          · simp only [Option.some.injEq, Except.ok.injEq] at h
            subst h
            exact ⟨i + 1, ws', by omega, by omega, h1, .inl hlast, fun k' a b => hno k' a (by omega)⟩
          · refine ih (i + 1) st' ws' h1 h2 h3 (fun k a b => ?_) w h
            rcases Nat.lt_or_eq_of_le b with b | rfl
            · exact hno k a (by omega)
            · rw [h1, ← hconv]; exact hc

/-- **C67 (when it stops).** The result is the vector held after the first draw at which more than five updates were made and the last
five changed the direction by a cosine of more than `1 - tol` each; if there is no such draw, the vector after the last one. -/
theorem C67_settles (pts : List (V3 ℝ)) (decay tol margin : ℝ) (seq : ℕ → ℕ) (maxSteps fuel : ℕ) (w : V3 ℝ)
    (h : findNormal pts decay tol margin seq maxSteps fuel = some (.ok w)) :
    ∃ k vs, 1 ≤ k ∧ k ≤ maxSteps ∧ foundVectors pts decay margin seq k = w :: vs ∧
      (k = maxSteps ∨ Settled tol (w :: vs)) ∧ ∀ k', 1 ≤ k' → k' < k → ¬ Settled tol (foundVectors pts decay margin seq k') := by
  unfold findNormal at h
  split at h
  · simp at h
  split at h
  · simp at h
  exact nloop_settles pts decay tol margin seq maxSteps fuel 0 ⟨w0, 0, []⟩ [] rfl rfl rfl (fun k a b => by omega) w h

theorem nloop_spec (pts : List (V3 ℝ)) (decay tol margin : ℝ) (seq : ℕ → ℕ) (maxSteps : ℕ) (hseq : ∀ k < maxSteps, seq k < pts.length)
    (fuel : ℕ) : ∀ i st, i < maxSteps → maxSteps ≤ i + fuel → NInv pts margin seq i st →
    (∃ w, nloop pts decay tol margin seq maxSteps fuel i st = some (.ok w) ∧
      (norm3 w = 1 ∨ (w = w0 ∧ ∀ k < maxSteps, ∀ x, pts[seq k]? = some x → w0.dot x < margin))) ∨
    (nloop pts decay tol margin seq maxSteps fuel i st = some (.error .nan) ∧
      ∃ x ∈ pts, ∃ v j, v = decay ^ j • x ∧ ((v = w0 ∧ j = 0) ∨ (norm3 v = 1 ∧ 1 ≤ j))) := by
  induction fuel with
  | zero => intro i st h1 h2; omega
  | succ fuel ih =>
    intro i st h1 h2 hinv
    rw [nloop, if_neg (by omega), pyGet_ok (hseq i h1)]
    simp only
    have hx : pts[seq i]? = some (pts[seq i]'(hseq i h1)) := List.getElem?_eq_getElem _
    cases hs : nstep decay margin (pts[seq i]'(hseq i h1)) st with
    | error e =>
      right
      obtain ⟨rfl, -, h4⟩ := nstep_error _ _ _ _ _ hs
      refine ⟨rfl, _, List.getElem_mem (hseq i h1), st.w, st.j, h4, ?_⟩
      rcases hinv.2 with h5 | ⟨h5, h6, -⟩
      · exact .inr h5
      · exact .inl ⟨h5, h6⟩
    | ok st' =>
      have hinv' := nstep_inv pts decay margin seq i _ hx st st' hinv hs
      simp only
      split
      · rename_i hc
        left
        refine ⟨_, rfl, .inl ?_⟩
        rcases hinv'.2 with h5 | ⟨-, h6, -⟩
        · exact h5.1
        · have := hc.1; have := hinv'.1; omega
      · split
        · rename_i hend
          left
          refine ⟨_, rfl, ?_⟩
          rcases hinv'.2 with h5 | ⟨h5, -, h6⟩
          · exact .inl h5.1
          · exact .inr ⟨h5, by rw [← hend]; exact h6⟩
        · exact ih (i + 1) st' (by omega) (by omega) hinv'

/-- **C67.** For every set of points, every sequence of draws and all parameters the loop ends within `max_steps` steps.  It returns a
vector of length one, or its initial vector when no drawn point asked for an update, or nan (see `C67_no_nan`). -/
theorem C67_stops (pts : List (V3 ℝ)) (decay tol margin : ℝ) (seq : ℕ → ℕ) (maxSteps fuel : ℕ) (h0 : 1 ≤ maxSteps)
    (hf : maxSteps ≤ fuel) (hp : pts ≠ []) (hseq : ∀ k < maxSteps, seq k < pts.length) :
    (∃ w, findNormal pts decay tol margin seq maxSteps fuel = some (.ok w) ∧
      (norm3 w = 1 ∨ (w = w0 ∧ ∀ k < maxSteps, ∀ x, pts[seq k]? = some x → w0.dot x < margin))) ∨
    (findNormal pts decay tol margin seq maxSteps fuel = some (.error .nan) ∧
      ∃ x ∈ pts, ∃ v j, v = decay ^ j • x ∧ ((v = w0 ∧ j = 0) ∨ (norm3 v = 1 ∧ 1 ≤ j))) := by
  unfold findNormal
  rw [if_neg (by omega), if_neg hp]
  exact nloop_spec pts decay tol margin seq maxSteps hseq fuel 0 _ (by omega) (by omega) ⟨rfl, .inr ⟨rfl, rfl, by simp⟩⟩

/-- **C67 (no nan).** With |decay| < 1 and points of the unit ball other than the initial vector the result is a number: the initial
vector or a vector of length one. -/
theorem C67_no_nan (pts : List (V3 ℝ)) (decay tol margin : ℝ) (seq : ℕ → ℕ) (maxSteps fuel : ℕ) (h0 : 1 ≤ maxSteps)
    (hf : maxSteps ≤ fuel) (hp : pts ≠ []) (hseq : ∀ k < maxSteps, seq k < pts.length) (hd : |decay| < 1)
    (hb : ∀ x ∈ pts, norm3 x ≤ 1 ∧ x ≠ w0) :
    ∃ w, findNormal pts decay tol margin seq maxSteps fuel = some (.ok w) ∧
      (norm3 w = 1 ∨ (w = w0 ∧ ∀ k < maxSteps, ∀ x, pts[seq k]? = some x → w0.dot x < margin)) := by
  rcases C67_stops pts decay tol margin seq maxSteps fuel h0 hf hp hseq with h | ⟨-, x, hx, v, j, h1, h2⟩
  · exact h
  · exfalso
    obtain ⟨h3, h4⟩ := hb x hx
    rcases h2 with ⟨h5, rfl⟩ | ⟨h5, h6⟩
    · apply h4
      rw [h5] at h1
      rw [h1]
      ext <;> simp
    · rw [h1, norm3_smul, abs_pow] at h5
      have h7 : |decay| ^ j < 1 := pow_lt_one₀ (abs_nonneg _) hd (by omega)
      have h8 : 0 ≤ norm3 x := by unfold norm3; exact Real.sqrt_nonneg _
      have h9 : 0 ≤ |decay| ^ j := pow_nonneg (abs_nonneg _) _
      nlinarith

/-- **C67 (an update happens)** as soon as one of the draws has a scalar product with the initial vector of at least the margin: then
the result has length one. -/
theorem C67_unit (pts : List (V3 ℝ)) (decay tol margin : ℝ) (seq : ℕ → ℕ) (maxSteps fuel : ℕ)
    (hf : maxSteps ≤ fuel) (hseq : ∀ k < maxSteps, seq k < pts.length) (w : V3 ℝ)
    (h : findNormal pts decay tol margin seq maxSteps fuel = some (.ok w))
    (hu : ∃ k < maxSteps, ∃ x, pts[seq k]? = some x ∧ margin ≤ w0.dot x) : norm3 w = 1 := by
  obtain ⟨k, hk, x, hx, hm⟩ := hu
  have hp : pts ≠ [] := by rintro rfl; simp at hx
  rcases C67_stops pts decay tol margin seq maxSteps fuel (by omega) hf hp hseq with ⟨w', h1, h2⟩ | ⟨h1, -⟩
  · rw [h] at h1
    obtain rfl := Except.ok.inj (Option.some.inj h1)
    rcases h2 with h2 | ⟨-, h2⟩
    · exact h2
    · exact absurd hm (not_le.mpr (h2 k hk x hx))
  · rw [h] at h1; cases h1

/-- **C67 is false without these conditions**: a point equal to the initial vector makes the result nan. -/
theorem C67_nan_refuted : findNormal [w0] (99 / 100) (1 / 10 ^ 5) 0 (fun _ => 0) 1000 1000 = some (.error .nan) := by
  unfold findNormal
  rw [if_neg (by norm_num), if_neg (by simp), nloop, if_neg (by norm_num), pyGet_ok (by simp)]
  have : nstep (99 / 100) 0 w0 ⟨w0, 0, []⟩ = .error .nan := by
    unfold nstep
    rw [if_pos (by unfold w0 V3.dot; norm_num)]
    simp only
    rw [if_pos (by rw [norm3_eq_zero]; ext <;> simp)]
  simp only [List.getElem_cons_zero, this]

/-- A single direction below the horizon: after the first update the vector points away from it. -/
example : ∃ w, findNormal [⟨0, 0, 1⟩] (99 / 100) (1 / 10 ^ 5) 0 (fun _ => 0) 1000 1000 = some (.ok w) ∧ norm3 w = 1 := by
  have hb : ∀ x ∈ [(⟨0, 0, 1⟩ : V3 ℝ)], norm3 x ≤ 1 ∧ x ≠ w0 := by
    intro x hx
    obtain rfl := List.mem_singleton.mp hx
    refine ⟨le_of_eq (norm3_eq_one.mpr (by simp [V3.normSq, V3.dot])), fun h => ?_⟩
    have := congrArg V3.x h
    norm_num [w0] at this
  obtain ⟨w, h1, -⟩ := C67_no_nan [⟨0, 0, 1⟩] (99 / 100) (1 / 10 ^ 5) 0 (fun _ => 0) 1000 1000 (by norm_num) le_rfl (by simp) (by simp)
    (by rw [abs_of_pos] <;> norm_num) hb
  exact ⟨w, h1, C67_unit _ _ _ _ _ _ _ le_rfl (by simp) w h1 ⟨0, by norm_num, _, rfl, by unfold w0 V3.dot; norm_num⟩⟩

/-- Without steps, and without points, the call raises. -/
theorem C67_raises (pts : List (V3 ℝ)) (decay tol margin : ℝ) (seq : ℕ → ℕ) (fuel n : ℕ) :
    findNormal pts decay tol margin seq 0 fuel = some (.error .index) ∧
    findNormal [] decay tol margin seq (n + 1) fuel = some (.error .value) := by
  unfold findNormal
  exact ⟨if_pos rfl, by rw [if_neg (by omega), if_pos rfl]⟩

end CZ
