import Verif.Spec.Downhill
import Verif.Lemmas.AamSolvers
import Mathlib.Analysis.Calculus.Deriv.Slope
import Mathlib.Analysis.Calculus.Deriv.Comp
import Mathlib.Analysis.Calculus.Deriv.Mul
import Mathlib.Algebra.QuadraticDiscriminant
/-! # Lemmas: steps that start downhill -/

namespace Menpofit

open Matrix Spec Optim

section
variable {V : Type} [NormedAddCommGroup V] [NormedSpace ℝ V]

theorem fallsAlong_of_deriv {F : V → ℝ} {p d : V} {F' : V →L[ℝ] ℝ} (hF : HasFDerivAt F F' p)
    (hd : F' d < 0) : FallsAlong F p d := by
  have hl : HasDerivAt (fun t : ℝ => p + t • d) d 0 := by
    have := ((hasDerivAt_id (0 : ℝ)).smul_const d).const_add p
    simpa using this
  have h : HasDerivAt (fun t : ℝ => F (p + t • d)) (F' d) 0 := by
    have hF0 : HasFDerivAt F F' (p + (0 : ℝ) • d) := by simpa using hF
    exact hF0.comp_hasDerivAt (0 : ℝ) hl
  rw [hasDerivAt_iff_tendsto_slope] at h
  have h2 := h.eventually (Iio_mem_nhds hd)
  rw [eventually_nhdsWithin_iff, Metric.eventually_nhds_iff] at h2
  obtain ⟨δ, hδ, h3⟩ := h2
  refine ⟨δ, hδ, fun t h0 ht => ?_⟩
  have h4 := h3 (y := t) (by simpa [abs_of_pos h0] using ht) (ne_of_gt h0)
  simp only [slope, vsub_eq_sub, sub_zero, zero_smul, add_zero, smul_eq_mul, Set.mem_Iio] at h4
  have h5 : 0 < t⁻¹ := inv_pos.mpr h0
  by_contra hc
  push Not at hc
  have := mul_nonneg h5.le (sub_nonneg.mpr hc)
  linarith

theorem linear_zero {a b : ℝ} (h : ∀ x : ℝ, 0 ≤ a * (x * x) + b * x + 0) : b = 0 := by
  have := discrim_le_zero h
  unfold discrim at this
  nlinarith [sq_nonneg b]

/-- The minimiser of a quadratic model that is exact to first order starts downhill. -/
theorem downhill_of_model {F M : V → ℝ} {p d : V} {F' : V →L[ℝ] ℝ} (hF : HasFDerivAt F F' p)
    (q : V → ℝ) (hq : ∀ (t : ℝ) e, q (t • e) = t ^ 2 * q e) (hM : ∀ e, M e = F p + F' e + q e)
    (hmin : ∀ e, M d ≤ M e ∧ (M e = M d → e = d)) : StartsDownhill F p (p + d) := by
  by_cases hd : d = 0
  · refine Or.inl ⟨by rw [hd, add_zero], ?_⟩
    have : F' = 0 := by
      ext e
      show F' e = 0
      apply linear_zero (a := q e)
      intro x
      have h := (hmin (x • e)).1
      have h0 : q d = 0 := by
        have := hq 0 0
        rw [hd]; simpa using this
      rw [hM, hM, hq, h0, hd, map_zero, map_smul, smul_eq_mul] at h
      nlinarith
    rw [this] at hF
    exact hF
  · refine Or.inr ⟨by simpa using hd, ?_⟩
    rw [add_sub_cancel_left]
    apply fallsAlong_of_deriv hF
    have h1 : F' d + 2 * q d = 0 := by
      apply linear_zero (a := q d)
      intro x
      have h := (hmin ((1 + x) • d)).1
      rw [hM, hM, hq, map_smul, smul_eq_mul] at h
      nlinarith
    have h2 : q d + F' d ≤ 0 := by
      have h := (hmin ((0 : ℝ) • d)).1
      rw [hM, hM, hq, map_smul, smul_eq_mul] at h
      nlinarith
    have h3 : q d + F' d ≠ 0 := by
      intro h0
      have h := (hmin 0).2 (by
        have h4 := hq 0 0
        rw [hM, hM, map_zero]
        have : q 0 = 0 := by simpa using h4
        linarith)
      exact hd h.symm
    rcases lt_or_eq_of_le h2 with h | h
    · linarith
    · exact absurd h h3

theorem sqNorm_hasFDerivAt {m : Nat} {G : V → Fin m → ℝ} {G' : V →L[ℝ] (Fin m → ℝ)} {p : V}
    (hG : HasFDerivAt G G' p) : ∃ D : V →L[ℝ] ℝ, HasFDerivAt (fun q => sqNorm (G q)) D p ∧
      ∀ e, D e = 2 * (G p ⬝ᵥ G' e) := by
  have h1 : ∀ i, HasFDerivAt (fun q => G q i) ((ContinuousLinearMap.proj i).comp G') p := fun i =>
    (hasFDerivAt_pi'.mp hG) i
  refine ⟨∑ i, (2 * G p i) • (ContinuousLinearMap.proj i).comp G', ?_, ?_⟩
  · have := HasFDerivAt.fun_sum (u := Finset.univ) fun i (_ : i ∈ Finset.univ) => (h1 i).pow 2
    simp only [sqNorm]
    refine this.congr_fderiv (Finset.sum_congr rfl fun i _ => ?_)
    simp
  · intro e
    simp only [_root_.sum_apply, _root_.smul_apply, ContinuousLinearMap.comp_apply,
      ContinuousLinearMap.proj_apply, smul_eq_mul, dotProduct, Finset.mul_sum]
    exact Finset.sum_congr rfl fun i _ => by ring

/-- The minimiser of the linearised residual energy, with a quadratic penalty. -/
theorem downhill_of_residual {m : Nat} {G : V → Fin m → ℝ} {G' : V →L[ℝ] (Fin m → ℝ)} {p d : V}
    (hG : HasFDerivAt G G' p) {B : V → ℝ} {B' : V →L[ℝ] ℝ} (hB : HasFDerivAt B B' p) (b : V → ℝ)
    (hb : ∀ (t : ℝ) e, b (t • e) = t ^ 2 * b e) (hBe : ∀ e, B (p + e) = B p + B' e + b e)
    (hmin : ∀ e, sqNorm (G p + G' d) + B (p + d) ≤ sqNorm (G p + G' e) + B (p + e) ∧
      (sqNorm (G p + G' e) + B (p + e) = sqNorm (G p + G' d) + B (p + d) → e = d)) :
    StartsDownhill (fun q => sqNorm (G q) + B q) p (p + d) := by
  obtain ⟨D, h1, h2⟩ := sqNorm_hasFDerivAt hG
  refine downhill_of_model (M := fun e => sqNorm (G p + G' e) + B (p + e)) (h1.add hB)
    (fun e => sqNorm (G' e) + b e) ?_ ?_ hmin
  · intro t e
    simp only [hb, map_smul, sqNorm, Pi.smul_apply, smul_eq_mul, mul_add, Finset.mul_sum]
    congr 1
    exact Finset.sum_congr rfl fun i _ => by ring
  · intro e
    have : sqNorm (G p + G' e) = sqNorm (G p) + 2 * (G p ⬝ᵥ G' e) + sqNorm (G' e) := by
      simp only [sqNorm, dotProduct, Pi.add_apply, Finset.mul_sum, ← Finset.sum_add_distrib]
      exact Finset.sum_congr rfl fun i _ => by ring
    simp only [this, hBe, _root_.add_apply, h2]
    ring

end

theorem priorEnergy_quadratic {n : Nat} (w p : Fin n → ℝ) : ∃ B' : (Fin n → ℝ) →L[ℝ] ℝ,
    HasFDerivAt (priorEnergy w) B' p ∧
      ∀ e, priorEnergy w (p + e) = priorEnergy w p + B' e + priorEnergy w e := by
  have h1 : ∀ i : Fin n, HasFDerivAt (fun q : Fin n → ℝ => q i) (ContinuousLinearMap.proj i) p :=
    fun i => (ContinuousLinearMap.proj (R := ℝ) (φ := fun _ : Fin n => ℝ) i).hasFDerivAt
  refine ⟨∑ i, (w i * (2 * p i)) • ContinuousLinearMap.proj i, ?_, ?_⟩
  · have := HasFDerivAt.fun_sum (u := Finset.univ) fun i (_ : i ∈ Finset.univ) =>
      ((h1 i).pow 2).const_mul (w i)
    have e : priorEnergy w = fun q : Fin n → ℝ => ∑ i, w i * q i ^ 2 := rfl
    rw [e]
    refine this.congr_fderiv (Finset.sum_congr rfl fun i _ => ?_)
    simp [smul_smul]
  · intro e
    simp only [priorEnergy, _root_.sum_apply, _root_.smul_apply,
      ContinuousLinearMap.proj_apply, smul_eq_mul, Pi.add_apply, ← Finset.sum_add_distrib]
    exact Finset.sum_congr rfl fun i _ => by ring

theorem priorEnergy_smul {n : Nat} (w : Fin n → ℝ) (t : ℝ) (e : Fin n → ℝ) :
    priorEnergy w (t • e) = t ^ 2 * priorEnergy w e := by
  simp only [priorEnergy, Finset.mul_sum, Pi.smul_apply, smul_eq_mul]
  exact Finset.sum_congr rfl fun i _ => by ring

/-- Neighbours in the list of parameters of a run come from one step. -/
theorem run_consecutive {σ S V C E : Type} [LinearOrder E] (mc : Machine σ S V C E) (maxIters : Int) (tol : E)
    (costs : Bool) (I : σ → Prop) (s : σ) (r : Trace S V C) (h0 : I s)
    (hstep : ∀ s s' e, I s → mc.step s = (s', .ok e) → I s')
    (h : (Optim.run mc false maxIters tol costs s).2 = .ok r) {x y : V} (hxy : Consecutive r.params x y) :
    ∃ s s' e, I s ∧ mc.step s = (s', .ok e) ∧ mc.params s = x ∧ mc.params s' = y := by
  obtain ⟨N, st, mv, h1, h2, h3, h4, h5, _, h7, h8, h9, h10⟩ :=
    loop_spec mc false maxIters tol _ 0 none s _ _ r rfl (Prod.ext rfl h)
  have hI : ∀ i, i ≤ N → I (st i) := by
    intro i
    induction i with
    | zero => intro _; rw [h1]; exact h0
    | succ i ih => intro hi; exact hstep _ _ _ (ih (by omega)) (h4 i (by omega))
  have hp : r.params = (List.range (N + 1)).map fun i => mc.params (st i) := by
    rw [h9, List.range_succ_eq_map]; simp [h1, Function.comp_def]
  obtain ⟨k, hk, hk'⟩ := hxy
  rw [hp, List.getElem?_map] at hk hk'
  have hkN : k + 1 < N + 1 := by
    by_contra hc
    rw [List.getElem?_eq_none (by simpa using hc)] at hk'
    cases hk'
  rw [List.getElem?_range (by omega)] at hk hk'
  exact ⟨st k, st (k + 1), mv k, hI k (by omega), h4 k (by omega), by simpa using hk, by simpa using hk'⟩

/-- Every entry after the first comes from a step. -/
theorem run_later {σ S V C E : Type} [LinearOrder E] (mc : Machine σ S V C E) (maxIters : Int) (tol : E)
    (costs : Bool) (I : σ → Prop) (s : σ) (r : Trace S V C) (h0 : I s)
    (hstep : ∀ s s' e, I s → mc.step s = (s', .ok e) → I s')
    (h : (Optim.run mc false maxIters tol costs s).2 = .ok r) {k : Nat} {y : V} (hk : r.params[k + 1]? = some y) :
    ∃ s s' e, I s ∧ mc.step s = (s', .ok e) ∧ mc.params s' = y := by
  have hlt : k + 1 < r.params.length := by
    by_contra hc
    rw [List.getElem?_eq_none (by omega)] at hk
    cases hk
  obtain ⟨s, s', e, h1, h2, -, h4⟩ := run_consecutive mc maxIters tol costs I s r h0 hstep h
    (x := r.params[k]'(by omega)) (y := y) ⟨k, List.getElem?_eq_getElem _, hk⟩
  exact ⟨s, s', e, h1, h2, h4⟩

end Menpofit
