import Verif.Props.LkResidual
import Verif.Model.LkRuns
/-!
# C96: forward fitting with gradient residuals
-/

namespace Menpofit
open Matrix GN Dft Lk

variable {c h w n : Nat} {Im T : Type}

/-- C96 is violated by forward fitting with gradient residuals: the increments, and with them all that a fit returns, are the
same for all templates, forward additive as well as forward compositional, with gradient images as well as with gradient
correlation. -/
theorem C96_template_ignored_violated {S V : Type} (env : Lk.Env c h w Im T) (tr : Transform n T S V)
    (add : T → (Fin n → ℝ) → T) (dW : T → Jac h w n) (dW' : Jac h w n) (template template' : Planes c h w) (eps : ℝ) (t : T)
    (im : Im) (initial : S) (maxIters : Int) :
    (∀ s, faRun (gradientImages env) env tr add dW template eps s t im initial maxIters =
      faRun (gradientImages env) env tr add dW template' eps s t im initial maxIters) ∧
    (∀ s, faRun (gradientCorrelation env) env tr add dW template eps s t im initial maxIters =
      faRun (gradientCorrelation env) env tr add dW template' eps s t im initial maxIters) ∧
    (∀ s, fcRun (gradientImages env) env tr dW' template eps s t im initial maxIters =
      fcRun (gradientImages env) env tr dW' template' eps s t im initial maxIters) ∧
    (∀ s, fcRun (gradientCorrelation env) env tr dW' template eps s t im initial maxIters =
      fcRun (gradientCorrelation env) env tr dW' template' eps s t im initial maxIters) :=
  ⟨fun _ => rfl, fun _ => rfl, fun _ => rfl, fun _ => rfl⟩

/-- C96 is violated by forward compositional fitting with gradient images: the increment is not a least squares solution of
the linearised difference of the regularised gradients of the warped image and of the template, unless that difference is
orthogonal to the steepest descent images, when there is nothing to gain. -/
theorem C96_forward_violated (env : Lk.Env c h w Im T) (dW : Jac h w n) (template iwxp : Planes c h w)
    (s s' : Option (Fin 2 → Planes c h w)) (dp : Fin n → ℝ)
    (hdp : fcIncrement (gradientImages env) dW template s iwxp = .ok (s', dp)) (k : Fin n)
    (hk : ∑ x : Fin 2 × Px c h w, gradientSdi env (regularise (env.grad iwxp)) dW x k *
      (regularise (env.grad iwxp) x.1 x.2.1 x.2.2 - regularise (env.grad template) x.1 x.2.1 x.2.2) ≠ 0) :
    ¬ Spec.UniqueMin (fun d => ∑ x : Fin 2 × Px c h w, (regularise (env.grad iwxp) x.1 x.2.1 x.2.2 +
      ∑ k, gradientSdi env (regularise (env.grad iwxp)) dW x k * d k -
        regularise (env.grad template) x.1 x.2.1 x.2.2) ^ 2) dp := by
  obtain rfl := (C61_forward_compositional_violated env dW template iwxp).1 s s' dp hdp
  obtain ⟨J, hJ⟩ : ∃ J, J = gradientSdi env (regularise (env.grad iwxp)) dW := ⟨_, rfl⟩
  obtain ⟨g, hg⟩ : ∃ g, g = regularise (env.grad iwxp) := ⟨_, rfl⟩
  obtain ⟨g', hg'⟩ : ∃ g', g' = regularise (env.grad template) := ⟨_, rfl⟩
  intro hmin
  rw [← hg] at hJ
  simp only [← hg, ← hg'] at hmin hk
  rw [← hJ] at hmin hk
  obtain ⟨b, hb⟩ : ∃ b, b = ∑ x : Fin 2 × Px c h w, J x k * (g x.1 x.2.1 x.2.2 - g' x.1 x.2.1 x.2.2) := ⟨_, rfl⟩
  obtain ⟨a, ha⟩ : ∃ a, a = ∑ x : Fin 2 × Px c h w, J x k ^ 2 := ⟨_, rfl⟩
  have ha0 : 0 ≤ a := ha ▸ Finset.sum_nonneg fun _ _ => sq_nonneg _
  have key : ∀ t : ℝ, 0 ≤ 2 * t * b + t ^ 2 * a := by
    intro t
    have h1 := (hmin (Pi.single k t)).1
    simp only [Pi.zero_apply, mul_zero, Finset.sum_const_zero, add_zero] at h1
    have h2 : ∀ x : Fin 2 × Px c h w, ∑ i, J x i * (Pi.single k t : Fin n → ℝ) i = J x k * t := by
      intro x
      rw [Finset.sum_eq_single k]
      · simp
      · intro i _ hi; simp [hi]
      · simp
    simp only [h2] at h1
    rw [ha, hb, Finset.mul_sum, Finset.mul_sum, ← Finset.sum_add_distrib]
    rw [← sub_nonneg, ← Finset.sum_sub_distrib] at h1
    refine le_of_le_of_eq h1 (Finset.sum_congr rfl fun x _ => by ring)
  have hk' : b ≠ 0 := hb ▸ hk
  have h3 := key (-b / (a + 1))
  have h4 : 2 * (-b / (a + 1)) * b + (-b / (a + 1)) ^ 2 * a = -(b ^ 2 * (a + 2)) / (a + 1) ^ 2 := by
    field_simp
    ring
  rw [h4] at h3
  have h5 : 0 < b ^ 2 * (a + 2) / (a + 1) ^ 2 := by positivity
  rw [neg_div] at h3
  linarith

/-- An image that differs from a grey template in the direction of a steepest descent image. -/
example : ∑ x : Fin 2 × Px 1 1 2, gradientSdi rowEnv (regularise (rowEnv.grad ramp)) shiftJac x 0 *
    (regularise (rowEnv.grad ramp) x.1 x.2.1 x.2.2 - regularise (rowEnv.grad fun _ _ => 5) x.1 x.2.1 x.2.2) ≠ 0 := by
  have h1 : regularise (rowEnv.grad ramp) 1 0 (0, 1) = -(1 / 2) := by
    unfold regularise
    rw [ramp_magnitude, ramp_median]
    norm_num [rowEnv, ramp]
  have h2 : regularise (rowEnv.grad ramp) 1 0 (0, 0) = 1 / 2 := by
    unfold regularise
    rw [ramp_magnitude, ramp_median]
    norm_num [rowEnv, ramp]
  have h3 : ∀ e i p, regularise (rowEnv.grad fun _ _ => 5) e i p = 0 := by
    intro e i p
    simp [regularise, rowEnv]
  obtain ⟨g, hg⟩ : ∃ g, g = regularise (rowEnv.grad ramp) := ⟨_, rfl⟩
  rw [← hg] at h1 h2 ⊢
  simp only [h3, sub_zero]
  simp only [Fintype.sum_prod_type, Fin.sum_univ_two, Fin.sum_univ_one, gradientSdi, fixCrossed, shiftJac, rowEnv]
  norm_num [h1, h2, show ((1 : Fin 2) + 1) = 0 from rfl]

end Menpofit
