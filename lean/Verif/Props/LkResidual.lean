import Verif.Lemmas.LkResidual
import Verif.Lemmas.Optim
/-!
# Lucas-Kanade residuals (C60, C61, C91-C94)
-/

namespace Menpofit
open Matrix GN Dft Lk

variable {c h w n : Nat} {Im T : Type}

/-! ## C60: the Fourier residual -/

/-- C60.  Without a kernel, `FourierSSD` gives the increments of `SSD` in all three algorithms, and raises
exactly when `SSD` raises. -/
theorem C60_same_update (env : Env c h w Im T) (dW : Jac h w n) (template : Planes c h w) :
    (∀ im t, faIncrement (fourierSsd env none) env dW template () im t =
      faIncrement (ssd env none) env dW template () im t) ∧
    (∀ iwxp, fcIncrement (fourierSsd env none) dW template () iwxp =
      fcIncrement (ssd env none) dW template () iwxp) ∧
    (∀ iwxp, (icPrecompute (fourierSsd env none) dW template ()).bind
        (fun pre => icIncrement (fourierSsd env none) pre template iwxp) =
      (icPrecompute (ssd env none) dW template ()).bind
        (fun pre => icIncrement (ssd env none) pre template iwxp)) := by
  refine ⟨fun im t => ?_, fun iwxp => ?_, fun iwxp => ?_⟩
  · simp only [faIncrement, fourierSsd, ssd, bind, Except.bind, pure, Except.pure]
    rw [solve_fourier _ _ (map_isReal _)]
  · simp only [fcIncrement, fourierSsd, ssd, bind, Except.bind, pure, Except.pure]
    rw [solve_fourier _ _ (map_isReal _)]
  · simp only [icPrecompute, icIncrement, fourierSsd, ssd, bind, Except.bind, pure, Except.pure]
    rw [solve_fourier _ _ (map_isReal _)]

/-- C60, with a kernel: the same holds for every kernel of the frequency domain that maps real images to real
images. -/
theorem C60_same_update_kernel (env : Env c h w Im T) (dW : Jac h w n) (template : Planes c h w)
    (k : Pos h w → ℂ) (hk : Spec.RealFilter fun x => ifft2 (k * fft2 x)) :
    (∀ im t, faIncrement (fourierSsd env (some k)) env dW template () im t =
      faIncrement (ssd env (some k)) env dW template () im t) ∧
    (∀ iwxp, fcIncrement (fourierSsd env (some k)) dW template () iwxp =
      fcIncrement (ssd env (some k)) dW template () iwxp) ∧
    (∀ iwxp, (icPrecompute (fourierSsd env (some k)) dW template ()).bind
        (fun pre => icIncrement (fourierSsd env (some k)) pre template iwxp) =
      (icPrecompute (ssd env (some k)) dW template ()).bind
        (fun pre => icIncrement (ssd env (some k)) pre template iwxp)) := by
  refine ⟨fun im t => ?_, fun iwxp => ?_, fun iwxp => ?_⟩
  · simp only [faIncrement, fourierSsd, ssd, bind, Except.bind, pure, Except.pure, filtered_fourier]
    rw [solve_fourier _ _ (filtered_isReal hk _)]
  · simp only [fcIncrement, fourierSsd, ssd, bind, Except.bind, pure, Except.pure, filtered_fourier]
    rw [solve_fourier _ _ (filtered_isReal hk _)]
  · simp only [icPrecompute, icIncrement, fourierSsd, ssd, bind, Except.bind, pure, Except.pure,
      filtered_fourier]
    rw [solve_fourier _ _ (filtered_isReal hk _)]

/-- A kernel that meets the hypothesis: amplification of every frequency by the same real factor. -/
example (hh : 0 < h) (hw : 0 < w) (a : ℝ) :
    Spec.RealFilter fun x : Pos h w → ℂ => ifft2 ((fun _ => (a : ℂ)) * fft2 x) := by
  intro x
  refine ⟨fun p => a * x p, ?_⟩
  have e : ((fun _ => (a : ℂ)) * fft2 fun i => (x i : ℂ)) = fft2 ((a : ℂ) • fun i => (x i : ℂ)) := by
    unfold fft2; rw [mulVec_smul]; rfl
  simp only [e]
  rw [ifft2_fft2 hh hw]
  funext p
  simp

/-! ## C61: a residual is zero only when the images agree -/

/-- C61, inverse compositional fitting with gradient images: the cost of a warped image is zero if and only if
its gradients agree with the template's up to one positive factor (the contrast).  Missing: forward
compositional and forward additive fitting (`C61_forward_compositional_violated`), and images of which half
the pixels have no gradient (NumPy's division by zero). -/
theorem C61_inverse_gradient_images_partial (env : Env c h w Im T) (dW : Jac h w n)
    (template iwxp : Planes c h w) (s : Option (Fin 2 → Planes c h w))
    (pre : Option (Fin 2 → Planes c h w) × Matrix (Fin 2 × Px c h w) (Fin n) ℝ × Matrix (Fin n) (Fin n) ℝ)
    (hpre : icPrecompute (gradientImages env) dW template s = .ok pre)
    (hm : 0 < medianMagnitude (env.grad template)) (hm' : 0 < medianMagnitude (env.grad iwxp)) :
    ∃ g, pre.1 = some g ∧
      (gradientCost env g iwxp = 0 ↔
        Spec.SameUpToGain (fun x : Fin 2 × Px c h w => env.grad template x.1 x.2.1 x.2.2)
          fun x => env.grad iwxp x.1 x.2.1 x.2.2) := by
  simp only [icPrecompute, gradientImages, bind, Except.bind, pure, Except.pure] at hpre
  injection hpre with hpre
  subst hpre
  refine ⟨regularise (env.grad template), rfl, ?_⟩
  unfold gradientCost
  rw [dotProduct_self_eq_zero]
  constructor
  · intro h0
    have he : regularise (env.grad iwxp) = regularise (env.grad template) := by
      funext d i p
      have := congrFun h0 (d, i, p)
      exact sub_eq_zero.1 this
    exact ⟨_, div_pos hm' hm, fun x => regularise_inj hm hm' he x.1 x.2.1 x.2.2⟩
  · rintro ⟨a, ha, hg⟩
    have he := regularise_gain ha fun d i p => hg (d, i, p)
    funext x
    unfold gradientError
    rw [he]
    simp

/-- C61, inverse compositional fitting with gradient correlation: the residual vanishes at a pixel with
gradients if and only if the gradients are parallel there.  Missing: opposite orientations
(`C61_opposite_orientation_violated`), forward compositional fitting
(`C61_forward_compositional_violated`). -/
theorem C61_inverse_gradient_correlation_partial (env : Env c h w Im T) (dW : Jac h w n)
    (template iwxp : Planes c h w) (s : Option (Planes c h w))
    (pre : Option (Planes c h w) × Matrix (Px c h w) (Fin n) ℝ × Matrix (Fin n) (Fin n) ℝ)
    (hpre : icPrecompute (gradientCorrelation env) dW template s = .ok pre) (x : Px c h w)
    (hg : ∃ d, env.grad template d x.1 x.2 ≠ 0) (hg' : ∃ d, env.grad iwxp d x.1 x.2 ≠ 0) :
    ∃ phi, pre.1 = some phi ∧
      (correlationError phi (orientation (env.grad iwxp)) x = 0 ↔
        Spec.Parallel (fun d => env.grad template d x.1 x.2) fun d => env.grad iwxp d x.1 x.2) := by
  simp only [icPrecompute, gradientCorrelation, bind, Except.bind, pure, Except.pure] at hpre
  injection hpre with hpre
  subst hpre
  refine ⟨orientation (env.grad template), rfl, ?_⟩
  have key : ∀ g : Fin 2 → Planes c h w, (∃ d, g d x.1 x.2 ≠ 0) →
      (⟨g 1 x.1 x.2, g 0 x.1 x.2⟩ : ℂ) ≠ 0 := by
    rintro g ⟨d, hd⟩ h0
    have h1 := congrArg Complex.re h0
    have h2 := congrArg Complex.im h0
    simp only [Complex.zero_re, Complex.zero_im] at h1 h2
    fin_cases d
    · exact hd h2
    · exact hd h1
  exact correlationError_cross _ _ x (key _ hg) (key _ hg')

/-- C61 is violated for gradient correlation in inverse compositional fitting: wherever the warped image's
gradients are opposite to the template's, the residual vanishes and the increment is zero. -/
theorem C61_opposite_orientation_violated (env : Env c h w Im T) (dW : Jac h w n) (template iwxp : Planes c h w)
    (hopp : ∀ d i p, env.grad iwxp d i p = -env.grad template d i p)
    (hne : ∀ i p, ∃ d, env.grad template d i p ≠ 0) (s : Option (Planes c h w))
    (pre : Option (Planes c h w) × Matrix (Px c h w) (Fin n) ℝ × Matrix (Fin n) (Fin n) ℝ)
    (hpre : icPrecompute (gradientCorrelation env) dW template s = .ok pre)
    (s' : Option (Planes c h w)) (dp : Fin n → ℝ)
    (hdp : icIncrement (gradientCorrelation env) pre template iwxp = .ok (s', dp)) : dp = 0 := by
  have hpre' := hpre
  simp only [icPrecompute, gradientCorrelation, bind, Except.bind, pure, Except.pure] at hpre'
  injection hpre' with hpre'
  have herr : correlationError (orientation (env.grad template)) (orientation (env.grad iwxp)) = 0 := by
    funext x
    obtain ⟨d, hd⟩ := hne x.1 x.2
    obtain ⟨phi, h1, h2⟩ := C61_inverse_gradient_correlation_partial env dW template iwxp s pre hpre x ⟨d, hd⟩
      ⟨d, by rw [hopp]; exact neg_ne_zero.2 hd⟩
    rw [← hpre'] at h1
    injection h1 with h1
    rw [← h1] at h2
    refine h2.2 ?_
    show env.grad template 0 x.1 x.2 * env.grad iwxp 1 x.1 x.2 =
      env.grad template 1 x.1 x.2 * env.grad iwxp 0 x.1 x.2
    rw [hopp, hopp]; ring
  rw [← hpre'] at hdp
  simp only [icIncrement, gradientCorrelation, gradientOf, bind, Except.bind, pure, Except.pure, herr,
    mulVec_zero, smul_zero] at hdp
  obtain ⟨d, hd, h1⟩ := bind_ok hdp
  injection h1 with h1
  injection h1 with _ h2
  rw [← h2, npSolve_zero hd]

/-- C61 is violated in forward compositional fitting with gradient images and with gradient correlation:
the increment is zero for all images and templates. -/
theorem C61_forward_compositional_violated (env : Env c h w Im T) (dW : Jac h w n)
    (template iwxp : Planes c h w) :
    (∀ s s' dp, fcIncrement (gradientImages env) dW template s iwxp = .ok (s', dp) → dp = 0) ∧
    (∀ s s' dp, fcIncrement (gradientCorrelation env) dW template s iwxp = .ok (s', dp) → dp = 0) := by
  constructor
  · intro s s' dp hdp
    have h0 : gradientError env (regularise (env.grad iwxp)) iwxp = 0 := by
      funext x; simp [gradientError]
    simp only [fcIncrement, gradientImages, bind, Except.bind, pure, Except.pure, gradientOf, h0,
      mulVec_zero] at hdp
    obtain ⟨d, hd, h1⟩ := bind_ok hdp
    injection h1 with h1
    injection h1 with _ h2
    rw [← h2, npSolve_zero hd, neg_zero]
  · intro s s' dp hdp
    simp only [fcIncrement, gradientCorrelation, bind, Except.bind, pure, Except.pure, gradientOf,
      correlationError_self, mulVec_zero, smul_zero] at hdp
    obtain ⟨d, hd, h1⟩ := bind_ok hdp
    injection h1 with h1
    injection h1 with _ h2
    rw [← h2, npSolve_zero hd, neg_zero]

/-- The consequence for a whole run: forward compositional fitting with gradient images stops after one
iteration at the initial shape, whatever the image and the template. -/
theorem C61_forward_compositional_run_violated {S V : Type} (env : Env c h w Im T) (tr : Transform n T S V)
    (hcomp : ∀ t, tr.compose t 0 = t) (dW : Jac h w n) (template : Planes c h w) (eps : ℝ) (heps : 0 ≤ eps)
    (s : Option (Fin 2 → Planes c h w)) (t : T) (im : Im) (initial : S) (maxIters : Int) (hmax : 0 < maxIters)
    (res : Optim.Trace S V Unit)
    (hrun : fcRun (gradientImages env) env tr dW template eps s t im initial maxIters = .ok res) :
    res.shapes = [tr.target (tr.setTarget t initial), tr.target (tr.setTarget t initial)] := by
  unfold fcRun Optim.run at hrun
  rw [loop_unfold, if_pos ⟨hmax, trivial⟩] at hrun
  obtain ⟨iwxp, hi⟩ : ∃ y, y = env.warp im (tr.setTarget t initial) := ⟨_, rfl⟩
  cases hf : fcIncrement (gradientImages env) dW template s iwxp with
  | error e =>
    simp only [fcMachine, ← hi, hf] at hrun
    cases hrun
  | ok r =>
    obtain ⟨s', dp⟩ := r
    have h0 := (C61_forward_compositional_violated env dW template iwxp).1 s s' dp hf
    subst h0
    have hstop : ¬ Optim.goOn eps (some (Real.sqrt ((0 : Fin n → ℝ) ⬝ᵥ 0))) := by
      simp [Optim.goOn, heps]
    simp only [fcMachine, ← hi, hf, hcomp] at hrun
    rw [loop_unfold, if_neg (fun h => hstop h.2)] at hrun
    injection hrun with hrun
    rw [← hrun]
    rfl

/-- An image row of two pixels with periodic differences: a setting in which the increments exist. -/
noncomputable def rowEnv : Lk.Env 1 1 2 (Planes 1 1 2) Unit where
  warp im _ := im
  grad x d := fun i p => if d = 0 then 0 else x i (p.1, p.2 + 1) - x i p
  fwdGrad im _ d := fun i p => if d = 0 then 0 else im i (p.1, p.2 + 1) - im i p
  normIm im := .ok im

/-- Horizontal translation. -/
def shiftJac : Jac 1 2 1 := fun d _ _ => if d = 0 then 0 else 1

/-- A black and a white pixel. -/
def ramp : Planes 1 1 2 := fun _ p => (p.2 : ℕ)

theorem ramp_magnitude (p : Pos 1 2) : magnitude (rowEnv.grad ramp) p = 1 := by
  obtain ⟨p1, p2⟩ := p
  unfold magnitude
  fin_cases p2 <;> simp [rowEnv, ramp]

theorem ramp_median : medianMagnitude (rowEnv.grad ramp) = 1 := by
  unfold medianMagnitude
  have hl : ((Finset.univ : Finset (Pos 1 2)).toList.map (magnitude (rowEnv.grad ramp))) ≠ [] := by
    simp [Finset.univ_nonempty.ne_empty]
  have := npMedian_bounds _ hl 1 1 (by
    intro x hx
    obtain ⟨p, _, rfl⟩ := List.mem_map.1 hx
    rw [ramp_magnitude]; simp)
  exact le_antisymm this.2 this.1

/-- The hypotheses of `C61_forward_compositional_violated` are met by an image that differs from a grey
template: the increment exists, and is zero. -/
example : ∃ s', fcIncrement (gradientImages rowEnv) shiftJac (fun _ _ => 5) none ramp = .ok (s', 0) := by
  have hs : gradientSdi rowEnv (regularise (rowEnv.grad ramp)) shiftJac (1, 0, (0, 0)) 0 = -1 := by
    have h1 : regularise (rowEnv.grad ramp) 1 0 (0, 1) = -(1 / 2) := by
      unfold regularise
      rw [ramp_magnitude, ramp_median]
      norm_num [rowEnv, ramp]
    have h2 : regularise (rowEnv.grad ramp) 1 0 (0, 0) = 1 / 2 := by
      unfold regularise
      rw [ramp_magnitude, ramp_median]
      norm_num [rowEnv, ramp]
    obtain ⟨g, hg⟩ : ∃ g, g = regularise (rowEnv.grad ramp) := ⟨_, rfl⟩
    rw [← hg] at h1 h2 ⊢
    simp only [gradientSdi, Fin.sum_univ_two, fixCrossed, shiftJac, rowEnv]
    norm_num [h1, h2]
  obtain ⟨S, hS⟩ : ∃ S, S = gradientSdi rowEnv (regularise (rowEnv.grad ramp)) shiftJac := ⟨_, rfl⟩
  rw [← hS] at hs
  have hdet : (Sᵀ * S).det ≠ 0 := by
    rw [det_fin_one, mul_apply]
    have : 0 < ∑ x, Sᵀ 0 x * S x 0 := by
      apply Finset.sum_pos'
      · intro x _; exact mul_self_nonneg (S x 0)
      · refine ⟨(1, 0, (0, 0)), Finset.mem_univ _, ?_⟩
        show 0 < S _ 0 * S _ 0
        rw [hs]; norm_num
    exact this.ne'
  have h0 : gradientError rowEnv (regularise (rowEnv.grad ramp)) ramp = 0 := by
    funext x; simp [gradientError]
  refine ⟨some (regularise (rowEnv.grad ramp)), ?_⟩
  simp only [fcIncrement, gradientImages, bind, Except.bind, pure, Except.pure, gradientOf, h0, mulVec_zero, ← hS,
    npSolve, if_neg hdet, neg_zero]

/-- The hypotheses of `C61_inverse_gradient_images_partial` are met by the same image. -/
example : 0 < medianMagnitude (rowEnv.grad ramp) := by rw [ramp_median]; norm_num

/-! ## C91: illumination -/

/-- C91, ECC: the increments of forward and inverse compositional fitting do not depend on the contrast and
brightness of the image or of the template. -/
theorem C91_ecc (env : Lk.Env c h w Im T) (dW : Jac h w n) (template template' x x' : Planes c h w)
    (hx : Spec.Relit (fun i : Px c h w => x i.1 i.2) fun i => x' i.1 i.2)
    (ht : Spec.Relit (fun i : Px c h w => template i.1 i.2) fun i => template' i.1 i.2) (s : EccState n) :
    fcIncrement (ecc env) dW template' s x' = fcIncrement (ecc env) dW template s x ∧
    (icPrecompute (ecc env) dW template' s).bind (fun pre => icIncrement (ecc env) pre template' x') =
      (icPrecompute (ecc env) dW template s).bind (fun pre => icIncrement (ecc env) pre template x) := by
  have e1 := normalise_relit hx
  have e2 := normalise_relit ht
  constructor
  · simp only [fcIncrement, ecc, normaliseSource, e1, e2]
  · simp only [icPrecompute, icIncrement, ecc, normaliseSource, e1, e2]

/-- C91, gradient images and gradient correlation. -/
theorem C91_gradient (env : Lk.Env c h w Im T) (hgrad : Spec.IsGradient env.grad) (dW : Jac h w n)
    (template template' x x' : Planes c h w)
    (hx : Spec.Relit (fun i : Px c h w => x i.1 i.2) fun i => x' i.1 i.2)
    (ht : Spec.Relit (fun i : Px c h w => template i.1 i.2) fun i => template' i.1 i.2) :
    (∀ s, (icPrecompute (gradientImages env) dW template' s).bind
        (fun pre => icIncrement (gradientImages env) pre template' x') =
      (icPrecompute (gradientImages env) dW template s).bind
        (fun pre => icIncrement (gradientImages env) pre template x)) ∧
    (∀ s, (icPrecompute (gradientCorrelation env) dW template' s).bind
        (fun pre => icIncrement (gradientCorrelation env) pre template' x') =
      (icPrecompute (gradientCorrelation env) dW template s).bind
        (fun pre => icIncrement (gradientCorrelation env) pre template x)) := by
  obtain ⟨a, b, ha, hx⟩ := hx
  obtain ⟨a', b', ha', ht⟩ := ht
  have g1 := hgrad x x' a b fun i p => hx (i, p)
  have g2 := hgrad template template' a' b' fun i p => ht (i, p)
  have r1 := regularise_gain ha g1
  have r2 := regularise_gain ha' g2
  have o1 := orientation_gain ha g1
  have o2 := orientation_gain ha' g2
  constructor
  · intro s
    simp only [icPrecompute, icIncrement, gradientImages, gradientOf, gradientError, bind, Except.bind, pure,
      Except.pure, r2, funext_iff, r1]
    have : gradientError env (regularise (env.grad template)) x' =
        gradientError env (regularise (env.grad template)) x := by
      funext y; simp only [gradientError, r1]
    rw [this]
  · intro s
    simp only [icPrecompute, icIncrement, gradientCorrelation, gradientOf, bind, Except.bind, pure,
      Except.pure, o1, o2]

/-- The differences of neighbours are a gradient. -/
example : Spec.IsGradient rowEnv.grad := by
  intro x y a b hy d i p
  simp only [rowEnv]
  split
  · simp
  · rw [hy, hy]; ring

/-- A brighter image with more contrast. -/
example : Spec.Relit (fun i : Px 1 1 2 => ramp i.1 i.2) fun i => 3 * ramp i.1 i.2 + 7 :=
  ⟨3, 7, by norm_num, fun _ => rfl⟩

/-! ## C92: the Jacobian of gradient residuals -/

/-- C92, gradient images: row `(e, x)` of the steepest descent images is the derivative of component `e` of the
regularised gradient, if the crossed derivatives of the regularised gradient agree.  Missing: gradients whose
crossed derivatives differ (`C92_gradient_images_violated`). -/
theorem C92_gradient_images_partial (env : Lk.Env c h w Im T) (dW : Jac h w n) (template : Planes c h w)
    (s : Option (Fin 2 → Planes c h w)) (G : Fin 2 → Planes c h w) (J J' : Matrix (Fin 2 × Px c h w) (Fin n) ℝ)
    (hi : (gradientImages env).images s (.frame template) dW = .ok (some G, J, J'))
    (hcross : ∀ i p, env.grad (G 0) 1 i p = env.grad (G 1) 0 i p) (e : Fin 2) (i : Fin c) (p : Pos h w)
    (k : Fin n) : J (e, i, p) k = ∑ d, env.grad (G e) d i p * dW d p k := by
  simp only [gradientImages] at hi
  injection hi with hi
  injection hi with h1 h2
  injection h1 with h1
  injection h2 with h2 _
  rw [← h2, h1]
  unfold gradientSdi
  refine Finset.sum_congr rfl fun d _ => ?_
  simp only [fixCrossed]
  fin_cases d <;> fin_cases e <;> simp [hcross]

/-- C92, gradient correlation: the steepest descent images are the derivative of the orientation, if the
derivative of its sine along the second axis equals that of its cosine along the first. -/
theorem C92_gradient_correlation_partial (env : Lk.Env c h w Im T) (dW : Jac h w n) (template : Planes c h w)
    (s : Option (Planes c h w)) (phi : Planes c h w) (J J' : Matrix (Px c h w) (Fin n) ℝ)
    (hi : (gradientCorrelation env).images s (.frame template) dW = .ok (some phi, J, J'))
    (hcross : ∀ i p, env.grad (fun i p => Real.sin (phi i p)) 1 i p =
      env.grad (fun i p => Real.cos (phi i p)) 0 i p) (i : Fin c) (p : Pos h w) (k : Fin n) :
    J (i, p) k = ∑ d, Spec.orientationDerivative (phi i p) (env.grad (fun i p => Real.sin (phi i p)) d i p)
      (env.grad (fun i p => Real.cos (phi i p)) d i p) * dW d p k := by
  simp only [gradientCorrelation] at hi
  injection hi with hi
  injection hi with h1 h2
  injection h1 with h1
  injection h2 with h2 _
  rw [← h2, h1]
  simp only [correlationSdi, Fin.sum_univ_two, fixCrossed, Spec.orientationDerivative]
  simp
  rw [hcross]
  ring

/-- Two rows of two pixels with periodic differences along both axes. -/
noncomputable def squareEnv : Lk.Env 1 2 2 (Planes 1 2 2) Unit where
  warp im _ := im
  grad x d := fun i p => if d = 0 then x i (p.1 + 1, p.2) - x i p else x i (p.1, p.2 + 1) - x i p
  fwdGrad im _ d := fun i p => if d = 0 then im i (p.1 + 1, p.2) - im i p else im i (p.1, p.2 + 1) - im i p
  normIm im := .ok im

/-- Three black pixels and a white one. -/
def corner : Planes 1 2 2 := fun _ p => if p = (1, 1) then 1 else 0

/-- Translation along the second axis. -/
def shiftJac2 : Jac 2 2 1 := fun d _ _ => if d = 0 then 0 else 1

/-- C92 is violated for gradient images: a row of the steepest descent images is not the derivative of the
regularised gradient. -/
theorem C92_gradient_images_violated :
    ∃ (G : Fin 2 → Planes 1 2 2) (J J' : Matrix (Fin 2 × Px 1 2 2) (Fin 1) ℝ),
      (gradientImages squareEnv).images none (.frame corner) shiftJac2 = .ok (some G, J, J') ∧
      J (0, 0, (0, 1)) 0 ≠ ∑ d, squareEnv.grad (G 0) d 0 (0, 1) * shiftJac2 d (0, 1) 0 := by
  refine ⟨_, _, _, rfl, ?_⟩
  obtain ⟨m, hm⟩ : ∃ m, m = medianMagnitude (squareEnv.grad corner) := ⟨_, rfl⟩
  have hm0 : 0 ≤ m := by
    rw [hm]
    unfold medianMagnitude
    refine (npMedian_bounds _ ?_ 0 2 ?_).1
    · simp [Finset.univ_nonempty.ne_empty]
    · intro x hx
      obtain ⟨p, _, rfl⟩ := List.mem_map.1 hx
      refine ⟨magnitude_nonneg _ _, ?_⟩
      unfold magnitude
      rw [Real.sqrt_le_left (by norm_num)]
      obtain ⟨p1, p2⟩ := p
      fin_cases p1 <;> fin_cases p2 <;> norm_num [squareEnv, corner]
  obtain ⟨G, hG⟩ : ∃ G, G = regularise (squareEnv.grad corner) := ⟨_, rfl⟩
  have v1 : G 0 0 (0, 0) = 0 := by
    rw [hG]; unfold regularise; norm_num [squareEnv, corner]
  have v2 : G 0 0 (0, 1) = 1 / (1 + m) := by
    rw [hG]; unfold regularise; rw [← hm]
    have : magnitude (squareEnv.grad corner) (0, 1) = 1 := by
      unfold magnitude; norm_num [squareEnv, corner]
    rw [this]; norm_num [squareEnv, corner]
  have v3 : G 1 0 (0, 1) = 0 := by
    rw [hG]; unfold regularise; norm_num [squareEnv, corner]
  have v4 : G 1 0 (1, 1) = -1 / (Real.sqrt 2 + m) := by
    rw [hG]; unfold regularise; rw [← hm]
    have : magnitude (squareEnv.grad corner) (1, 1) = Real.sqrt 2 := by
      unfold magnitude; norm_num [squareEnv, corner]
    rw [this]; norm_num [squareEnv, corner]
  show gradientSdi squareEnv (regularise (squareEnv.grad corner)) shiftJac2 (0, 0, (0, 1)) 0 ≠ _
  simp only [gradientOf]
  rw [← hG]
  simp only [gradientSdi, Fin.sum_univ_two, fixCrossed, shiftJac2, squareEnv]
  have e11 : (1 + 1 : Fin 2) = 0 := rfl
  norm_num [v1, v2, v3, v4, e11]
  intro h
  have h2 : (1 : ℝ) < Real.sqrt 2 := by
    rw [Real.lt_sqrt (by norm_num)]; norm_num
  rw [div_eq_iff (by linarith)] at h
  have h3 : (1 + m) ≠ 0 := by linarith
  field_simp at h
  linarith

/-- C92 is violated for gradient correlation. -/
theorem C92_gradient_correlation_violated :
    ∃ (phi : Planes 1 2 2) (J J' : Matrix (Px 1 2 2) (Fin 1) ℝ),
      (gradientCorrelation squareEnv).images none (.frame corner) shiftJac2 = .ok (some phi, J, J') ∧
      J (0, (0, 0)) 0 ≠ ∑ d, Spec.orientationDerivative (phi 0 (0, 0))
        (squareEnv.grad (fun i p => Real.sin (phi i p)) d 0 (0, 0))
        (squareEnv.grad (fun i p => Real.cos (phi i p)) d 0 (0, 0)) * shiftJac2 d (0, 0) 0 := by
  refine ⟨_, _, _, rfl, ?_⟩
  obtain ⟨phi, hphi⟩ : ∃ phi, phi = orientation (squareEnv.grad corner) := ⟨_, rfl⟩
  have v1 : phi 0 (0, 0) = 0 := by
    rw [hphi]; unfold orientation
    have : (⟨squareEnv.grad corner 1 0 (0, 0), squareEnv.grad corner 0 0 (0, 0)⟩ : ℂ) = 0 := by
      apply Complex.ext <;> norm_num [squareEnv, corner]
    rw [this, Complex.arg_zero]
  have v2 : phi 0 (0, 1) = Real.pi / 2 := by
    rw [hphi]; unfold orientation
    have : (⟨squareEnv.grad corner 1 0 (0, 1), squareEnv.grad corner 0 0 (0, 1)⟩ : ℂ) = Complex.I := by
      apply Complex.ext <;> norm_num [squareEnv, corner]
    rw [this, Complex.arg_I]
  have v3 : phi 0 (1, 0) = 0 := by
    rw [hphi]; unfold orientation
    have : (⟨squareEnv.grad corner 1 0 (1, 0), squareEnv.grad corner 0 0 (1, 0)⟩ : ℂ) = 1 := by
      apply Complex.ext <;> norm_num [squareEnv, corner]
    rw [this, Complex.arg_one]
  show correlationSdi squareEnv (orientation (squareEnv.grad corner)) shiftJac2 (0, (0, 0)) 0 ≠ _
  simp only [gradientOf]
  rw [← hphi]
  simp only [correlationSdi, Fin.sum_univ_two, fixCrossed, shiftJac2, squareEnv, Spec.orientationDerivative]
  norm_num [v1, v2, v3]

/-! ## C93: a perfect alignment is kept -/

/-- C93, inverse compositional fitting: if the warped image equals the template, the increment is zero, for
all residuals. -/
theorem C93_inverse_compositional (env : Lk.Env c h w Im T) (dW : Jac h w n) (template : Planes c h w)
    (kernel : Option (Pos h w → ℂ)) :
    (∀ pre s dp, icPrecompute (ssd env kernel) dW template () = .ok pre →
      icIncrement (ssd env kernel) pre template template = .ok (s, dp) → dp = 0) ∧
    (∀ pre s dp, icPrecompute (fourierSsd env kernel) dW template () = .ok pre →
      icIncrement (fourierSsd env kernel) pre template template = .ok (s, dp) → dp = 0) ∧
    (∀ s₀ pre s dp, icPrecompute (ecc env) dW template s₀ = .ok pre →
      icIncrement (ecc env) pre template template = .ok (s, dp) → dp = 0) ∧
    (∀ s₀ pre s dp, icPrecompute (gradientImages env) dW template s₀ = .ok pre →
      icIncrement (gradientImages env) pre template template = .ok (s, dp) → dp = 0) ∧
    (∀ s₀ pre s dp, icPrecompute (gradientCorrelation env) dW template s₀ = .ok pre →
      icIncrement (gradientCorrelation env) pre template template = .ok (s, dp) → dp = 0) := by
  refine ⟨?_, ?_, ?_, ?_, ?_⟩
  · intro pre s dp _ hdp
    obtain ⟨⟨s1, sd⟩, hu, h1⟩ := bind_ok hdp
    obtain ⟨d, hd, h2⟩ := bind_ok h1
    injection h2 with h2
    injection h2 with _ h2
    rw [← h2]
    exact ssd_solve_zero hu hd
  · intro pre s dp _ hdp
    obtain ⟨⟨s1, sd⟩, hu, h1⟩ := bind_ok hdp
    obtain ⟨d, hd, h2⟩ := bind_ok h1
    injection h2 with h2
    injection h2 with _ h2
    rw [← h2]
    exact fourierSsd_solve_zero hu hd
  · intro s₀ pre s dp _ hdp
    obtain ⟨⟨s1, sd⟩, hu, h1⟩ := bind_ok hdp
    obtain ⟨d, hd, h2⟩ := bind_ok h1
    injection h2 with h2
    injection h2 with _ h2
    rw [← h2]
    exact ecc_solve_zero hu hd
  · intro s₀ pre s dp hpre hdp
    obtain ⟨⟨s1, sd⟩, hu, h1⟩ := bind_ok hdp
    obtain ⟨d, hd, h2⟩ := bind_ok h1
    injection h2 with h2
    injection h2 with _ h2
    injection hpre with hpre
    rw [← hpre] at hu hd
    rw [← h2]
    exact gradientImages_solve_zero hu hd
  · intro s₀ pre s dp hpre hdp
    obtain ⟨⟨s1, sd⟩, hu, h1⟩ := bind_ok hdp
    obtain ⟨d, hd, h2⟩ := bind_ok h1
    injection h2 with h2
    injection h2 with _ h2
    injection hpre with hpre
    rw [← hpre] at hu hd
    rw [← h2]
    exact gradientCorrelation_solve_zero hu hd

/-- C93, forward compositional fitting. -/
theorem C93_forward_compositional (env : Lk.Env c h w Im T) (dW : Jac h w n) (template : Planes c h w)
    (kernel : Option (Pos h w → ℂ)) :
    (∀ s dp, fcIncrement (ssd env kernel) dW template () template = .ok (s, dp) → dp = 0) ∧
    (∀ s dp, fcIncrement (fourierSsd env kernel) dW template () template = .ok (s, dp) → dp = 0) ∧
    (∀ s₀ s dp, fcIncrement (ecc env) dW template s₀ template = .ok (s, dp) → dp = 0) ∧
    (∀ s₀ s dp, fcIncrement (gradientImages env) dW template s₀ template = .ok (s, dp) → dp = 0) ∧
    (∀ s₀ s dp, fcIncrement (gradientCorrelation env) dW template s₀ template = .ok (s, dp) → dp = 0) := by
  refine ⟨?_, ?_, ?_, fun s₀ s dp => (C61_forward_compositional_violated env dW template template).1 s₀ s dp,
    fun s₀ s dp => (C61_forward_compositional_violated env dW template template).2 s₀ s dp⟩
  · intro s dp hdp
    obtain ⟨⟨s1, fJ, J⟩, _, hdp⟩ := bind_ok hdp
    obtain ⟨⟨s2, hess⟩, _, hdp⟩ := bind_ok hdp
    obtain ⟨⟨s3, sd⟩, hu, h1⟩ := bind_ok hdp
    obtain ⟨d, hd, h2⟩ := bind_ok h1
    injection h2 with h2
    injection h2 with _ h2
    rw [← h2, ssd_solve_zero hu hd, neg_zero]
  · intro s dp hdp
    obtain ⟨⟨s1, fJ, J⟩, _, hdp⟩ := bind_ok hdp
    obtain ⟨⟨s2, hess⟩, _, hdp⟩ := bind_ok hdp
    obtain ⟨⟨s3, sd⟩, hu, h1⟩ := bind_ok hdp
    obtain ⟨d, hd, h2⟩ := bind_ok h1
    injection h2 with h2
    injection h2 with _ h2
    rw [← h2, fourierSsd_solve_zero hu hd, neg_zero]
  · intro s₀ s dp hdp
    obtain ⟨⟨s1, fJ, J⟩, _, hdp⟩ := bind_ok hdp
    obtain ⟨⟨s2, hess⟩, _, hdp⟩ := bind_ok hdp
    obtain ⟨⟨s3, sd⟩, hu, h1⟩ := bind_ok hdp
    obtain ⟨d, hd, h2⟩ := bind_ok h1
    injection h2 with h2
    injection h2 with _ h2
    rw [← h2, ecc_solve_zero hu hd, neg_zero]

/-- C93, forward additive fitting with SSD, FourierSSD and ECC.  Missing: the gradient residuals
(`C93_forward_additive_violated`). -/
theorem C93_forward_additive_partial (env : Lk.Env c h w Im T) (dW : Jac h w n) (im : Im) (t : T)
    (template : Planes c h w) (haligned : env.warp im t = template) (kernel : Option (Pos h w → ℂ)) :
    (∀ s dp, faIncrement (ssd env kernel) env dW template () im t = .ok (s, dp) → dp = 0) ∧
    (∀ s dp, faIncrement (fourierSsd env kernel) env dW template () im t = .ok (s, dp) → dp = 0) ∧
    (∀ s₀ s dp, faIncrement (ecc env) env dW template s₀ im t = .ok (s, dp) → dp = 0) := by
  refine ⟨?_, ?_, ?_⟩
  · intro s dp hdp
    obtain ⟨⟨s1, fJ, J⟩, _, hdp⟩ := bind_ok hdp
    obtain ⟨⟨s2, hess⟩, _, hdp⟩ := bind_ok hdp
    obtain ⟨⟨s3, sd⟩, hu, h1⟩ := bind_ok hdp
    obtain ⟨d, hd, h2⟩ := bind_ok h1
    injection h2 with h2
    injection h2 with _ h2
    rw [haligned] at hu
    rw [← h2, ssd_solve_zero hu hd, neg_zero]
  · intro s dp hdp
    obtain ⟨⟨s1, fJ, J⟩, _, hdp⟩ := bind_ok hdp
    obtain ⟨⟨s2, hess⟩, _, hdp⟩ := bind_ok hdp
    obtain ⟨⟨s3, sd⟩, hu, h1⟩ := bind_ok hdp
    obtain ⟨d, hd, h2⟩ := bind_ok h1
    injection h2 with h2
    injection h2 with _ h2
    rw [haligned] at hu
    rw [← h2, fourierSsd_solve_zero hu hd, neg_zero]
  · intro s₀ s dp hdp
    obtain ⟨⟨s1, fJ, J⟩, _, hdp⟩ := bind_ok hdp
    obtain ⟨⟨s2, hess⟩, _, hdp⟩ := bind_ok hdp
    obtain ⟨⟨s3, sd⟩, hu, h1⟩ := bind_ok hdp
    obtain ⟨d, hd, h2⟩ := bind_ok h1
    injection h2 with h2
    injection h2 with _ h2
    rw [haligned] at hu
    rw [← h2, ecc_solve_zero hu hd, neg_zero]

/-- The hypotheses of the C93 theorems can be met: an increment exists (and is zero). -/
example : ∃ s, fcIncrement (ssd rowEnv none) shiftJac ramp () ramp = .ok (s, 0) := by
  obtain ⟨S, hS⟩ : ∃ S : Matrix (Px 1 1 2) (Fin 1) ℂ,
    S = (sdi (rowEnv.grad ramp) shiftJac).map (fun x : ℝ => (x : ℂ)) := ⟨_, rfl⟩
  have s0 : S (0, (0, 0)) 0 = 1 := by rw [hS]; norm_num [sdi, rowEnv, ramp, shiftJac]
  have s1 : S (0, (0, 1)) 0 = -1 := by rw [hS]; norm_num [sdi, rowEnv, ramp, shiftJac]
  have hdet : (Sᵀ * S).det ≠ 0 := by
    rw [det_fin_one, mul_apply, Fintype.sum_prod_type, Fin.sum_univ_one, Fintype.sum_prod_type,
      Fin.sum_univ_one, Fin.sum_univ_two]
    simp only [transpose_apply, s0, s1]
    norm_num
  refine ⟨(), ?_⟩
  simp only [fcIncrement, ssd, bind, Except.bind, pure, Except.pure, gradientOf, ← hS, difference_self,
    mulVec_zero, solveRe, npSolve, if_neg hdet, Except.map]
  congr 2
  funext i; simp

/-- An image stretched along the first axis: seen from the template, derivatives along that axis are those of
the image times 16/9. -/
noncomputable def stretchedEnv : Lk.Env 1 2 2 (Planes 1 2 2) Unit where
  warp im _ := im
  grad := squareEnv.grad
  fwdGrad im _ d := fun i p => if d = 0 then 9 / 16 * squareEnv.grad im 0 i p else squareEnv.grad im 1 i p
  normIm im := .ok im

/-- A plane with slopes 4 and 3. -/
def slope : Planes 1 2 2 := fun _ p => 4 * (p.1 : ℕ) + 3 * (p.2 : ℕ)

/-- C93 is violated for gradient images in forward additive fitting: although the warped image equals the
template, the increment is not zero. -/
theorem C93_forward_additive_violated :
    stretchedEnv.warp slope () = slope ∧
    ∃ s dp, faIncrement (gradientImages stretchedEnv) stretchedEnv shiftJac2 slope none slope () = .ok (s, dp) ∧
      dp ≠ 0 := by
  refine ⟨rfl, ?_⟩
  have const : ∀ (g : Fin 2 → Planes 1 2 2) (a : ℝ), (∀ p, magnitude g p = a) → medianMagnitude g = a := by
    intro g a ha
    unfold medianMagnitude
    have := npMedian_bounds ((Finset.univ : Finset (Pos 2 2)).toList.map (magnitude g))
      (by simp [Finset.univ_nonempty.ne_empty]) a a (by
        intro x hx
        obtain ⟨p, _, rfl⟩ := List.mem_map.1 hx
        rw [ha]; simp)
    exact le_antisymm this.2 this.1
  have m1 : ∀ p, magnitude (stretchedEnv.grad slope) p = 5 := by
    rintro ⟨p1, p2⟩
    unfold magnitude
    rw [Real.sqrt_eq_iff_mul_self_eq (by positivity) (by norm_num)]
    fin_cases p1 <;> fin_cases p2 <;> norm_num [stretchedEnv, squareEnv, slope]
  have m2 : ∀ p, magnitude (stretchedEnv.fwdGrad slope ()) p = 15 / 4 := by
    rintro ⟨p1, p2⟩
    unfold magnitude
    rw [Real.sqrt_eq_iff_mul_self_eq (by positivity) (by norm_num)]
    fin_cases p1 <;> fin_cases p2 <;> norm_num [stretchedEnv, squareEnv, slope]
  have n1 := const _ _ m1
  have n2 := const _ _ m2
  obtain ⟨G, hG⟩ : ∃ G, G = regularise (stretchedEnv.fwdGrad slope ()) := ⟨_, rfl⟩
  have g0 : ∀ p : Pos 2 2, G 0 0 p = 3 / 10 * (1 - 2 * (p.1 : ℕ)) := by
    rintro ⟨p1, p2⟩
    rw [hG]; unfold regularise; rw [m2, n2]
    fin_cases p1 <;> fin_cases p2 <;> norm_num [stretchedEnv, squareEnv, slope]
  have g1 : ∀ p : Pos 2 2, G 1 0 p = 4 / 10 * (1 - 2 * (p.2 : ℕ)) := by
    rintro ⟨p1, p2⟩
    rw [hG]; unfold regularise; rw [m2, n2]
    fin_cases p1 <;> fin_cases p2 <;> norm_num [stretchedEnv, squareEnv, slope]
  obtain ⟨S, hS⟩ : ∃ S, S = gradientSdi stretchedEnv G shiftJac2 := ⟨_, rfl⟩
  have s0 : ∀ p : Pos 2 2, S (0, 0, p) 0 = 0 := by
    rintro ⟨p1, p2⟩
    rw [hS]
    simp only [gradientSdi, Fin.sum_univ_two, fixCrossed, shiftJac2, stretchedEnv, squareEnv]
    fin_cases p1 <;> fin_cases p2 <;> norm_num [g0, g1]
  have s1 : ∀ p : Pos 2 2, S (1, 0, p) 0 = -(8 / 10) * (1 - 2 * (p.2 : ℕ)) := by
    rintro ⟨p1, p2⟩
    rw [hS]
    simp only [gradientSdi, Fin.sum_univ_two, fixCrossed, shiftJac2, stretchedEnv, squareEnv]
    fin_cases p1 <;> fin_cases p2 <;> norm_num [g0, g1]
  have e1 : ∀ p : Pos 2 2, gradientError stretchedEnv G slope (1, 0, p) = -(1 / 10) * (1 - 2 * (p.2 : ℕ)) := by
    rintro ⟨p1, p2⟩
    simp only [gradientError, g1]
    unfold regularise; rw [m1, n1]
    fin_cases p1 <;> fin_cases p2 <;> norm_num [stretchedEnv, squareEnv, slope]
  have hH : (Sᵀ * S) 0 0 = 64 / 25 := by
    rw [mul_apply, Fintype.sum_prod_type, Fin.sum_univ_two]
    simp only [Fintype.sum_prod_type, Fin.sum_univ_one, Fin.sum_univ_two, transpose_apply, s0, s1]
    norm_num
  have hb : (Sᵀ *ᵥ gradientError stretchedEnv G slope) 0 = 8 / 25 := by
    rw [mulVec, dotProduct, Fintype.sum_prod_type, Fin.sum_univ_two]
    simp only [Fintype.sum_prod_type, Fin.sum_univ_one, Fin.sum_univ_two, transpose_apply, s0, s1, e1]
    norm_num
  have hdet : (Sᵀ * S).det ≠ 0 := by rw [det_fin_one, hH]; norm_num
  refine ⟨some G, -((Sᵀ * S)⁻¹ *ᵥ (Sᵀ *ᵥ gradientError stretchedEnv G slope)), ?_, ?_⟩
  · simp only [faIncrement, gradientImages, bind, Except.bind, pure, Except.pure, gradientOf, ← hG, ← hS]
    have : stretchedEnv.warp slope () = slope := rfl
    rw [this, npSolve, if_neg hdet]
  · intro h0
    rw [neg_eq_zero] at h0
    obtain ⟨v, hv⟩ : ∃ v, v = Sᵀ *ᵥ gradientError stretchedEnv G slope := ⟨_, rfl⟩
    rw [← hv] at h0 hb
    have h1 := congrArg (fun v => (Sᵀ * S) *ᵥ v) h0
    simp only [mulVec_mulVec, mulVec_zero] at h1
    rw [mul_nonsing_inv _ (Ne.isUnit hdet), one_mulVec] at h1
    have h2 := congrFun h1 0
    rw [hb] at h2
    norm_num at h2

/-! ## C94: ECC maximises the correlation -/

/-- C94, inverse compositional fitting with ECC: if the normalised image and template have equally large
remainders outside the span of the steepest descent images, and these are positively correlated, then among
all steps the increment maximises the correlation of the image with the linearised template.  Missing:
remainders of different size (`C94_inverse_violated`), forward compositional fitting
(`C94_forward_violated`). -/
theorem C94_inverse_partial (env : Lk.Env c h w Im T) (dW : Jac h w n) (template iwxp tn wn : Planes c h w)
    (ht : normalise template = .ok tn) (hw : normalise iwxp = .ok wn) (s₀ s : EccState n)
    (pre : EccState n × Matrix (Px c h w) (Fin n) ℝ × Matrix (Fin n) (Fin n) ℝ) (dp : Fin n → ℝ)
    (hpre : icPrecompute (ecc env) dW template s₀ = .ok pre)
    (hdp : icIncrement (ecc env) pre template iwxp = .ok (s, dp)) (rt rw' : Px c h w → ℝ)
    (hrt : Spec.IsRemainder pre.2.1 (fun x : Px c h w => tn x.1 x.2) rt)
    (hrw : Spec.IsRemainder pre.2.1 (fun x : Px c h w => wn x.1 x.2) rw')
    (hpos : 0 < rt ⬝ᵥ rw') (hsize : rt ⬝ᵥ rt = rw' ⬝ᵥ rw') (q : Fin n → ℝ) :
    Spec.correlation (fun x : Px c h w => wn x.1 x.2) ((fun x : Px c h w => tn x.1 x.2) + pre.2.1 *ᵥ q) ≤
      Spec.correlation (fun x : Px c h w => wn x.1 x.2) ((fun x : Px c h w => tn x.1 x.2) + pre.2.1 *ᵥ dp) := by
  obtain ⟨⟨s1, S, S'⟩, hi, hpre⟩ := bind_ok hpre
  obtain ⟨src, _, hi⟩ := bind_ok hi
  injection hi with hi
  injection hi with _ hi
  injection hi with hS hS'
  have hSS : S' = S := hS'.symm.trans hS
  subst hSS
  obtain ⟨⟨s2, hess⟩, hh, hpre⟩ := bind_ok hpre
  obtain ⟨hInv, hinv, hh⟩ := bind_ok hh
  injection hh with hh
  injection hh with h1 h2
  injection hpre with hpre
  subst hpre h1 h2
  obtain ⟨⟨s3, sd⟩, hu, hdp⟩ := bind_ok hdp
  obtain ⟨wn', hw', hu⟩ := bind_ok hu
  obtain ⟨tn', ht', hu⟩ := bind_ok hu
  rw [hw] at hw'
  rw [ht] at ht'
  injection hw' with hw'
  injection ht' with ht'
  subst hw' ht'
  injection hu with hu
  injection hu with _ hu
  obtain ⟨d, hd, hdp⟩ := bind_ok hdp
  injection hdp with hdp
  injection hdp with _ hdp
  subst hdp hu
  obtain ⟨a, b, ha, hb, he⟩ := ecc_step hinv hrt hrw hpos hd
  obtain ⟨t, het⟩ : ∃ t, t = fun x : Px c h w => tn x.1 x.2 := ⟨_, rfl⟩
  obtain ⟨v, hev⟩ : ∃ v, v = fun x : Px c h w => wn x.1 x.2 := ⟨_, rfl⟩
  simp only at hrt hrw ⊢
  rw [← het] at ha hrt ⊢
  rw [← hev] at hb hrw ⊢
  have hvr : v ⬝ᵥ rt = rt ⬝ᵥ rw' := by
    rw [hb, add_dotProduct, hrt.2, add_zero, dotProduct_comm]
  have hrt0 : 0 < rt ⬝ᵥ rt := by
    rcases lt_or_eq_of_le (Finset.sum_nonneg fun i _ => mul_self_nonneg (rt i) :
      0 ≤ rt ⬝ᵥ rt) with h | h
    · exact h
    · exfalso
      have : rt = 0 := dotProduct_self_eq_zero.1 h.symm
      rw [this, zero_dotProduct] at hpos
      exact lt_irrefl _ hpos
  have e1 : t + S' *ᵥ q = rt + S' *ᵥ (a + q) := by rw [mulVec_add, ha]; abel
  have e2 : t + S' *ᵥ d = rt + ((rt ⬝ᵥ rt) / (v ⬝ᵥ rt)) • (S' *ᵥ b) := by
    rw [he, mulVec_sub, mulVec_smul, hvr, hsize]
    rw [ha]; abel
  rw [e1, e2]
  have orth : ∀ u, v ⬝ᵥ (S' *ᵥ u) = (S' *ᵥ b) ⬝ᵥ (S' *ᵥ u) := by
    intro u
    rw [hb, add_dotProduct, dotProduct_comm rw', hrw.2, zero_add]
  exact correlation_le rfl hrt0 (by rw [hvr]; exact hpos) (by rw [dotProduct_comm]; exact hrt.2 _)
    (by rw [dotProduct_comm]; exact hrt.2 _) (orth _) (orth _)

/-- A normalised template and a normalised image of two by two pixels. -/
noncomputable def eccTemplate : Planes 1 2 2 := fun _ p =>
  if p.1 = 0 then (if p.2 = 0 then 7 / 10 else 1 / 10) else (if p.2 = 0 then -1 / 10 else -7 / 10)

@[inherit_doc eccTemplate]
noncomputable def eccImage : Planes 1 2 2 := fun _ p =>
  if p.1 = 0 then (if p.2 = 0 then 17 / 26 else 7 / 26) else (if p.2 = 0 then -7 / 26 else -17 / 26)

theorem eccTemplate_normal : normalise eccTemplate = .ok eccTemplate := by
  have hm : (∑ i : Px 1 2 2, eccTemplate i.1 i.2) / ((1 * (2 * 2) : ℕ) : ℝ) = 0 := by
    norm_num [Fintype.sum_prod_type, Fin.sum_univ_two, eccTemplate]
  have hs : Real.sqrt (∑ i : Px 1 2 2, (eccTemplate i.1 i.2 - 0) ^ 2) = 1 := by
    rw [Real.sqrt_eq_one]
    norm_num [Fintype.sum_prod_type, Fin.sum_univ_two, eccTemplate]
  unfold normalise
  simp only [hm]
  rw [hs, if_neg one_ne_zero]
  simp

theorem eccImage_normal : normalise eccImage = .ok eccImage := by
  have hm : (∑ i : Px 1 2 2, eccImage i.1 i.2) / ((1 * (2 * 2) : ℕ) : ℝ) = 0 := by
    norm_num [Fintype.sum_prod_type, Fin.sum_univ_two, eccImage]
  have hs : Real.sqrt (∑ i : Px 1 2 2, (eccImage i.1 i.2 - 0) ^ 2) = 1 := by
    rw [Real.sqrt_eq_one]
    norm_num [Fintype.sum_prod_type, Fin.sum_univ_two, eccImage]
  unfold normalise
  simp only [hm]
  rw [hs, if_neg one_ne_zero]
  simp

/-- Correlation of a unit vector with a linear combination, for the two counterexamples: the optimum is
perfect correlation. -/
theorem correlation_lt_one {ι : Type} [Fintype ι] {u v : ι → ℝ} (hv : 0 < v ⬝ᵥ v)
    (h : (u ⬝ᵥ v) ^ 2 < v ⬝ᵥ v) : Spec.correlation u v < 1 := by
  unfold Spec.correlation
  rw [div_lt_one (Real.sqrt_pos.2 hv)]
  exact Real.lt_sqrt_of_sq_lt h

/-- C94 is violated in inverse compositional fitting: some other step gives a larger correlation. -/
theorem C94_inverse_violated :
    ∃ (pre : EccState 1 × Matrix (Px 1 2 2) (Fin 1) ℝ × Matrix (Fin 1) (Fin 1) ℝ) (s : EccState 1)
      (dp q : Fin 1 → ℝ), icPrecompute (ecc squareEnv) shiftJac2 eccTemplate none = .ok pre ∧
      icIncrement (ecc squareEnv) pre eccTemplate eccImage = .ok (s, dp) ∧
      Spec.correlation (fun x : Px 1 2 2 => eccImage x.1 x.2)
          ((fun x : Px 1 2 2 => eccTemplate x.1 x.2) + pre.2.1 *ᵥ dp) <
        Spec.correlation (fun x : Px 1 2 2 => eccImage x.1 x.2)
          ((fun x : Px 1 2 2 => eccTemplate x.1 x.2) + pre.2.1 *ᵥ q) := by
  obtain ⟨S, hS⟩ : ∃ S, S = sdi (squareEnv.grad eccTemplate) shiftJac2 := ⟨_, rfl⟩
  have hs : ∀ p : Pos 2 2, S (0, p) 0 = -(3 / 5) * (1 - 2 * (p.2 : ℕ)) := by
    rintro ⟨p1, p2⟩
    rw [hS]
    have e11 : (1 + 1 : Fin 2) = 0 := rfl
    fin_cases p1 <;> fin_cases p2 <;> norm_num [sdi, squareEnv, eccTemplate, shiftJac2, e11]
  have hH : (Sᵀ * S) 0 0 = 36 / 25 := by
    rw [mul_apply, Fintype.sum_prod_type]
    simp only [Fintype.sum_prod_type, Fin.sum_univ_one, Fin.sum_univ_two, transpose_apply, hs]
    norm_num
  have hdet : (Sᵀ * S).det ≠ 0 := by rw [det_fin_one, hH]; norm_num
  obtain ⟨G, hG⟩ : ∃ G, G = (Sᵀ * S)⁻¹ := ⟨_, rfl⟩
  have hinv : npInv (Sᵀ * S) = .ok G := by rw [npInv, if_neg hdet, hG]
  obtain ⟨dp, hdp⟩ : ∃ dp, npSolve (Sᵀ * S) (Sᵀ *ᵥ fun x : Px 1 2 2 =>
      eccLambda G S (fun x : Px 1 2 2 => eccImage x.1 x.2) (fun x : Px 1 2 2 => eccTemplate x.1 x.2) *
        eccImage x.1 x.2 - eccTemplate x.1 x.2) = .ok dp := ⟨_, by rw [npSolve, if_neg hdet]⟩
  have hmul : ∀ (q : Fin 1 → ℝ) (p : Pos 2 2), (S *ᵥ q) (0, p) = -(3 / 5) * (1 - 2 * (p.2 : ℕ)) * q 0 := by
    intro q p; rw [mulVec, dotProduct, Fin.sum_univ_one, hs]
  obtain ⟨rt, hrt⟩ : ∃ r : Px 1 2 2 → ℝ, r = fun x => 4 / 10 * (1 - 2 * ((x.2.1 : ℕ) : ℝ)) := ⟨_, rfl⟩
  obtain ⟨rw', hrw⟩ : ∃ r : Px 1 2 2 → ℝ, r = fun x => 6 / 13 * (1 - 2 * ((x.2.1 : ℕ) : ℝ)) := ⟨_, rfl⟩
  have ht : Spec.IsRemainder S (fun x : Px 1 2 2 => eccTemplate x.1 x.2) rt := by
    refine ⟨⟨fun _ => -(1 / 2), ?_⟩, fun q => ?_⟩
    · funext x
      obtain ⟨i, p1, p2⟩ := x
      rw [Subsingleton.elim i 0, Pi.sub_apply, hmul, hrt]
      fin_cases p1 <;> fin_cases p2 <;> norm_num [eccTemplate]
    · rw [dotProduct, Fintype.sum_prod_type]
      simp only [Fintype.sum_prod_type, Fin.sum_univ_one, Fin.sum_univ_two, hmul, hrt]
      norm_num
  have hw : Spec.IsRemainder S (fun x : Px 1 2 2 => eccImage x.1 x.2) rw' := by
    refine ⟨⟨fun _ => -(25 / 78), ?_⟩, fun q => ?_⟩
    · funext x
      obtain ⟨i, p1, p2⟩ := x
      rw [Subsingleton.elim i 0, Pi.sub_apply, hmul, hrw]
      fin_cases p1 <;> fin_cases p2 <;> norm_num [eccImage]
    · rw [dotProduct, Fintype.sum_prod_type]
      simp only [Fintype.sum_prod_type, Fin.sum_univ_one, Fin.sum_univ_two, hmul, hrw]
      norm_num
  have h1 : rt ⬝ᵥ rw' = 48 / 65 := by
    rw [dotProduct, Fintype.sum_prod_type]
    simp only [Fintype.sum_prod_type, Fin.sum_univ_one, Fin.sum_univ_two, hrt, hrw]
    norm_num
  have h2 : rw' ⬝ᵥ rw' = 144 / 169 := by
    rw [dotProduct, Fintype.sum_prod_type]
    simp only [Fintype.sum_prod_type, Fin.sum_univ_one, Fin.sum_univ_two, hrw]
    norm_num
  obtain ⟨a, b, ha, hb, he⟩ := ecc_step hinv ht hw (by rw [h1]; norm_num) hdp
  have ha0 : a 0 = -(1 / 2) := by
    have := congrFun ha (0, (0, 0))
    rw [Pi.add_apply, hmul, hrt] at this
    norm_num [eccTemplate] at this
    linarith
  have hb0 : b 0 = -(25 / 78) := by
    have := congrFun hb (0, (0, 0))
    rw [Pi.add_apply, hmul, hrw] at this
    norm_num [eccImage] at this
    linarith
  have hd0 : dp 0 = 22 / 169 := by
    rw [he, h1, h2, Pi.sub_apply, Pi.smul_apply, ha0, hb0]; norm_num
  refine ⟨(some G, S, Sᵀ * S), some G, dp, fun _ => 2 / 9, ?_, ?_, ?_⟩
  · simp only [icPrecompute, ecc, normaliseSource, eccTemplate_normal, Except.map, bind, Except.bind, pure,
      Except.pure, gradientOf, ← hS, hinv]
  · simp only [icIncrement, ecc, eccTemplate_normal, eccImage_normal, bind, Except.bind, pure, Except.pure, hdp]
  · obtain ⟨v, hv⟩ : ∃ v : Px 1 2 2 → ℝ, v = (fun x : Px 1 2 2 => eccTemplate x.1 x.2) + S *ᵥ dp := ⟨_, rfl⟩
    obtain ⟨v', hv'⟩ : ∃ v : Px 1 2 2 → ℝ,
      v = (fun x : Px 1 2 2 => eccTemplate x.1 x.2) + S *ᵥ fun _ => 2 / 9 := ⟨_, rfl⟩
    show Spec.correlation _ ((fun x : Px 1 2 2 => eccTemplate x.1 x.2) + S *ᵥ dp) <
      Spec.correlation _ ((fun x : Px 1 2 2 => eccTemplate x.1 x.2) + S *ᵥ fun _ => 2 / 9)
    rw [← hv, ← hv']
    have vv : ∀ p, v (0, p) = eccTemplate 0 p + -(3 / 5) * (1 - 2 * (p.2 : ℕ)) * (22 / 169) := by
      intro p; rw [hv, Pi.add_apply, hmul, hd0]
    have vv' : ∀ p, v' (0, p) = eccTemplate 0 p + -(3 / 5) * (1 - 2 * (p.2 : ℕ)) * (2 / 9) := by
      intro p; rw [hv', Pi.add_apply, hmul]
    have opt : Spec.correlation (fun x : Px 1 2 2 => eccImage x.1 x.2) v' = 1 := by
      have k1 : (fun x : Px 1 2 2 => eccImage x.1 x.2) ⬝ᵥ v' = 13 / 15 := by
        rw [dotProduct, Fintype.sum_prod_type]
        simp only [Fintype.sum_prod_type, Fin.sum_univ_one, Fin.sum_univ_two, vv']
        norm_num [eccImage, eccTemplate]
      have k2 : v' ⬝ᵥ v' = (13 / 15) ^ 2 := by
        rw [dotProduct, Fintype.sum_prod_type]
        simp only [Fintype.sum_prod_type, Fin.sum_univ_one, Fin.sum_univ_two, vv']
        norm_num [eccTemplate]
      unfold Spec.correlation
      rw [k1, k2, Real.sqrt_sq (by norm_num)]
      norm_num
    rw [opt]
    have k1 : (fun x : Px 1 2 2 => eccImage x.1 x.2) ⬝ᵥ v = 9987 / 10985 := by
      rw [dotProduct, Fintype.sum_prod_type]
      simp only [Fintype.sum_prod_type, Fin.sum_univ_one, Fin.sum_univ_two, vv]
      norm_num [eccImage, eccTemplate]
    have k2 : v ⬝ᵥ v = 597601 / 714025 := by
      rw [dotProduct, Fintype.sum_prod_type]
      simp only [Fintype.sum_prod_type, Fin.sum_univ_one, Fin.sum_univ_two, vv]
      norm_num [eccTemplate]
    exact correlation_lt_one (by rw [k2]; norm_num) (by rw [k1, k2]; norm_num)

/-- C94 is violated in forward compositional fitting: some other step gives a larger correlation of the
template with the linearised image. -/
theorem C94_forward_violated :
    ∃ (S : Matrix (Px 1 2 2) (Fin 1) ℝ) (s : EccState 1) (dp q : Fin 1 → ℝ),
      (ecc squareEnv).images none (.frame eccImage) shiftJac2 = .ok (none, S, S) ∧
      fcIncrement (ecc squareEnv) shiftJac2 eccTemplate none eccImage = .ok (s, dp) ∧
      Spec.correlation (fun x : Px 1 2 2 => eccTemplate x.1 x.2)
          ((fun x : Px 1 2 2 => eccImage x.1 x.2) + S *ᵥ dp) <
        Spec.correlation (fun x : Px 1 2 2 => eccTemplate x.1 x.2)
          ((fun x : Px 1 2 2 => eccImage x.1 x.2) + S *ᵥ q) := by
  obtain ⟨S, hS⟩ : ∃ S, S = sdi (squareEnv.grad eccImage) shiftJac2 := ⟨_, rfl⟩
  have hs : ∀ p : Pos 2 2, S (0, p) 0 = -(5 / 13) * (1 - 2 * (p.2 : ℕ)) := by
    rintro ⟨p1, p2⟩
    rw [hS]
    have e11 : (1 + 1 : Fin 2) = 0 := rfl
    fin_cases p1 <;> fin_cases p2 <;> norm_num [sdi, squareEnv, eccImage, shiftJac2, e11]
  have hH : (Sᵀ * S) 0 0 = 100 / 169 := by
    rw [mul_apply, Fintype.sum_prod_type]
    simp only [Fintype.sum_prod_type, Fin.sum_univ_one, Fin.sum_univ_two, transpose_apply, hs]
    norm_num
  have hdet : (Sᵀ * S).det ≠ 0 := by rw [det_fin_one, hH]; norm_num
  obtain ⟨G, hG⟩ : ∃ G, G = (Sᵀ * S)⁻¹ := ⟨_, rfl⟩
  have hinv : npInv (Sᵀ * S) = .ok G := by rw [npInv, if_neg hdet, hG]
  obtain ⟨dp, hdp⟩ : ∃ dp, npSolve (Sᵀ * S) (Sᵀ *ᵥ fun x : Px 1 2 2 =>
      eccLambda G S (fun x : Px 1 2 2 => eccImage x.1 x.2) (fun x : Px 1 2 2 => eccTemplate x.1 x.2) *
        eccImage x.1 x.2 - eccTemplate x.1 x.2) = .ok dp := ⟨_, by rw [npSolve, if_neg hdet]⟩
  have hmul : ∀ (q : Fin 1 → ℝ) (p : Pos 2 2), (S *ᵥ q) (0, p) = -(5 / 13) * (1 - 2 * (p.2 : ℕ)) * q 0 := by
    intro q p; rw [mulVec, dotProduct, Fin.sum_univ_one, hs]
  obtain ⟨rt, hrt⟩ : ∃ r : Px 1 2 2 → ℝ, r = fun x => 4 / 10 * (1 - 2 * ((x.2.1 : ℕ) : ℝ)) := ⟨_, rfl⟩
  obtain ⟨rw', hrw⟩ : ∃ r : Px 1 2 2 → ℝ, r = fun x => 6 / 13 * (1 - 2 * ((x.2.1 : ℕ) : ℝ)) := ⟨_, rfl⟩
  have ht : Spec.IsRemainder S (fun x : Px 1 2 2 => eccTemplate x.1 x.2) rt := by
    refine ⟨⟨fun _ => -(39 / 50), ?_⟩, fun q => ?_⟩
    · funext x
      obtain ⟨i, p1, p2⟩ := x
      rw [Subsingleton.elim i 0, Pi.sub_apply, hmul, hrt]
      fin_cases p1 <;> fin_cases p2 <;> norm_num [eccTemplate]
    · rw [dotProduct, Fintype.sum_prod_type]
      simp only [Fintype.sum_prod_type, Fin.sum_univ_one, Fin.sum_univ_two, hmul, hrt]
      norm_num
  have hw : Spec.IsRemainder S (fun x : Px 1 2 2 => eccImage x.1 x.2) rw' := by
    refine ⟨⟨fun _ => -(1 / 2), ?_⟩, fun q => ?_⟩
    · funext x
      obtain ⟨i, p1, p2⟩ := x
      rw [Subsingleton.elim i 0, Pi.sub_apply, hmul, hrw]
      fin_cases p1 <;> fin_cases p2 <;> norm_num [eccImage]
    · rw [dotProduct, Fintype.sum_prod_type]
      simp only [Fintype.sum_prod_type, Fin.sum_univ_one, Fin.sum_univ_two, hmul, hrw]
      norm_num
  have h1 : rt ⬝ᵥ rw' = 48 / 65 := by
    rw [dotProduct, Fintype.sum_prod_type]
    simp only [Fintype.sum_prod_type, Fin.sum_univ_one, Fin.sum_univ_two, hrt, hrw]
    norm_num
  have h2 : rw' ⬝ᵥ rw' = 144 / 169 := by
    rw [dotProduct, Fintype.sum_prod_type]
    simp only [Fintype.sum_prod_type, Fin.sum_univ_one, Fin.sum_univ_two, hrw]
    norm_num
  obtain ⟨a, b, ha, hb, he⟩ := ecc_step hinv ht hw (by rw [h1]; norm_num) hdp
  have ha0 : a 0 = -(39 / 50) := by
    have := congrFun ha (0, (0, 0))
    rw [Pi.add_apply, hmul, hrt] at this
    norm_num [eccTemplate] at this
    linarith
  have hb0 : b 0 = -(1 / 2) := by
    have := congrFun hb (0, (0, 0))
    rw [Pi.add_apply, hmul, hrw] at this
    norm_num [eccImage] at this
    linarith
  have hd0 : dp 0 = 66 / 325 := by
    rw [he, h1, h2, Pi.sub_apply, Pi.smul_apply, ha0, hb0]; norm_num
  refine ⟨S, some G, -dp, fun _ => -(2 / 5), ?_, ?_, ?_⟩
  · simp only [ecc, normaliseSource, eccImage_normal, Except.map, bind, Except.bind, pure, Except.pure, gradientOf,
      ← hS]
  · simp only [fcIncrement, ecc, normaliseSource, eccTemplate_normal, eccImage_normal, Except.map, bind, Except.bind,
      pure, Except.pure, gradientOf, ← hS, hinv, hdp]
  · obtain ⟨v, hv⟩ : ∃ v : Px 1 2 2 → ℝ, v = (fun x : Px 1 2 2 => eccImage x.1 x.2) + S *ᵥ (-dp) := ⟨_, rfl⟩
    obtain ⟨v', hv'⟩ : ∃ v : Px 1 2 2 → ℝ,
      v = (fun x : Px 1 2 2 => eccImage x.1 x.2) + S *ᵥ fun _ => -(2 / 5) := ⟨_, rfl⟩
    rw [← hv, ← hv']
    have vv : ∀ p, v (0, p) = eccImage 0 p + -(5 / 13) * (1 - 2 * (p.2 : ℕ)) * (-(66 / 325)) := by
      intro p; rw [hv, Pi.add_apply, hmul, Pi.neg_apply, hd0]
    have vv' : ∀ p, v' (0, p) = eccImage 0 p + -(5 / 13) * (1 - 2 * (p.2 : ℕ)) * (-(2 / 5)) := by
      intro p; rw [hv', Pi.add_apply, hmul]
    have opt : Spec.correlation (fun x : Px 1 2 2 => eccTemplate x.1 x.2) v' = 1 := by
      have k1 : (fun x : Px 1 2 2 => eccTemplate x.1 x.2) ⬝ᵥ v' = 15 / 13 := by
        rw [dotProduct, Fintype.sum_prod_type]
        simp only [Fintype.sum_prod_type, Fin.sum_univ_one, Fin.sum_univ_two, vv']
        norm_num [eccImage, eccTemplate]
      have k2 : v' ⬝ᵥ v' = (15 / 13) ^ 2 := by
        rw [dotProduct, Fintype.sum_prod_type]
        simp only [Fintype.sum_prod_type, Fin.sum_univ_one, Fin.sum_univ_two, vv']
        norm_num [eccImage]
      unfold Spec.correlation
      rw [k1, k2, Real.sqrt_sq (by norm_num)]
      norm_num
    rw [opt]
    have k1 : (fun x : Px 1 2 2 => eccTemplate x.1 x.2) ⬝ᵥ v = 4491 / 4225 := by
      rw [dotProduct, Fintype.sum_prod_type]
      simp only [Fintype.sum_prod_type, Fin.sum_univ_one, Fin.sum_univ_two, vv]
      norm_num [eccImage, eccTemplate]
    have k2 : v ⬝ᵥ v = 817249 / 714025 := by
      rw [dotProduct, Fintype.sum_prod_type]
      simp only [Fintype.sum_prod_type, Fin.sum_univ_one, Fin.sum_univ_two, vv]
      norm_num [eccImage]
    exact correlation_lt_one (by rw [k2]; norm_num) (by rw [k1, k2]; norm_num)

/-- The remainders of the hypotheses of `C94_inverse_partial`, for the template above (whose steepest descent
images `S` are precomputed without error, see `C94_inverse_violated`) and its mirror image. -/
example : ∃ (S : Matrix (Px 1 2 2) (Fin 1) ℝ) (rt rw' : Px 1 2 2 → ℝ),
    (ecc squareEnv).images none (.frame eccTemplate) shiftJac2 = .ok (none, S, S) ∧
    Spec.IsRemainder S (fun x : Px 1 2 2 => eccTemplate x.1 x.2) rt ∧
    Spec.IsRemainder S (fun x : Px 1 2 2 => eccTemplate x.1 (x.2.1, x.2.2 + 1)) rw' ∧
    0 < rt ⬝ᵥ rw' ∧ rt ⬝ᵥ rt = rw' ⬝ᵥ rw' := by
  obtain ⟨S, hS⟩ : ∃ S, S = sdi (squareEnv.grad eccTemplate) shiftJac2 := ⟨_, rfl⟩
  have e11 : (1 + 1 : Fin 2) = 0 := rfl
  have hs : ∀ p : Pos 2 2, S (0, p) 0 = -(3 / 5) * (1 - 2 * (p.2 : ℕ)) := by
    rintro ⟨p1, p2⟩
    rw [hS]
    fin_cases p1 <;> fin_cases p2 <;> norm_num [sdi, squareEnv, eccTemplate, shiftJac2, e11]
  have hmul : ∀ (q : Fin 1 → ℝ) (p : Pos 2 2), (S *ᵥ q) (0, p) = -(3 / 5) * (1 - 2 * (p.2 : ℕ)) * q 0 := by
    intro q p; rw [mulVec, dotProduct, Fin.sum_univ_one, hs]
  obtain ⟨r, hr⟩ : ∃ r : Px 1 2 2 → ℝ, r = fun x => 4 / 10 * (1 - 2 * ((x.2.1 : ℕ) : ℝ)) := ⟨_, rfl⟩
  have orth : ∀ q, (S *ᵥ q) ⬝ᵥ r = 0 := by
    intro q
    rw [dotProduct, Fintype.sum_prod_type]
    simp only [Fintype.sum_prod_type, Fin.sum_univ_one, Fin.sum_univ_two, hmul, hr]
    norm_num
  refine ⟨S, r, r, ?_, ⟨⟨fun _ => -(1 / 2), ?_⟩, orth⟩, ⟨⟨fun _ => 1 / 2, ?_⟩, orth⟩, ?_, rfl⟩
  · simp only [ecc, normaliseSource, eccTemplate_normal, Except.map, bind, Except.bind, pure, Except.pure,
      gradientOf, ← hS]
  · funext x
    obtain ⟨i, p1, p2⟩ := x
    rw [Subsingleton.elim i 0, Pi.sub_apply, hmul, hr]
    fin_cases p1 <;> fin_cases p2 <;> norm_num [eccTemplate]
  · funext x
    obtain ⟨i, p1, p2⟩ := x
    rw [Subsingleton.elim i 0, Pi.sub_apply, hmul, hr]
    fin_cases p1 <;> fin_cases p2 <;> norm_num [eccTemplate, e11]
  · rw [dotProduct, Fintype.sum_prod_type]
    simp only [Fintype.sum_prod_type, Fin.sum_univ_one, Fin.sum_univ_two, hr]
    norm_num

end Menpofit
