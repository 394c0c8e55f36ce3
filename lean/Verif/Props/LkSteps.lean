import Verif.Props.LkResidual
/-!
# The increments of Lucas-Kanade fitting (C94, C96)
-/

namespace Menpofit
open Matrix GN Dft Lk

variable {c h w n : Nat} {Im T : Type}

/-! ## C96: least squares -/

/-- C96, sums of squared differences without a kernel, in space or in the Fourier domain, forward additive: the
increment is the only minimiser of the squared error of the linearised image, where the gradient of the image is
warped to the template's frame. -/
theorem C96_ssd_forward_additive (env : Lk.Env c h w Im T) (dW : Jac h w n) (template : Planes c h w) (im : Im) (t : T)
    (fourier : Bool) (dp : Fin n → ℝ)
    (hdp : faIncrement (if fourier then fourierSsd env none else ssd env none) env dW template () im t =
      .ok ((), dp)) :
    Spec.UniqueMin (fun d => ∑ x : Px c h w, (env.warp im t x.1 x.2 +
      ∑ k, (∑ a, env.fwdGrad im t a x.1 x.2 * dW a x.2 k) * d k - template x.1 x.2) ^ 2) dp := by
  have hdp' : faIncrement (ssd env none) env dW template () im t = .ok ((), dp) := by
    cases fourier with
    | false => exact hdp
    | true => rw [← (C60_same_update env dW template).1 im t]; exact hdp
  simp only [faIncrement, ssd, bind, Except.bind, pure, Except.pure, solveRe_normal] at hdp'
  split at hdp'
  · cases hdp'
  · next d hd =>
    injection hdp' with hdp'
    injection hdp' with _ hdp'
    exact negated_step hd hdp'.symm fun x y => by
      simp only [difference, mulVec, dotProduct, sdi, gradientOf]; ring

/-- C96, sums of squared differences without a kernel, forward compositional: the same, with the gradient of the
warped image. -/
theorem C96_ssd_forward_compositional (env : Lk.Env c h w Im T) (dW : Jac h w n) (template iwxp : Planes c h w)
    (fourier : Bool) (dp : Fin n → ℝ)
    (hdp : fcIncrement (if fourier then fourierSsd env none else ssd env none) dW template () iwxp =
      .ok ((), dp)) :
    Spec.UniqueMin (fun d => ∑ x : Px c h w, (iwxp x.1 x.2 +
      ∑ k, (∑ a, env.grad iwxp a x.1 x.2 * dW a x.2 k) * d k - template x.1 x.2) ^ 2) dp := by
  have hdp' : fcIncrement (ssd env none) dW template () iwxp = .ok ((), dp) := by
    cases fourier with
    | false => exact hdp
    | true => rw [← (C60_same_update env dW template).2.1 iwxp]; exact hdp
  simp only [fcIncrement, ssd, bind, Except.bind, pure, Except.pure, solveRe_normal] at hdp'
  split at hdp'
  · cases hdp'
  · next d hd =>
    injection hdp' with hdp'
    injection hdp' with _ hdp'
    exact negated_step hd hdp'.symm fun x y => by
      simp only [difference, mulVec, dotProduct, sdi, gradientOf]; ring

/-- C96, sums of squared differences without a kernel, inverse compositional: the increment (whose inverse is
composed with the transform) is the only minimiser of the squared difference of the warped image and the
linearised template. -/
theorem C96_ssd_inverse (env : Lk.Env c h w Im T) (dW : Jac h w n) (template iwxp : Planes c h w)
    (fourier : Bool) (dp : Fin n → ℝ)
    (hdp : ((icPrecompute (if fourier then fourierSsd env none else ssd env none) dW template ()).bind fun pre =>
      icIncrement (if fourier then fourierSsd env none else ssd env none) pre template iwxp) = .ok ((), dp)) :
    Spec.UniqueMin (fun d => ∑ x : Px c h w, (iwxp x.1 x.2 -
      (template x.1 x.2 + ∑ k, (∑ a, env.grad template a x.1 x.2 * dW a x.2 k) * d k)) ^ 2) dp := by
  have hdp' : ((icPrecompute (ssd env none) dW template ()).bind fun pre =>
      icIncrement (ssd env none) pre template iwxp) = .ok ((), dp) := by
    cases fourier with
    | false => exact hdp
    | true => rw [← (C60_same_update env dW template).2.2 iwxp]; exact hdp
  simp only [icPrecompute, icIncrement, ssd, bind, Except.bind, pure, Except.pure, solveRe_normal] at hdp'
  split at hdp'
  · cases hdp'
  · next d hd =>
    injection hdp' with hdp'
    injection hdp' with _ hdp'
    subst hdp'
    have := least_squares hd
    refine uniqueMin_congr (fun y => Finset.sum_congr rfl fun x _ => ?_) this
    simp only [difference, mulVec, dotProduct, sdi, gradientOf]; ring

/-- C96, gradient images, inverse compositional: the increment is the only minimiser of the squared difference
of the warped image's regularised gradients and the template's, linearised with the steepest descent images.
Missing: whether these are the derivatives (C92), forward fitting (C61). -/
theorem C96_gradient_images_partial (env : Lk.Env c h w Im T) (dW : Jac h w n) (template iwxp : Planes c h w)
    (s s' : Option (Fin 2 → Planes c h w))
    (pre : Option (Fin 2 → Planes c h w) × Matrix (Fin 2 × Px c h w) (Fin n) ℝ × Matrix (Fin n) (Fin n) ℝ)
    (hpre : icPrecompute (gradientImages env) dW template s = .ok pre) (dp : Fin n → ℝ)
    (hdp : icIncrement (gradientImages env) pre template iwxp = .ok (s', dp)) :
    Spec.UniqueMin (fun d => ∑ x : Fin 2 × Px c h w, (regularise (env.grad iwxp) x.1 x.2.1 x.2.2 -
      (regularise (env.grad template) x.1 x.2.1 x.2.2 + ∑ k, pre.2.1 x k * d k)) ^ 2) dp := by
  simp only [icPrecompute, gradientImages, bind, Except.bind, pure, Except.pure] at hpre
  injection hpre with hpre
  subst hpre
  simp only [icIncrement, gradientImages, bind, Except.bind, pure, Except.pure] at hdp
  split at hdp
  · cases hdp
  · next d hd =>
    injection hdp with hdp
    injection hdp with _ hdp
    subst hdp
    refine uniqueMin_congr (fun y => Finset.sum_congr rfl fun x _ => ?_) (least_squares hd)
    simp only [gradientError, mulVec, dotProduct, gradientOf]; ring

/-- C96, gradient correlation, inverse compositional: the increment is the only minimiser of the squared
difference of the sines of the angles between the gradients, divided by the mean of their cosines, and the
linearised orientation.  Missing: as for gradient images; gradients whose cosines sum to zero (NumPy's division
by zero). -/
theorem C96_gradient_correlation_partial (env : Lk.Env c h w Im T) (dW : Jac h w n) (template iwxp : Planes c h w)
    (s s' : Option (Planes c h w))
    (pre : Option (Planes c h w) × Matrix (Px c h w) (Fin n) ℝ × Matrix (Fin n) (Fin n) ℝ)
    (hpre : icPrecompute (gradientCorrelation env) dW template s = .ok pre) (dp : Fin n → ℝ)
    (hdp : icIncrement (gradientCorrelation env) pre template iwxp = .ok (s', dp))
    (angle : Px c h w → ℝ)
    (hangle : ∀ x, angle x = orientation (env.grad iwxp) x.1 x.2 - orientation (env.grad template) x.1 x.2)
    (mean : ℝ) (hmean : mean = (∑ x, Real.cos (angle x)) / (c * (h * w) : ℕ)) (_h0 : mean ≠ 0) :
    Spec.UniqueMin (fun d => ∑ x : Px c h w, (Real.sin (angle x) / mean - ∑ k, pre.2.1 x k * d k) ^ 2) dp := by
  simp only [icPrecompute, gradientCorrelation, bind, Except.bind, pure, Except.pure] at hpre
  injection hpre with hpre
  subst hpre
  simp only [icIncrement, gradientCorrelation, bind, Except.bind, pure, Except.pure] at hdp
  split at hdp
  · cases hdp
  · next d hd =>
    injection hdp with hdp
    injection hdp with _ hdp
    subst hdp
    rw [← mulVec_smul] at hd
    refine uniqueMin_congr (fun y => Finset.sum_congr rfl fun x _ => ?_) (least_squares hd)
    have hscale : correlationScale (orientation (env.grad template)) (orientation (env.grad iwxp)) = mean⁻¹ := by
      unfold correlationScale
      rw [hmean, inv_div]
      congr 1
      refine Finset.sum_congr rfl fun x _ => ?_
      rw [hangle, Real.cos_sub]; ring
    simp only [gradientOf, mulVec, dotProduct]
    rw [Pi.smul_apply, hscale, correlationError_sin, ← hangle, smul_eq_mul, div_eq_inv_mul]

/-- A ramp against its mirror image, in the environment of one row: an increment exists. -/
example : ∃ dp, fcIncrement (ssd rowEnv none) shiftJac (fun _ p => 1 - (p.2 : ℕ)) () ramp = .ok ((), dp) ∧
    dp 0 = 1 := by
  obtain ⟨S, hS⟩ : ∃ S, S = sdi (rowEnv.grad ramp) shiftJac := ⟨_, rfl⟩
  have hs : ∀ p : Pos 1 2, S (0, p) 0 = 1 - 2 * (p.2 : ℕ) := by
    rintro ⟨p1, p2⟩
    rw [hS]
    fin_cases p2 <;> norm_num [sdi, rowEnv, ramp, shiftJac]
  simp only [fcIncrement, ssd, bind, Except.bind, pure, Except.pure, solveRe_normal]
  rw [show gradientOf rowEnv (Source.frame ramp) = rowEnv.grad ramp from rfl, ← hS]
  have hH : (Sᵀ * S) 0 0 = 2 := by
    rw [mul_apply, Fintype.sum_prod_type]
    simp only [Fintype.sum_prod_type, Fin.sum_univ_one, Fin.sum_univ_two, transpose_apply, hs]
    norm_num
  have hd : (Sᵀ * S).det ≠ 0 := by
    rw [det_fin_one, hH]; norm_num
  obtain ⟨y, hy⟩ : ∃ y, npSolve (Sᵀ * S) (Sᵀ *ᵥ difference ramp fun _ p => 1 - (p.2 : ℕ)) = .ok y :=
    ⟨_, by rw [npSolve, if_neg hd]⟩
  rw [hy]
  refine ⟨-y, rfl, ?_⟩
  have h2 := congrFun (npSolve_ok hy).2 0
  rw [mulVec, dotProduct, Fin.sum_univ_one, hH, mulVec, dotProduct, Fintype.sum_prod_type] at h2
  simp only [Fintype.sum_prod_type, Fin.sum_univ_one, Fin.sum_univ_two, transpose_apply, hs] at h2
  norm_num [difference, ramp] at h2
  rw [Pi.neg_apply]; linarith

/-! ## C94: where no increment is optimal -/

/-- C94, inverse compositional fitting where the normalised warped image and the template, outside the span of
the steepest descent images, are not positively correlated (no increment is optimal then): if they are of equal
size and the template is not orthogonal to the steepest descent images, the linearised correlation does not
decrease and is not negative afterwards.  Missing: remainders of different size (`C94_no_optimum_violated`). -/
theorem C94_no_optimum_partial (env : Lk.Env c h w Im T) (dW : Jac h w n) (template iwxp tn wn : Planes c h w)
    (ht : normalise template = .ok tn) (hw : normalise iwxp = .ok wn) (s₀ s : EccState n)
    (pre : EccState n × Matrix (Px c h w) (Fin n) ℝ × Matrix (Fin n) (Fin n) ℝ) (dp : Fin n → ℝ)
    (hpre : icPrecompute (ecc env) dW template s₀ = .ok pre)
    (hdp : icIncrement (ecc env) pre template iwxp = .ok (s, dp)) (rt rw' : Px c h w → ℝ)
    (hrt : Spec.IsRemainder pre.2.1 (fun x : Px c h w => tn x.1 x.2) rt)
    (hrw : Spec.IsRemainder pre.2.1 (fun x : Px c h w => wn x.1 x.2) rw')
    (hneg : rt ⬝ᵥ rw' ≤ 0) (hsize : rt ⬝ᵥ rt = rw' ⬝ᵥ rw') (hproj : rt ≠ fun x : Px c h w => tn x.1 x.2) :
    0 ≤ Spec.correlation (fun x : Px c h w => wn x.1 x.2) ((fun x : Px c h w => tn x.1 x.2) + pre.2.1 *ᵥ dp) ∧
    Spec.correlation (fun x : Px c h w => wn x.1 x.2) (fun x : Px c h w => tn x.1 x.2) ≤
      Spec.correlation (fun x : Px c h w => wn x.1 x.2) ((fun x : Px c h w => tn x.1 x.2) + pre.2.1 *ᵥ dp) := by
  obtain ⟨⟨s1, S, S'⟩, hi, hpre⟩ := bind_ok hpre
  obtain ⟨src, _, hi⟩ := bind_ok hi
  injection hi with hi
  injection hi with _ hi
  injection hi with hS hS'
  have hSS : S' = S := hS'.symm.trans hS
  subst hSS
  obtain ⟨⟨s2, hess⟩, hh, hpre⟩ := bind_ok hpre
  obtain ⟨hInv, hinv, hh⟩ := bind_ok hh
  injection hh with hh
  injection hh with h1 h2
  injection hpre with hpre
  subst hpre h1 h2
  obtain ⟨⟨s3, sd⟩, hu, hdp⟩ := bind_ok hdp
  obtain ⟨wn', hw', hu⟩ := bind_ok hu
  obtain ⟨tn', ht', hu⟩ := bind_ok hu
  rw [hw] at hw'
  rw [ht] at ht'
  injection hw' with hw'
  injection ht' with ht'
  subst hw' ht'
  injection hu with hu
  injection hu with _ hu
  obtain ⟨d, hd, hdp⟩ := bind_ok hdp
  injection hdp with hdp
  injection hdp with _ hdp
  subst hdp hu
  obtain ⟨a, b, ha, hb, he⟩ := ecc_step_fallback hinv hrt hrw hneg hd
  have ut := normalise_unit ht
  have uw := normalise_unit hw
  obtain ⟨t, het⟩ : ∃ t, t = fun x : Px c h w => tn x.1 x.2 := ⟨_, rfl⟩
  obtain ⟨v, hev⟩ : ∃ v, v = fun x : Px c h w => wn x.1 x.2 := ⟨_, rfl⟩
  simp only at hrt hrw ⊢
  rw [← het] at ha hrt hproj ut ⊢
  rw [← hev] at hb hrw uw ⊢
  obtain ⟨A, hA⟩ : ∃ A, A = S' *ᵥ a := ⟨_, rfl⟩
  obtain ⟨B, hB⟩ : ∃ B, B = S' *ᵥ b := ⟨_, rfl⟩
  have oA : A ⬝ᵥ rt = 0 := hA ▸ hrt.2 a
  have oB : B ⬝ᵥ rw' = 0 := hB ▸ hrw.2 b
  have oA' : A ⬝ᵥ rw' = 0 := hA ▸ hrw.2 a
  have oB' : B ⬝ᵥ rt = 0 := hB ▸ hrt.2 b
  rw [← hA, ← hB] at he
  rw [← hA] at ha
  rw [← hB] at hb
  have et : rt ⬝ᵥ rt + A ⬝ᵥ A = 1 := by
    rw [← ut, ha, dotProduct_add, add_dotProduct, add_dotProduct, oA, dotProduct_comm rt A, oA]; ring
  have ew : rw' ⬝ᵥ rw' + B ⬝ᵥ B = 1 := by
    rw [← uw, hb, dotProduct_add, add_dotProduct, add_dotProduct, oB, dotProduct_comm rw' B, oB]; ring
  have eAB : A ⬝ᵥ A = B ⬝ᵥ B := by linarith
  have hA0 : 0 < A ⬝ᵥ A := by
    rcases lt_or_eq_of_le (Finset.sum_nonneg fun i _ => mul_self_nonneg (A i) : 0 ≤ A ⬝ᵥ A) with h | h
    · exact h
    · exfalso
      have : A = 0 := dotProduct_self_eq_zero.1 h.symm
      rw [this, add_zero] at ha
      exact hproj ha.symm
  rw [← eAB, div_self hA0.ne', Real.sqrt_one] at he
  obtain ⟨l, hl⟩ : ∃ l, l = max 1 (-(rt ⬝ᵥ rw') / (A ⬝ᵥ A)) := ⟨_, rfl⟩
  rw [← hl] at he
  have e1 : t + S' *ᵥ d = rt + l • B := by
    rw [he, mulVec_sub, mulVec_smul, ← hA, ← hB, ha]; abel
  have hu : B ⬝ᵥ A ≤ A ⬝ᵥ A := by
    have h0 : 0 ≤ (B - A) ⬝ᵥ (B - A) := Finset.sum_nonneg fun i _ => mul_self_nonneg _
    rw [dotProduct_sub, sub_dotProduct, sub_dotProduct, dotProduct_comm A B, ← eAB] at h0
    linarith
  have key := fallback_correlation (u := B ⬝ᵥ A) hneg hA0 et
    (Finset.sum_nonneg fun i _ => mul_self_nonneg _) hu hl
  have n1 : v ⬝ᵥ (rt + l • B) = rt ⬝ᵥ rw' + l * (A ⬝ᵥ A) := by
    rw [hb, add_dotProduct, dotProduct_add, dotProduct_add, dotProduct_smul, dotProduct_smul, dotProduct_comm rw' B,
      oB, oB', dotProduct_comm rw' rt, ← eAB]
    simp
  have n2 : (rt + l • B) ⬝ᵥ (rt + l • B) = rt ⬝ᵥ rt + l ^ 2 * (A ⬝ᵥ A) := by
    rw [dotProduct_add, add_dotProduct, add_dotProduct, smul_dotProduct, dotProduct_smul, dotProduct_smul,
      smul_dotProduct, dotProduct_comm rt B, oB', ← eAB]
    simp only [smul_eq_mul]; ring
  have n3 : v ⬝ᵥ t = rt ⬝ᵥ rw' + B ⬝ᵥ A := by
    rw [hb, ha, add_dotProduct, dotProduct_add, dotProduct_add, dotProduct_comm rw' A, oA', oB',
      dotProduct_comm rw' rt]
    ring
  unfold Spec.correlation
  rw [e1, n1, n2, n3, ut, Real.sqrt_one, div_one]
  exact key

/-- A normalised template and a normalised image of two by two pixels. -/
noncomputable def fallTemplate : Planes 1 2 2 := fun _ p =>
  if p.1 = 0 then (if p.2 = 0 then 17 / 26 else -7 / 26) else (if p.2 = 0 then 7 / 26 else -17 / 26)

@[inherit_doc fallTemplate]
noncomputable def fallImage : Planes 1 2 2 := fun _ p =>
  if p.1 = 0 then (if p.2 = 0 then 1 / 6 else -5 / 6) else (if p.2 = 0 then 1 / 6 else 3 / 6)

theorem fallTemplate_normal : normalise fallTemplate = .ok fallTemplate := by
  have hm : (∑ i : Px 1 2 2, fallTemplate i.1 i.2) / ((1 * (2 * 2) : ℕ) : ℝ) = 0 := by
    norm_num [Fintype.sum_prod_type, Fin.sum_univ_two, fallTemplate]
  have hs : Real.sqrt (∑ i : Px 1 2 2, (fallTemplate i.1 i.2 - 0) ^ 2) = 1 := by
    rw [Real.sqrt_eq_one]
    norm_num [Fintype.sum_prod_type, Fin.sum_univ_two, fallTemplate]
  unfold normalise
  simp only [hm]
  rw [hs, if_neg one_ne_zero]
  simp

theorem fallImage_normal : normalise fallImage = .ok fallImage := by
  have hm : (∑ i : Px 1 2 2, fallImage i.1 i.2) / ((1 * (2 * 2) : ℕ) : ℝ) = 0 := by
    norm_num [Fintype.sum_prod_type, Fin.sum_univ_two, fallImage]
  have hs : Real.sqrt (∑ i : Px 1 2 2, (fallImage i.1 i.2 - 0) ^ 2) = 1 := by
    rw [Real.sqrt_eq_one]
    norm_num [Fintype.sum_prod_type, Fin.sum_univ_two, fallImage]
  unfold normalise
  simp only [hm]
  rw [hs, if_neg one_ne_zero]
  simp

/-- C94 is violated where no increment is optimal: the increment of inverse compositional fitting turns a positive
correlation into a negative one (the linearised template's). -/
theorem C94_no_optimum_violated :
    ∃ (pre : EccState 1 × Matrix (Px 1 2 2) (Fin 1) ℝ × Matrix (Fin 1) (Fin 1) ℝ) (s : EccState 1)
      (dp : Fin 1 → ℝ), icPrecompute (ecc squareEnv) shiftJac2 fallTemplate none = .ok pre ∧
      icIncrement (ecc squareEnv) pre fallTemplate fallImage = .ok (s, dp) ∧
      0 < Spec.correlation (fun x : Px 1 2 2 => fallImage x.1 x.2) (fun x : Px 1 2 2 => fallTemplate x.1 x.2) ∧
      Spec.correlation (fun x : Px 1 2 2 => fallImage x.1 x.2)
          ((fun x : Px 1 2 2 => fallTemplate x.1 x.2) + pre.2.1 *ᵥ dp) < 0 := by
  obtain ⟨S, hS⟩ : ∃ S, S = sdi (squareEnv.grad fallTemplate) shiftJac2 := ⟨_, rfl⟩
  have hs : ∀ p : Pos 2 2, S (0, p) 0 = -(12 / 13) * (1 - 2 * (p.2 : ℕ)) := by
    rintro ⟨p1, p2⟩
    rw [hS]
    have e11 : (1 + 1 : Fin 2) = 0 := rfl
    fin_cases p1 <;> fin_cases p2 <;> norm_num [sdi, squareEnv, fallTemplate, shiftJac2, e11]
  have hH : (Sᵀ * S) 0 0 = 576 / 169 := by
    rw [mul_apply, Fintype.sum_prod_type]
    simp only [Fintype.sum_prod_type, Fin.sum_univ_one, Fin.sum_univ_two, transpose_apply, hs]
    norm_num
  have hdet : (Sᵀ * S).det ≠ 0 := by rw [det_fin_one, hH]; norm_num
  obtain ⟨G, hG⟩ : ∃ G, G = (Sᵀ * S)⁻¹ := ⟨_, rfl⟩
  have hinv : npInv (Sᵀ * S) = .ok G := by rw [npInv, if_neg hdet, hG]
  obtain ⟨dp, hdp⟩ : ∃ dp, npSolve (Sᵀ * S) (Sᵀ *ᵥ fun x : Px 1 2 2 =>
      eccLambda G S (fun x : Px 1 2 2 => fallImage x.1 x.2) (fun x : Px 1 2 2 => fallTemplate x.1 x.2) *
        fallImage x.1 x.2 - fallTemplate x.1 x.2) = .ok dp := ⟨_, by rw [npSolve, if_neg hdet]⟩
  have hmul : ∀ (q : Fin 1 → ℝ) (p : Pos 2 2), (S *ᵥ q) (0, p) = -(12 / 13) * (1 - 2 * (p.2 : ℕ)) * q 0 := by
    intro q p; rw [mulVec, dotProduct, Fin.sum_univ_one, hs]
  obtain ⟨rt, hrt⟩ : ∃ r : Px 1 2 2 → ℝ, r = fun x => 5 / 26 * (1 - 2 * ((x.2.1 : ℕ) : ℝ)) := ⟨_, rfl⟩
  obtain ⟨rw', hrw⟩ : ∃ r : Px 1 2 2 → ℝ, r = fun x => (x.2.2 : ℕ) * (-(2 / 3) * (1 - 2 * ((x.2.1 : ℕ) : ℝ))) :=
    ⟨_, rfl⟩
  have ht : Spec.IsRemainder S (fun x : Px 1 2 2 => fallTemplate x.1 x.2) rt := by
    refine ⟨⟨fun _ => -(1 / 2), ?_⟩, fun q => ?_⟩
    · funext x
      obtain ⟨i, p1, p2⟩ := x
      rw [Subsingleton.elim i 0, Pi.sub_apply, hmul, hrt]
      fin_cases p1 <;> fin_cases p2 <;> norm_num [fallTemplate]
    · rw [dotProduct, Fintype.sum_prod_type]
      simp only [Fintype.sum_prod_type, Fin.sum_univ_one, Fin.sum_univ_two, hmul, hrt]
      norm_num
  have hw : Spec.IsRemainder S (fun x : Px 1 2 2 => fallImage x.1 x.2) rw' := by
    refine ⟨⟨fun _ => -(13 / 72), ?_⟩, fun q => ?_⟩
    · funext x
      obtain ⟨i, p1, p2⟩ := x
      rw [Subsingleton.elim i 0, Pi.sub_apply, hmul, hrw]
      fin_cases p1 <;> fin_cases p2 <;> norm_num [fallImage]
    · rw [dotProduct, Fintype.sum_prod_type]
      simp only [Fintype.sum_prod_type, Fin.sum_univ_one, Fin.sum_univ_two, hmul, hrw]
      norm_num
  have h1 : rt ⬝ᵥ rw' = -(10 / 39) := by
    rw [dotProduct, Fintype.sum_prod_type]
    simp only [Fintype.sum_prod_type, Fin.sum_univ_one, Fin.sum_univ_two, hrt, hrw]
    norm_num
  obtain ⟨a, b, ha, hb, he⟩ := ecc_step_fallback hinv ht hw (by rw [h1]; norm_num) hdp
  have ha0 : a 0 = -(1 / 2) := by
    have := congrFun ha (0, (0, 0))
    rw [Pi.add_apply, hmul, hrt] at this
    norm_num [fallTemplate] at this
    linarith
  have hb0 : b 0 = -(13 / 72) := by
    have := congrFun hb (0, (0, 0))
    rw [Pi.add_apply, hmul, hrw] at this
    norm_num [fallImage] at this
    linarith
  have hA : (S *ᵥ a) ⬝ᵥ (S *ᵥ a) = 144 / 169 := by
    rw [dotProduct, Fintype.sum_prod_type]
    simp only [Fintype.sum_prod_type, Fin.sum_univ_one, Fin.sum_univ_two, hmul, ha0]
    norm_num
  have hB : (S *ᵥ b) ⬝ᵥ (S *ᵥ b) = 1 / 9 := by
    rw [dotProduct, Fintype.sum_prod_type]
    simp only [Fintype.sum_prod_type, Fin.sum_univ_one, Fin.sum_univ_two, hmul, hb0]
    norm_num
  have hq : Real.sqrt (1 / 9 / (144 / 169)) = 13 / 36 := by
    rw [show (1 / 9 / (144 / 169) : ℝ) = (13 / 36) ^ 2 by norm_num, Real.sqrt_sq (by norm_num)]
  have hd0 : dp 0 = 1127 / 2592 := by
    rw [he, h1, hA, hB, hq, max_eq_left (by norm_num), Pi.sub_apply, Pi.smul_apply, ha0, hb0]; norm_num
  refine ⟨(some G, S, Sᵀ * S), some G, dp, ?_, ?_, ?_, ?_⟩
  · simp only [icPrecompute, ecc, normaliseSource, fallTemplate_normal, Except.map, bind, Except.bind, pure,
      Except.pure, gradientOf, ← hS, hinv]
  · simp only [icIncrement, ecc, fallTemplate_normal, fallImage_normal, bind, Except.bind, pure, Except.pure, hdp]
  · unfold Spec.correlation
    rw [normalise_unit fallTemplate_normal, Real.sqrt_one, div_one, dotProduct, Fintype.sum_prod_type]
    simp only [Fintype.sum_prod_type, Fin.sum_univ_one, Fin.sum_univ_two]
    norm_num [fallImage, fallTemplate]
  · obtain ⟨v, hv⟩ : ∃ v : Px 1 2 2 → ℝ, v = (fun x : Px 1 2 2 => fallTemplate x.1 x.2) + S *ᵥ dp := ⟨_, rfl⟩
    show Spec.correlation _ ((fun x : Px 1 2 2 => fallTemplate x.1 x.2) + S *ᵥ dp) < 0
    rw [← hv]
    have vv : ∀ p, v (0, p) = fallTemplate 0 p + -(12 / 13) * (1 - 2 * (p.2 : ℕ)) * (1127 / 2592) := by
      intro p; rw [hv, Pi.add_apply, hmul, hd0]
    unfold Spec.correlation
    apply div_neg_of_neg_of_pos
    · rw [dotProduct, Fintype.sum_prod_type]
      simp only [Fintype.sum_prod_type, Fin.sum_univ_one, Fin.sum_univ_two, vv]
      norm_num [fallImage, fallTemplate]
    · apply Real.sqrt_pos.2
      rw [dotProduct, Fintype.sum_prod_type]
      simp only [Fintype.sum_prod_type, Fin.sum_univ_one, Fin.sum_univ_two, vv]
      norm_num [fallTemplate]

/-- The hypotheses of `C94_no_optimum_partial`: the template of the existing example and its negative after a flip,
whose remainders have equal size and opposite directions. -/
example : ∃ (S : Matrix (Px 1 2 2) (Fin 1) ℝ) (rt rw' : Px 1 2 2 → ℝ),
    (ecc squareEnv).images none (.frame eccTemplate) shiftJac2 = .ok (none, S, S) ∧
    Spec.IsRemainder S (fun x : Px 1 2 2 => eccTemplate x.1 x.2) rt ∧
    Spec.IsRemainder S (fun x : Px 1 2 2 => -eccTemplate x.1 x.2) rw' ∧
    rt ⬝ᵥ rw' ≤ 0 ∧ rt ⬝ᵥ rt = rw' ⬝ᵥ rw' ∧ rt ≠ fun x : Px 1 2 2 => eccTemplate x.1 x.2 := by
  obtain ⟨S, hS⟩ : ∃ S, S = sdi (squareEnv.grad eccTemplate) shiftJac2 := ⟨_, rfl⟩
  have e11 : (1 + 1 : Fin 2) = 0 := rfl
  have hs : ∀ p : Pos 2 2, S (0, p) 0 = -(3 / 5) * (1 - 2 * (p.2 : ℕ)) := by
    rintro ⟨p1, p2⟩
    rw [hS]
    fin_cases p1 <;> fin_cases p2 <;> norm_num [sdi, squareEnv, eccTemplate, shiftJac2, e11]
  have hmul : ∀ (q : Fin 1 → ℝ) (p : Pos 2 2), (S *ᵥ q) (0, p) = -(3 / 5) * (1 - 2 * (p.2 : ℕ)) * q 0 := by
    intro q p; rw [mulVec, dotProduct, Fin.sum_univ_one, hs]
  obtain ⟨r, hr⟩ : ∃ r : Px 1 2 2 → ℝ, r = fun x => 4 / 10 * (1 - 2 * ((x.2.1 : ℕ) : ℝ)) := ⟨_, rfl⟩
  have orth : ∀ q, (S *ᵥ q) ⬝ᵥ r = 0 := by
    intro q
    rw [dotProduct, Fintype.sum_prod_type]
    simp only [Fintype.sum_prod_type, Fin.sum_univ_one, Fin.sum_univ_two, hmul, hr]
    norm_num
  refine ⟨S, r, -r, ?_, ⟨⟨fun _ => -(1 / 2), ?_⟩, orth⟩, ⟨⟨fun _ => 1 / 2, ?_⟩, fun q => ?_⟩, ?_, ?_, ?_⟩
  · simp only [ecc, normaliseSource, eccTemplate_normal, Except.map, bind, Except.bind, pure, Except.pure,
      gradientOf, ← hS]
  · funext x
    obtain ⟨i, p1, p2⟩ := x
    rw [Subsingleton.elim i 0, Pi.sub_apply, hmul, hr]
    fin_cases p1 <;> fin_cases p2 <;> norm_num [eccTemplate]
  · funext x
    obtain ⟨i, p1, p2⟩ := x
    rw [Subsingleton.elim i 0, Pi.sub_apply, hmul, Pi.neg_apply, hr]
    fin_cases p1 <;> fin_cases p2 <;> norm_num [eccTemplate]
  · rw [dotProduct_neg, orth, neg_zero]
  · rw [dotProduct_neg, neg_nonpos]; exact Finset.sum_nonneg fun i _ => mul_self_nonneg _
  · rw [dotProduct_neg, neg_dotProduct, neg_neg]
  · intro h0
    have := congrFun h0 (0, (0, 0))
    rw [hr] at this
    norm_num [eccTemplate] at this

end Menpofit
