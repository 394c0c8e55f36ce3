import Verif.Lemmas.Descent
import Verif.Lemmas.Spectral
import Mathlib.Algebra.Order.Ring.Rat
/-!
# C135: where supervised descent training does not improve the training shapes
-/

namespace Menpofit
open Sdm Spec SdmReg Reg GN Matrix

/-- One stage on two images with one shape each. -/
theorem two_images {K R : Type} [Field K] {q d : Nat} (ops : RegOps (Fin d → K) (Fin q → K) R)
    (x₁ x₂ : Fin d → K) (g₁ g₂ s₁ s₂ p₁ p₂ : Fin q → K) (r : R)
    (ht : ops.train [x₁, x₂] [g₁ - s₁, g₂ - s₂] = .ok r) (hp : ops.predict r [x₁, x₂] = [p₁, p₂]) :
    ∃ st, Sdm.train ops (plain (Fin q → K)) (fun im _ => im) (fun _ => 0) 1 false [] [x₁, x₂] [g₁, g₂] [[s₁], [s₂]] =
      .ok ([r], [[s₁ + p₁], [s₂ + p₂]], [st]) := by
  simp [Sdm.train, computeDelta, deltaRows, stages, featureRows, updateAll, updateShapes, plain, bind, Except.bind,
    pure, Except.pure, ht, hp]

theorem totalError_two {K : Type} [Field K] {q : Nat} (g₁ g₂ a b : Fin q → K) :
    totalError id [g₁, g₂] [[a], [b]] = sqOffset g₁ a + sqOffset g₂ b := by
  simp [totalError, perShape]

theorem sqOffset_one {K : Type} [Field K] (a b : K) : sqOffset (fun _ : Fin 1 => a) (fun _ => b) = (a - b) ^ 2 := by
  simp [sqOffset]

/-- Regression through the origin with one feature, one output and two samples. -/
theorem irl_two {K : Type} [Field K] [LinearOrder K] [IsStrictOrderedRing K] (x y z w : K) (h : x * x + y * y ≠ 0) :
    ∃ r, (irlOps (0 : K) false false 1 1).train [fun _ => x, fun _ => y] [fun _ => z, fun _ => w] = .ok r ∧
      (irlOps (0 : K) false false 1 1).predict r [fun _ => x, fun _ => y] =
        [fun _ => x * ((x * z + y * w) / (x * x + y * y)), fun _ => y * ((x * z + y * w) / (x * x + y * y))] := by
  obtain ⟨X, hX⟩ : ∃ X : Matrix (Fin 2) (Fin 1) K, X = stack [fun _ : Fin 1 => x, fun _ => y] := ⟨_, rfl⟩
  obtain ⟨Y, hY⟩ : ∃ Y : Matrix (Fin 2) (Fin 1) K, Y = stack [fun _ : Fin 1 => z, fun _ => w] := ⟨_, rfl⟩
  have hdet : (Reg.normal (0 : K) X).det ≠ 0 := by
    rw [normal_eq, hX]
    simp [stack, det_fin_one, Matrix.mul_apply, Fin.sum_univ_two, h]
  obtain ⟨W, hW⟩ : ∃ W, W = (Reg.normal (0 : K) X)⁻¹ * (Xᵀ * Y) := ⟨_, rfl⟩
  have ht : Reg.train false (newIrl (0 : K) false (width false 1) 1) X Y =
      ({ newIrl (0 : K) false 1 1 with W := some W }, .ok ()) := by
    refine (trainCore_of_det (st := newIrl (0 : K) false 1 1) (X := X) (Y := Y) hdet).trans ?_
    rw [hW]; rfl
  have hm : Reg.normal (0 : K) X * W = Xᵀ * Y := by
    rw [hW, ← Matrix.mul_assoc, mul_nonsing_inv _ (isUnit_iff_ne_zero.mpr hdet), Matrix.one_mul]
  have hWv : W 0 0 = (x * z + y * w) / (x * x + y * y) := by
    have := congrFun (congrFun hm 0) 0
    rw [normal_eq, hX, hY] at this
    have hsum : (x * x + y * y) * W 0 0 = x * z + y * w := by
      simpa [stack, Fin.sum_univ_two, Matrix.mul_apply] using this
    rw [eq_div_iff h, ← hsum]; ring
  rw [hX, hY] at ht
  refine ⟨{ newIrl (0 : K) false 1 1 with W := some W }, ?_, ?_⟩
  · simp only [irlOps]
    erw [ht]
    rfl
  · have e : ∀ t : K, addBias1 false (fun _ : Fin 1 => t) ᵥ* W = fun _ => t * W 0 0 := by
      intro t
      funext j
      rw [Fin.eq_zero j]
      exact Fin.sum_univ_one (fun i : Fin 1 => t * W i 0)
    rw [← hWv]
    exact congrArg₂ (fun a b => [a, b]) (e x) (e y)

/-- The total falls, but a single training shape may end up further away: the default regressor. -/
theorem C135_single_shape_violated :
    ∃ r st, Sdm.train (irlOps (0 : ℚ) false false 1 1) (plain (Fin 1 → ℚ)) (fun im _ => im) (fun _ => 0) 1 false []
        [fun _ => 1, fun _ => 1] [fun _ => 3, fun _ => -1] [[fun _ => 0], [fun _ => 0]] =
        .ok ([r], [[fun _ => 1], [fun _ => 1]], [st]) ∧
      sqOffset (fun _ : Fin 1 => (-1 : ℚ)) (fun _ => 0) < sqOffset (fun _ : Fin 1 => (-1 : ℚ)) (fun _ => 1) := by
  obtain ⟨r, h1, h2⟩ := irl_two (1 : ℚ) 1 3 (-1) (by norm_num)
  obtain ⟨st, h3⟩ := two_images (irlOps (0 : ℚ) false false 1 1) (fun _ => 1) (fun _ => 1) (fun _ => 3) (fun _ => -1)
    (fun _ => 0) (fun _ => 0) _ _ r (by
      rw [← h1]; congr 2
      · funext i; simp
      · congr 1; funext i; simp) h2
  refine ⟨r, st, ?_, by rw [sqOffset_one, sqOffset_one]; norm_num⟩
  rw [h3]
  have e : ((fun _ => 0 : Fin 1 → ℚ) + fun _ => 1 * ((1 * 3 + 1 * -1) / (1 * 1 + 1 * 1))) = fun _ => 1 := by
    funext i; simp; norm_num
  rw [e]

/-- Training with the inverse regressors of the Gauss-Newton algorithms may move the training shapes away from the
ground truth. -/
theorem C135_gauss_newton_violated :
    ∃ r, Sdm.train (iirlOps (0 : ℚ) 0 1 1) (plain (Fin 1 → ℚ)) (fun im _ => im) (fun _ => 0) 1 false []
        [fun _ => 1, fun _ => -1 / 2] [fun _ => 1, fun _ => 1] [[fun _ => 0], [fun _ => 0]] = .ok r ∧
      totalError id [fun _ : Fin 1 => (1 : ℚ), fun _ => 1] [[fun _ => 0], [fun _ => 0]] <
        totalError id [fun _ => 1, fun _ => 1] r.2.1 := by
  obtain ⟨X, hX⟩ : ∃ X : Matrix (Fin 2) (Fin 1) ℚ, X = stack [fun _ : Fin 1 => (1 : ℚ), fun _ => -1 / 2] := ⟨_, rfl⟩
  obtain ⟨Y, hY⟩ : ∃ Y : Matrix (Fin 2) (Fin 1) ℚ, Y = stack [fun _ : Fin 1 => (1 : ℚ), fun _ => 1] := ⟨_, rfl⟩
  have hdet : (Reg.normal (0 : ℚ) Y).det ≠ 0 := by
    rw [normal_eq, hY]
    simp [stack, det_fin_one, Matrix.mul_apply, Fin.sum_univ_two]
  have hb := trainCore_of_det (st := newIrl (0 : ℚ) false 1 1) (X := Y) (Y := X) hdet
  obtain ⟨J, hJ⟩ : ∃ J, J = (Reg.normal (0 : ℚ) Y)⁻¹ * (Yᵀ * X) := ⟨_, rfl⟩
  have hJm : Reg.normal (0 : ℚ) Y * J = Yᵀ * X := by
    rw [hJ, ← Matrix.mul_assoc, mul_nonsing_inv _ (isUnit_iff_ne_zero.mpr hdet), Matrix.one_mul]
  have hJv : J 0 0 = 1 / 4 := by
    have := congrFun (congrFun hJm 0) 0
    rw [normal_eq, hX, hY] at this
    simp [stack, Fin.sum_univ_two, Matrix.mul_apply] at this
    linarith
  have hHdet : (J * Jᵀ).det ≠ 0 := by
    rw [det_fin_one]
    simp [Matrix.mul_apply, hJv]
  have hinv : invertJ (0 : ℚ) J = .ok ((J * Jᵀ)⁻¹ * J)ᵀ := by
    unfold invertJ npSolveMat
    dsimp only
    rw [if_pos rfl, if_neg hHdet]
    rfl
  obtain ⟨W, hW⟩ : ∃ W, W = ((J * Jᵀ)⁻¹ * J)ᵀ := ⟨_, rfl⟩
  have hWv : W 0 0 = 4 := by
    have hm : J * Jᵀ * ((J * Jᵀ)⁻¹ * J) = J := by
      rw [← Matrix.mul_assoc, mul_nonsing_inv _ (isUnit_iff_ne_zero.mpr hHdet), Matrix.one_mul]
    have := congrFun (congrFun hm 0) 0
    rw [Matrix.mul_apply] at this
    simp only [Finset.univ_unique, Fin.default_eq_zero, Finset.sum_singleton, Matrix.mul_apply (M := J), transpose_apply,
      hJv] at this
    have hw : W 0 0 = ((J * Jᵀ)⁻¹ * J) 0 0 := by rw [hW]; rfl
    rw [hw]
    linarith
  have ht : (iirlOps (0 : ℚ) 0 1 1).train [fun _ => 1, fun _ => -1 / 2] [fun _ => 1, fun _ => 1] =
      .ok { newIirl (0 : ℚ) 0 1 1 with W := some W } := by
    have e : trainIirl (newIirl (0 : ℚ) 0 1 1) X Y = ({ newIirl (0 : ℚ) 0 1 1 with W := some W }, .ok ()) := by
      unfold trainIirl
      simp only [newIirl]
      rw [hb]
      have e0 : (Reg.normal (newIrl (0 : ℚ) false 1 1).alpha Y)⁻¹ * (Yᵀ * X) = J := hJ.symm
      rw [e0]
      simp only [hinv, ← hW]
    rw [hX, hY] at e
    simp only [iirlOps]
    erw [e]
    rfl
  have hp : (iirlOps (0 : ℚ) 0 1 1).predict { newIirl (0 : ℚ) 0 1 1 with W := some W }
      [fun _ => 1, fun _ => -1 / 2] = [fun _ => 4, fun _ => -2] := by
    simp only [iirlOps, predictIirl, List.map_cons, List.map_nil, orZero]
    congr 1
    · funext j; rw [Fin.eq_zero j]; simp [vecMul, dotProduct, hWv]
    · congr 1
      funext j; rw [Fin.eq_zero j]; simp [vecMul, dotProduct, hWv]; norm_num
  obtain ⟨st, h3⟩ := two_images (iirlOps (0 : ℚ) 0 1 1) (fun _ => 1) (fun _ => -1 / 2) (fun _ => 1) (fun _ => 1)
    (fun _ => 0) (fun _ => 0) _ _ _ (by
      rw [← ht]; congr 2
      · funext i; simp
      · congr 1; funext i; simp) hp
  refine ⟨_, h3, ?_⟩
  simp only
  rw [totalError_two, totalError_two]
  have e1 : ((fun _ => 0 : Fin 1 → ℚ) + fun _ => 4) = fun _ => 4 := by funext i; simp
  have e2 : ((fun _ => 0 : Fin 1 → ℚ) + fun _ => -2) = fun _ => -2 := by funext i; simp
  rw [e1, e2, sqOffset_one, sqOffset_one, sqOffset_one]
  norm_num

/-- So may training with orthogonal Procrustes regressors, which cannot take steps shorter than their features. -/
theorem C135_procrustes_violated (svd : SvdFn) (pca : PcaFn)
    (hsvd : ∀ n d (X : Matrix (Fin n) (Fin d) ℝ), IsSvd X (svd n d X).U (svd n d X).s (svd n d X).V) :
    ∃ r, Sdm.train (oppOps svd pca false false 1 1) (plain (Fin 1 → ℝ)) (fun im _ => im) (fun _ => 0) 1 false []
        [fun _ => 10, fun _ => 10] [fun _ => 1, fun _ => 1] [[fun _ => 0], [fun _ => 0]] = .ok r ∧
      totalError id [fun _ : Fin 1 => (1 : ℝ), fun _ => 1] [[fun _ => 0], [fun _ => 0]] <
        totalError id [fun _ => 1, fun _ => 1] r.2.1 := by
  obtain ⟨X, hX⟩ : ∃ X : Matrix (Fin 2) (Fin 1) ℝ, X = stack [fun _ : Fin 1 => (10 : ℝ), fun _ => 10] := ⟨_, rfl⟩
  obtain ⟨Y, hY⟩ : ∃ Y : Matrix (Fin 2) (Fin 1) ℝ, Y = stack [fun _ : Fin 1 => (1 : ℝ), fun _ => 1] := ⟨_, rfl⟩
  have hs := hsvd 1 1 (Xᵀ * Y)
  obtain ⟨f, hf⟩ : ∃ f, f = svd 1 1 (Xᵀ * Y) := ⟨_, rfl⟩
  rw [← hf] at hs
  have hR : (f.U * f.V) 0 0 = 1 := by
    have hU : f.U 0 (0 : Fin 1) * f.U 0 (0 : Fin 1) = 1 := by
      have := congrFun (congrFun hs.left (0 : Fin 1)) (0 : Fin 1)
      rw [Matrix.mul_apply] at this
      exact (Fin.sum_univ_one _).symm.trans this
    have hV : f.V (0 : Fin 1) 0 * f.V (0 : Fin 1) 0 = 1 := by
      have := congrFun (congrFun hs.right (0 : Fin 1)) (0 : Fin 1)
      rw [Matrix.mul_apply] at this
      exact (Fin.sum_univ_one _).symm.trans this
    have hP : f.U 0 (0 : Fin 1) * f.s (0 : Fin 1) * f.V (0 : Fin 1) 0 = 20 := by
      have := congrFun (congrFun hs.product 0) 0
      rw [Matrix.mul_apply, Matrix.mul_apply] at this
      have h2 : (∑ j : Fin (min 1 1), (f.U * diagonal f.s) 0 j * f.V j 0) =
          f.U 0 (0 : Fin 1) * f.s (0 : Fin 1) * f.V (0 : Fin 1) 0 := by
        refine (Fin.sum_univ_one _).trans ?_
        congr 1
        exact mul_diagonal (M := f.U) (d := f.s) _ _
      rw [h2, hX, hY] at this
      rw [← this]
      simp [stack, Fin.sum_univ_two]; norm_num
    have hm : (f.U * f.V) 0 0 = f.U 0 (0 : Fin 1) * f.V (0 : Fin 1) 0 := by
      rw [Matrix.mul_apply]; exact Fin.sum_univ_one _
    rw [hm]
    have h0 := hs.nonneg (0 : Fin 1)
    have hsq : (f.U 0 (0 : Fin 1) * f.V (0 : Fin 1) 0) ^ 2 = 1 := by
      calc _ = (f.U 0 (0 : Fin 1) * f.U 0 (0 : Fin 1)) * (f.V (0 : Fin 1) 0 * f.V (0 : Fin 1) 0) := by ring
        _ = 1 := by rw [hU, hV, one_mul]
    have hPos : 0 < f.U 0 (0 : Fin 1) * f.V (0 : Fin 1) 0 := by
      by_contra hneg
      have : f.s (0 : Fin 1) * (f.U 0 (0 : Fin 1) * f.V (0 : Fin 1) 0) ≤ 0 :=
        mul_nonpos_of_nonneg_of_nonpos h0 (not_lt.mp hneg)
      have e : f.s (0 : Fin 1) * (f.U 0 (0 : Fin 1) * f.V (0 : Fin 1) 0) = 20 := by rw [← hP]; ring
      linarith
    nlinarith
  obtain ⟨W, hW⟩ : ∃ W : Matrix (Fin 1) (Fin 1) ℝ, W = f.U * f.V := ⟨_, rfl⟩
  rw [← hW] at hR
  have ht : (oppOps svd pca false false 1 1).train [fun _ => 10, fun _ => 10] [fun _ => 1, fun _ => 1] =
      .ok ⟨false, some W⟩ := by
    have e : trainOpp svd pca false (d := 1) ⟨false, none⟩ X Y = (⟨false, some W⟩, .ok ()) := by
      unfold trainOpp trainOppCore
      simp only [addBias, Bool.false_eq_true, if_false, tdot_same]
      rw [hW, hf]
      rfl
    rw [hX, hY] at e
    simp only [oppOps]
    erw [e]
    rfl
  have hp : (oppOps svd pca false false 1 1).predict ⟨false, some W⟩ [fun _ => 10, fun _ => 10] =
      [fun _ => 10, fun _ => 10] := by
    have e : (fun _ : Fin 1 => (10 : ℝ)) ᵥ* W = fun _ => 10 := by
      funext j
      rw [Fin.eq_zero j]
      have : ((fun _ : Fin 1 => (10 : ℝ)) ᵥ* W) 0 = 10 * W 0 0 :=
        Fin.sum_univ_one (fun i : Fin 1 => (10 : ℝ) * W i 0)
      rw [this, hR, mul_one]
    simp only [oppOps, predictR, List.map_cons, List.map_nil, orZero, addBias1]
    rw [e]
  obtain ⟨st, h3⟩ := two_images (oppOps svd pca false false 1 1) (fun _ => 10) (fun _ => 10) (fun _ => 1) (fun _ => 1)
    (fun _ => 0) (fun _ => 0) _ _ _ (by
      rw [← ht]; congr 2
      · funext i; simp
      · congr 1; funext i; simp) hp
  refine ⟨_, h3, ?_⟩
  simp only
  rw [totalError_two, totalError_two]
  have e1 : ((fun _ => 0 : Fin 1 → ℝ) + fun _ => 10) = fun _ => 10 := by funext i; simp
  rw [e1, sqOffset_one, sqOffset_one]
  norm_num

/-- Non-vacuity of `C135_newton_partial`: a training run with the default regressor, and the improvement it makes. -/
example : ∃ r st, Sdm.train (irlOps (0 : ℚ) false false 1 1) (plain (Fin 1 → ℚ)) (fun im _ => im) (fun _ => 0) 1 false []
      [fun _ => 1, fun _ => 2] [fun _ => 1, fun _ => 3] [[fun _ => 0], [fun _ => 0]] =
        .ok ([r], [[fun _ => 7 / 5], [fun _ => 14 / 5]], [st]) ∧
      totalError id [fun _ : Fin 1 => (1 : ℚ), fun _ => 3] [[fun _ => 7 / 5], [fun _ => 14 / 5]] <
        totalError id [fun _ : Fin 1 => (1 : ℚ), fun _ => 3] [[fun _ => 0], [fun _ => 0]] := by
  obtain ⟨r, h1, h2⟩ := irl_two (1 : ℚ) 2 1 3 (by norm_num)
  obtain ⟨st, h3⟩ := two_images (irlOps (0 : ℚ) false false 1 1) (fun _ => 1) (fun _ => 2) (fun _ => 1) (fun _ => 3)
    (fun _ => 0) (fun _ => 0) _ _ r (by
      rw [← h1]; congr 2
      · funext i; simp
      · congr 1; funext i; simp) h2
  refine ⟨r, st, ?_, by simp only [totalError_two, sqOffset_one]; norm_num⟩
  rw [h3]
  have e : ((fun _ => 0 : Fin 1 → ℚ) + fun _ => 1 * ((1 * 1 + 2 * 3) / (1 * 1 + 2 * 2))) = fun _ => 7 / 5 := by
    funext i; simp; norm_num
  have e' : ((fun _ => 0 : Fin 1 → ℚ) + fun _ => 2 * ((1 * 1 + 2 * 3) / (1 * 1 + 2 * 2))) = fun _ => 14 / 5 := by
    funext i; simp; norm_num
  rw [e, e']

end Menpofit
