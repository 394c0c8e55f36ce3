import Verif.Spec.Reorder
import Verif.Lemmas.AamSolvers
/-!
# Properties: the order of the features matters to alternating fits with priors (C136)
-/

namespace Menpofit
open MI Spec Matrix Aam GN

/-- The Jacobian: the shape parameter changes the first feature. -/
noncomputable def cycleJacobian (ρ : Equiv.Perm (Fin 3)) : Matrix (Fin 3) (Fin 1) ℝ := fun i _ => if ρ i = 0 then 1 else 0

/-- An appearance model with three features and three components: the components are the three unit vectors, the image
shows the first of them, and the shape parameter changes the first feature.  The features come in the order `ρ`. -/
noncomputable def cycleSetup (ρ : Equiv.Perm (Fin 3)) : Setup 1 3 3 ℝ (Pts 1 2) Unit Unit ℝ where
  setTarget _ := 0
  target p _ := p 0
  warp _ _ := .ok ()
  mask _ i := if ρ i = 0 then 1 else 0
  jacI _ := cycleJacobian ρ
  jacA _ := cycleJacobian ρ
  aBar := 0
  A := (1 : Matrix (Fin 3) (Fin 3) ℝ).submatrix ρ id
  pinvA := (1 : Matrix (Fin 3) (Fin 3) ℝ).submatrix id ρ
  priorS := 0
  priorA := 1
  dist _ _ := 0

theorem cycle_components (ρ : Equiv.Perm (Fin 3)) (v : Fin 3 → ℝ) :
    ((1 : Matrix (Fin 3) (Fin 3) ℝ).submatrix ρ id) *ᵥ v = fun i => v (ρ i) := by
  funext i
  simp [mulVec, dotProduct, one_apply]

theorem cycle_projection (ρ : Equiv.Perm (Fin 3)) (v : Fin 3 → ℝ) :
    ((1 : Matrix (Fin 3) (Fin 3) ℝ).submatrix id ρ) *ᵥ v = fun i => v (ρ.symm i) := by
  funext i
  simp only [mulVec, dotProduct, one_apply, submatrix_apply, id]
  rw [Finset.sum_eq_single (ρ.symm i)]
  · simp
  · intro j _ hj
    rw [if_neg, zero_mul]
    rintro rfl
    simp at hj
  · simp

theorem cycle_gram (ρ : Equiv.Perm (Fin 3)) :
    ((1 : Matrix (Fin 3) (Fin 3) ℝ).submatrix ρ id)ᵀ * (1 : Matrix (Fin 3) (Fin 3) ℝ).submatrix ρ id = 1 := by
  rw [transpose_submatrix, submatrix_mul_equiv]
  simp

theorem npSolve_two (b : Fin 3 → ℝ) :
    npSolve ((1 : Matrix (Fin 3) (Fin 3) ℝ) + diagonal (1 : Fin 3 → ℝ)) b = .ok fun i => b i / 2 := by
  have e : (1 : Matrix (Fin 3) (Fin 3) ℝ) + diagonal (1 : Fin 3 → ℝ) = diagonal fun _ => 2 := by
    ext i j
    by_cases h : i = j <;> simp [h, diagonal_apply, one_apply]; norm_num
  have hd : (diagonal (fun _ : Fin 3 => (2 : ℝ))).det ≠ 0 := by simp
  rw [e, npSolve_of_det hd]
  congr 1
  have : diagonal (fun _ : Fin 3 => (2 : ℝ)) *ᵥ (fun i => b i / 2) = b := by
    funext i
    simp [mulVec_diagonal]
    ring
  conv_lhs => rw [← this]
  rw [mulVec_mulVec, nonsing_inv_mul _ (isUnit_iff_ne_zero.2 hd), one_mulVec]

theorem cycle_appearance (ρ : Equiv.Perm (Fin 3)) (p : Fin 1 → ℝ) :
    altAppearance (cycleSetup ρ) true ⟨p, fun i => if i = 0 then 1 else 0, (), 0⟩ =
      .ok fun i => if i = 0 then -1 / 2 else 0 := by
  have e : (cycleSetup ρ).mask () - appearance (cycleSetup ρ) (fun i => if i = 0 then 1 else 0) = 0 := by
    simp only [appearance, cycleSetup, cycle_components]
    funext i
    simp
  unfold altAppearance
  simp only [e, if_true, npDot, npAdd, dite_true, bind, Except.bind]
  have g : (cycleSetup ρ).Aᵀ * (cycleSetup ρ).A + diagonal (cycleSetup ρ).priorA = 1 + diagonal 1 := by
    rw [← cycle_gram ρ]; rfl
  rw [g, npSolve_two]
  congr 1
  funext i
  by_cases h : i = 0 <;> simp [h, cycleSetup, cycle_components]

theorem npSolve_unit (H : Matrix (Fin 1) (Fin 1) ℝ) (h : H = 1) (b : Fin 1 → ℝ) : npSolve H b = .ok b := by
  subst h
  rw [npSolve_of_det (by simp)]
  simp

theorem cycle_shape (ρ : Equiv.Perm (Fin 3)) (inverse : Bool) :
    altShape (cycleSetup ρ) inverse true ⟨0, fun i => if i = 0 then 1 else 0, (), 0⟩ (fun i => if i = 0 then -1 / 2 else 0) =
      .ok fun _ => if ρ (ρ 0) = 0 then -1 / 2 else 0 := by
  have e : (cycleSetup ρ).mask () - appearance (cycleSetup ρ) (fun i => if i = 0 then 1 else 0) = 0 := by
    simp only [appearance, cycleSetup, cycle_components]
    funext i
    simp
  have hJ : jacobian (cycleSetup ρ) inverse (⟨0, fun i => if i = 0 then 1 else 0, (), 0⟩ : St 1 3 3 ℝ Unit) =
      cycleJacobian ρ := by
    cases inverse <;> rfl
  have hA : (cycleSetup ρ).Aᵀ = (1 : Matrix (Fin 3) (Fin 3) ℝ).submatrix id ρ := by
    simp only [cycleSetup, transpose_submatrix, transpose_one]
  have hH : (cycleJacobian ρ)ᵀ * cycleJacobian ρ = 1 := by
    ext i j
    have : i = j := Subsingleton.elim _ _
    subst this
    simp only [mul_apply, transpose_apply, one_apply_eq, cycleJacobian]
    rw [Finset.sum_eq_single (ρ.symm 0)]
    · simp
    · intro k _ hk
      rw [if_neg, zero_mul]
      intro h
      exact hk (by rw [← h]; simp)
    · simp
  unfold altShape
  simp only [e, if_true, npDot, npAdd, dite_true, bind, Except.bind, hJ, hA, solveShapeMap, pyIs, hH, mapStep]
  simp only [Fin.cast_refl, id, cycle_projection]
  rw [if_pos (by simp), npSolve_unit _ (by ext i j; simp [cycleSetup])]
  simp only [Except.map]
  congr 1
  funext k
  simp only [cycleSetup, Pi.neg_apply, Pi.add_apply, Pi.mul_apply, Pi.zero_apply, zero_mul, zero_add, mulVec, dotProduct,
    transpose_apply, cycleJacobian]
  rw [Finset.sum_eq_single (ρ.symm 0)]
  · have : ρ.symm (ρ.symm 0) = 0 ↔ ρ (ρ 0) = 0 := by
      rw [Equiv.symm_apply_eq, Equiv.symm_apply_eq]; exact eq_comm
    simp only [Equiv.apply_symm_apply, if_true, one_mul, this]
    split_ifs <;> norm_num
  · intro j _ hj
    rw [if_neg, zero_mul]
    intro h
    exact hj (by rw [← h]; simp)
  · simp

theorem cycle_step (ρ : Equiv.Perm (Fin 3)) (inverse : Bool) :
    (Aam.run (cycleSetup ρ) .alternating inverse true 1 0 false () fun _ => 0) =
      .ok ⟨[fun _ => 0, fun _ => if ρ (ρ 0) = 0 then (if inverse then 1 / 2 else -1 / 2) else 0],
        [(0, fun i => if i = 0 then 1 else 0),
          (fun _ => if ρ (ρ 0) = 0 then (if inverse then 1 / 2 else -1 / 2) else 0, fun i => if i = 0 then 1 / 2 else 0)],
        none⟩ := by
  have hc : (cycleSetup ρ).pinvA *ᵥ ((cycleSetup ρ).mask () - (cycleSetup ρ).aBar) = fun i => if i = 0 then 1 else 0 := by
    simp only [cycleSetup, cycle_projection]
    funext i
    simp
  have hs : (machine (cycleSetup ρ) .alternating inverse true ()).step ⟨0, fun i => if i = 0 then 1 else 0, (), 0⟩ =
      advance (cycleSetup ρ) inverse () ⟨0, fun i => if i = 0 then 1 else 0, (), 0⟩
        (jacobian (cycleSetup ρ) inverse ⟨0, fun i => if i = 0 then 1 else 0, (), 0⟩)
        (fun _ => if ρ (ρ 0) = 0 then -1 / 2 else 0)
        (fun _ => (fun i => if i = 0 then 1 else 0) + fun i => if i = 0 then -1 / 2 else 0) := by
    simp only [machine, step, altStep, cycle_appearance, cycle_shape]
  have h0 : (cycleSetup ρ).setTarget (fun _ => 0) = 0 := rfl
  have hw : ∀ p, (cycleSetup ρ).warp () p = .ok () := fun _ => rfl
  unfold Aam.run
  simp only [h0, hw, hc]
  unfold Optim.run
  rw [loop_unfold, if_pos ⟨by decide, trivial⟩, hs]
  simp only [advance, hw]
  rw [loop_unfold, if_neg (by simp)]
  have e1 : ((fun i => if i = 0 then 1 else 0) + fun i => if i = 0 then -1 / 2 else 0 : Fin 3 → ℝ) =
      fun i => if i = 0 then 1 / 2 else 0 := by
    funext i
    by_cases h : i = 0 <;> simp [h]; norm_num
  have e2 : updateWarp inverse (0 : Fin 1 → ℝ) (fun _ => if ρ (ρ 0) = 0 then -1 / 2 else 0) =
      fun _ => if ρ (ρ 0) = 0 then (if inverse then 1 / 2 else -1 / 2) else 0 := by
    funext i
    by_cases h : ρ (ρ 0) = 0 <;> cases inverse <;> simp [updateWarp, h] <;> norm_num
  simp only [e1, e2, machine]
  rfl

/-- **C136** fails for the alternating algorithms with priors when there are as many components as features: the fit
depends on the order of the features. -/
theorem C136_alternating_violated :
    ¬ ∀ (z z' : Setup 1 3 3 ℝ (Pts 1 2) Unit Unit ℝ) (ρ : Equiv.Perm (Fin 3)) (_ : ReorderedAam 1 ρ id z z')
      (inverse : Bool) (maxIters : Int) (tol : ℝ) (im : Unit) (init : Pts 1 2),
      Aam.run z' .alternating inverse true maxIters tol false im init =
        Aam.run z .alternating inverse true maxIters tol false im init := by
  intro h
  have e := h (cycleSetup 1) (cycleSetup (finRotate 3)) (finRotate 3) ?_ false 1 0 () fun _ => 0
  · rw [cycle_step, cycle_step] at e
    have h2 : ¬ (finRotate 3) ((finRotate 3) 0) = 0 := by decide
    simp only [h2, if_false, Except.ok.injEq, Optim.Trace.mk.injEq, List.cons.injEq] at e
    have := congrFun e.1.2.1 (0, 0)
    norm_num at this
  · refine ⟨fun _ => rfl, fun _ => rfl, fun _ _ => rfl, fun _ => rfl, fun _ => rfl, fun _ => rfl, rfl, rfl, rfl, rfl,
      rfl, fun _ _ => rfl⟩

end Menpofit
