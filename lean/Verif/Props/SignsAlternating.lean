import Verif.Spec.Signs
import Verif.Lemmas.AamSolvers
/-!
# Properties: the signs of components matter to alternating fits with priors (C139)
-/

namespace Menpofit
open MI Spec Matrix Aam GN

/-- The Jacobian: the shape parameter changes the first feature. -/
def signJacobian : Matrix (Fin 2) (Fin 1) ℝ := !![1; 0]

/-- An appearance model with two features and two components: the first component is the second feature with sign `d`, the
second component is the first feature, which is what the image shows and what the shape parameter changes. -/
noncomputable def signSetup (d : ℝ) : Setup 1 2 2 ℝ (Pts 1 2) Unit Unit ℝ where
  setTarget _ := 0
  target p _ := p 0
  warp _ _ := .ok ()
  mask _ := ![1, 0]
  jacI _ := signJacobian
  jacA _ := signJacobian
  aBar := 0
  A := !![0, 1; d, 0]
  pinvA := !![0, d; 1, 0]
  priorS := 0
  priorA := 1
  dist _ _ := 0

theorem npSolve_halves (b : Fin 2 → ℝ) :
    npSolve ((1 : Matrix (Fin 2) (Fin 2) ℝ) + diagonal (1 : Fin 2 → ℝ)) b = .ok fun i => b i / 2 := by
  have e : (1 : Matrix (Fin 2) (Fin 2) ℝ) + diagonal (1 : Fin 2 → ℝ) = diagonal fun _ => 2 := by
    ext i j
    by_cases h : i = j <;> simp [h, diagonal_apply, one_apply]; norm_num
  have hd : (diagonal (fun _ : Fin 2 => (2 : ℝ))).det ≠ 0 := by simp
  rw [e, npSolve_of_det hd]
  congr 1
  have : diagonal (fun _ : Fin 2 => (2 : ℝ)) *ᵥ (fun i => b i / 2) = b := by
    funext i
    simp [mulVec_diagonal]
    ring
  conv_lhs => rw [← this]
  rw [mulVec_mulVec, nonsing_inv_mul _ (isUnit_iff_ne_zero.2 hd), one_mulVec]

theorem sign_residual (d : ℝ) : (signSetup d).mask () - appearance (signSetup d) ![0, 1] = 0 := by
  simp only [appearance, signSetup]
  funext i
  fin_cases i <;> simp [mulVec, dotProduct]

theorem sign_appearance (d : ℝ) (hd : d * d = 1) (p : Fin 1 → ℝ) :
    altAppearance (signSetup d) true ⟨p, ![0, 1], (), 0⟩ = .ok ![0, -1 / 2] := by
  unfold altAppearance
  simp only [sign_residual, if_true, npDot, npAdd, dite_true, bind, Except.bind]
  have g : (signSetup d).Aᵀ * (signSetup d).A + diagonal (signSetup d).priorA = 1 + diagonal 1 := by
    congr 1
    ext i j
    fin_cases i <;> fin_cases j <;> simp [signSetup, mul_apply, hd]
  rw [g, npSolve_halves]
  congr 1
  funext i
  fin_cases i <;> simp [signSetup]

theorem sign_shape (d : ℝ) (inverse : Bool) :
    altShape (signSetup d) inverse true ⟨0, ![0, 1], (), 0⟩ ![0, -1 / 2] = .ok fun _ => -d / 2 := by
  have hJ : jacobian (signSetup d) inverse (⟨0, ![0, 1], (), 0⟩ : St 1 2 2 ℝ Unit) = signJacobian := by
    cases inverse <;> rfl
  have hH : signJacobianᵀ * signJacobian = 1 := by
    ext i j
    fin_cases i; fin_cases j
    simp [signJacobian, mul_apply]
  unfold altShape
  simp only [sign_residual, if_true, npDot, npAdd, dite_true, bind, Except.bind, hJ, solveShapeMap, pyIs, hH, mapStep]
  simp only [Fin.cast_refl, id]
  have hu : ∀ H : Matrix (Fin 1) (Fin 1) ℝ, H = 1 → ∀ b, npSolve H b = .ok b := by
    rintro H rfl b
    rw [npSolve_of_det (by simp)]
    simp
  rw [if_pos (by simp), hu _ (by ext i j; simp [signSetup])]
  simp only [Except.map]
  congr 1
  funext k
  simp [signSetup, signJacobian, mulVec, dotProduct]
  ring

theorem sign_step (d : ℝ) (hd : d * d = 1) (inverse : Bool) :
    (Aam.run (signSetup d) .alternating inverse true 1 0 false () fun _ => 0) =
      .ok ⟨[fun _ => 0, fun _ => if inverse then d / 2 else -d / 2],
        [(0, ![0, 1]), (fun _ => if inverse then d / 2 else -d / 2, ![0, 1 / 2])], none⟩ := by
  have hc : (signSetup d).pinvA *ᵥ ((signSetup d).mask () - (signSetup d).aBar) = ![0, 1] := by
    funext i
    fin_cases i <;> simp [signSetup, mulVec, dotProduct]
  have hs : (machine (signSetup d) .alternating inverse true ()).step ⟨0, ![0, 1], (), 0⟩ =
      advance (signSetup d) inverse () ⟨0, ![0, 1], (), 0⟩ (jacobian (signSetup d) inverse ⟨0, ![0, 1], (), 0⟩)
        (fun _ => -d / 2) (fun _ => ![0, 1] + ![0, -1 / 2]) := by
    simp only [machine, step, altStep, sign_appearance d hd, sign_shape]
  have h0 : (signSetup d).setTarget (fun _ => 0) = 0 := rfl
  have hw : ∀ p, (signSetup d).warp () p = .ok () := fun _ => rfl
  unfold Aam.run
  simp only [h0, hw, hc]
  unfold Optim.run
  rw [loop_unfold, if_pos ⟨by decide, trivial⟩, hs]
  simp only [advance, hw]
  rw [loop_unfold, if_neg (by simp)]
  have e1 : (![0, 1] + ![0, -1 / 2] : Fin 2 → ℝ) = ![0, 1 / 2] := by
    funext i
    fin_cases i <;> simp; norm_num
  have e2 : updateWarp inverse (0 : Fin 1 → ℝ) (fun _ => -d / 2) = fun _ => if inverse then d / 2 else -d / 2 := by
    funext i
    cases inverse <;> simp [updateWarp]; ring
  simp only [e1, e2, machine]
  rfl

/-- **C139** fails for the alternating algorithms with priors when there are as many components as features: with the first
appearance component of the other sign, another shape is found. -/
theorem C139_alternating_violated :
    ¬ ∀ (z z' : Setup 1 2 2 ℝ (Pts 1 2) Unit Unit ℝ) (δ : Fin 2 → ℝ) (_ : Signs δ)
      (_ : TurnedAam id 1 (diagonal δ) () () z z') (inverse : Bool) (maxIters : Int) (tol : ℝ) (init : Pts 1 2),
      Aam.run z' .alternating inverse true maxIters tol false () init =
        (Aam.run z .alternating inverse true maxIters tol false () init).map (turnedTraceA id 1 (diagonal δ)) := by
  intro h
  have e := h (signSetup 1) (signSetup (-1)) ![-1, 1] ?_ ?_ false 1 0 fun _ => 0
  · rw [sign_step _ (by norm_num), sign_step _ (by norm_num)] at e
    simp only [Except.map, turnedTraceA, List.map_cons, Except.ok.injEq, Optim.Trace.mk.injEq, List.cons.injEq] at e
    have := congrFun e.1.2.1 (0, 0)
    norm_num at this
  · intro i
    fin_cases i <;> simp
  · refine ⟨by simp, ?_, fun _ => ?_, fun _ => ?_, fun _ => rfl, rfl, fun _ => ?_, fun _ => ?_, rfl, ?_, ?_, ?_, ?_,
      fun _ _ => rfl⟩
    · ext i j
      fin_cases i <;> fin_cases j <;> simp
    all_goals first
      | (simp [signSetup]; done)
      | (ext i j; fin_cases i <;> fin_cases j <;> simp [signSetup, mul_apply, diagonal_apply]; done)
      | skip

end Menpofit
