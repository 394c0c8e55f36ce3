import Verif.Model.Regression
import Mathlib.LinearAlgebra.Matrix.Determinant.Basic
/-!
# Helper lemmas: regression and the order of the samples
-/

namespace Menpofit
open Reg GN Matrix

noncomputable section

variable {K : Type} [Field K] [DecidableEq K] {n m d k q : Nat}

theorem tmul_perm (σ : Fin m ≃ Fin n) (X : Matrix (Fin n) (Fin k) K) (Y : Matrix (Fin n) (Fin q) K) :
    (X.submatrix σ id)ᵀ * Y.submatrix σ id = Xᵀ * Y := by
  ext a b
  simp only [Matrix.mul_apply, transpose_apply, submatrix_apply, id]
  exact Equiv.sum_comp σ fun i => X i a * Y i b

theorem addBias_perm (bias : Bool) (σ : Fin m ≃ Fin n) (X : Matrix (Fin n) (Fin d) K) :
    addBias bias (X.submatrix σ id) = (addBias bias X).submatrix σ id := by
  cases bias <;> rfl

theorem tdot_perm (σ : Fin m ≃ Fin n) (X : Matrix (Fin n) (Fin k) K) (Y : Matrix (Fin n) (Fin q) K) :
    tdot (X.submatrix σ id) (Y.submatrix σ id) = tdot X Y := by
  unfold tdot
  rw [dif_pos rfl, dif_pos rfl]
  exact congrArg _ (tmul_perm σ X Y)

theorem trainCore_perm (σ : Fin m ≃ Fin n) (st : Irl K k q) (X : Matrix (Fin n) (Fin k) K)
    (Y : Matrix (Fin n) (Fin q) K) : trainCore st (X.submatrix σ id) (Y.submatrix σ id) = trainCore st X Y := by
  unfold trainCore Reg.normal
  simp only [tmul_perm, tdot_perm]

theorem incrementCore_perm (σ : Fin m ≃ Fin n) (st : Irl K k q) (X : Matrix (Fin n) (Fin k) K)
    (Y : Matrix (Fin n) (Fin q) K) :
    incrementCore st (X.submatrix σ id) (Y.submatrix σ id) = incrementCore st X Y := by
  unfold incrementCore
  split
  · cases hV : st.V with
    | none => rfl
    | some V =>
      simp only
      obtain ⟨U, hU⟩ : ∃ U, U = if st.alpha = 0 then X * V * Xᵀ else X * V * Xᵀ + diagonal fun _ => st.alpha := ⟨_, rfl⟩
      have hU' : (if st.alpha = 0 then X.submatrix σ id * V * (X.submatrix σ id)ᵀ
          else X.submatrix σ id * V * (X.submatrix σ id)ᵀ + diagonal fun _ => st.alpha) = U.submatrix σ σ := by
        have e1 : X.submatrix σ id * V * (X.submatrix σ id)ᵀ = (X * V * Xᵀ).submatrix σ σ := by
          ext a b
          simp [Matrix.mul_apply, submatrix_apply]
        rw [hU, e1]
        split
        · rfl
        · ext a b
          simp only [Matrix.add_apply, submatrix_apply, diagonal_apply, σ.injective.eq_iff]
      rw [hU', ← hU]
      have hi : npInv (U.submatrix σ σ) = (npInv U).map fun A => A.submatrix σ σ := by
        unfold npInv
        rw [det_submatrix_equiv_self]
        split
        · rfl
        · simp only [Except.map, inv_submatrix_equiv]
      rw [hi]
      cases hu : npInv U with
      | error e => rfl
      | ok Ui =>
        simp only [Except.map]
        have hQ : V * (X.submatrix σ id)ᵀ * Ui.submatrix σ σ * X.submatrix σ id = V * Xᵀ * Ui * X := by
          have e2 : V * (X.submatrix σ id)ᵀ * Ui.submatrix σ σ = (V * Xᵀ * Ui).submatrix id σ := by
            have e3 : V * (X.submatrix σ id)ᵀ = (V * Xᵀ).submatrix id σ := by
              ext a b
              simp [Matrix.mul_apply, submatrix_apply]
            rw [e3, submatrix_mul_equiv]
          rw [e2, submatrix_mul_equiv, submatrix_id_id]
        rw [hQ, tdot_perm]
  · rfl

end

end Menpofit
