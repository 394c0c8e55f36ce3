import Verif.Spec.Regression
import Mathlib.Analysis.SpecialFunctions.Sqrt
import Mathlib.LinearAlgebra.Matrix.DotProduct
import Mathlib.LinearAlgebra.Matrix.Notation
/-!
# What decompositions and unregularised regressors should do (C97-C99)
-/

namespace Menpofit.Spec
open Matrix

/-- A thin singular value decomposition of `X`. -/
structure IsSvd {n d r : Nat} (X : Matrix (Fin n) (Fin d) ℝ) (U : Matrix (Fin n) (Fin r) ℝ) (s : Fin r → ℝ)
    (V : Matrix (Fin r) (Fin d) ℝ) : Prop where
  product : X = U * diagonal s * V
  left : Uᵀ * U = 1
  right : V * Vᵀ = 1
  nonneg : ∀ i, 0 ≤ s i
  sorted : ∀ i j, i ≤ j → s j ≤ s i

/-- The uncentred principal components of the rows of `X`: an orthonormal basis of directions in which the
samples vary, with the mean square along each. -/
structure IsPca {n d k : Nat} (X : Matrix (Fin n) (Fin d) ℝ) (U : Matrix (Fin k) (Fin d) ℝ) (l : Fin k → ℝ) :
    Prop where
  orthonormal : U * Uᵀ = 1
  positive : ∀ i, 0 < l i
  moments : Xᵀ * X = (n : ℝ) • (Uᵀ * diagonal l * U)
  sorted : ∀ i j, i ≤ j → l j ≤ l i

/-- Squared size of the coefficients of `x ↦ x A + b`. -/
def coefficients {d q : Nat} (A : Matrix (Fin d) (Fin q) ℝ) (b : Fin q → ℝ) : ℝ :=
  (∑ k, ∑ j, A k j ^ 2) + ∑ j, b j ^ 2

/-- `x ↦ x A + b` has the least squared error over the samples, and is the only one with the smallest
coefficients among the maps with that error.  Without a bias only maps with `b = 0` are considered. -/
def IsLeastSquaresMap (bias : Bool) {n d q : Nat} (X : Matrix (Fin n) (Fin d) ℝ) (Y : Matrix (Fin n) (Fin q) ℝ)
    (A : Matrix (Fin d) (Fin q) ℝ) (b : Fin q → ℝ) : Prop :=
  (bias = false → b = 0) ∧ ∀ A' b', (bias = false → b' = 0) →
    ridgeCost 0 X Y A b ≤ ridgeCost 0 X Y A' b' ∧
    (ridgeCost 0 X Y A' b' = ridgeCost 0 X Y A b →
      coefficients A b ≤ coefficients A' b' ∧
      (coefficients A' b' = coefficients A b → A' = A ∧ b' = b))

/-- The share of the first `k` of the non-negative values `s` in their sum. -/
noncomputable def share {r : Nat} (s : Fin r → ℝ) (k : Nat) : ℝ :=
  (∑ i ∈ Finset.univ.filter fun i : Fin r => i.val < k, s i) / ∑ i, s i

/-- Squared size of a matrix. -/
def sqSize {n q : Nat} (M : Matrix (Fin n) (Fin q) ℝ) : ℝ := ∑ i, ∑ j, M i j ^ 2

end Menpofit.Spec
