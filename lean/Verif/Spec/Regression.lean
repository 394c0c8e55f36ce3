import Mathlib.LinearAlgebra.Matrix.Defs
import Mathlib.Data.Matrix.Mul
import Mathlib.Algebra.Order.Field.Basic
import Mathlib.Algebra.BigOperators.Fin
/-!
# Specification vocabulary for the regressors (C35–C37)
-/

namespace Menpofit.Spec
open Matrix

variable {K : Type} [Field K]

/-- The ridge-regression cost of the affine map `x ↦ x A + b`: squared prediction error over
the samples plus `alpha` times the squared size of all coefficients (the bias is one
more coefficient). -/
def ridgeCost {n d q : Nat} (alpha : K) (X : Matrix (Fin n) (Fin d) K)
    (Y : Matrix (Fin n) (Fin q) K) (A : Matrix (Fin d) (Fin q) K) (b : Fin q → K) : K :=
  (∑ i, ∑ j, ((∑ k, X i k * A k j) + b j - Y i j) ^ 2) +
    alpha * ((∑ k, ∑ j, A k j ^ 2) + ∑ j, b j ^ 2)

/-- A data set: one pair (input row, output row) per sample. -/
abbrev Samples (K : Type) (d q : Nat) := List ((Fin d → K) × (Fin q → K))

/-- The matrix of inputs. -/
def inputs {d q : Nat} (l : Samples K d q) : Matrix (Fin l.length) (Fin d) K :=
  Matrix.of fun i => (l[i]).1

/-- The matrix of outputs. -/
def outputs {d q : Nat} (l : Samples K d q) : Matrix (Fin l.length) (Fin q) K :=
  Matrix.of fun i => (l[i]).2

/-- A client that calls a method once per data set, stopping at the first exception. -/
def callEach {S E A : Type} (step : S → A → S × Except E Unit) : S → List A → S × Except E Unit
  | st, [] => (st, .ok ())
  | st, a :: as =>
    match step st a with
    | (st', .ok ()) => callEach step st' as
    | (st', .error e) => (st', .error e)

/-- Cost of explaining `x` by `y J`: squared error plus `alpha2` times the squared size of `y`. -/
def explainCost {d q : Nat} (alpha2 : K) (J : Matrix (Fin q) (Fin d) K) (x : Fin d → K)
    (y : Fin q → K) : K :=
  (∑ k, ((∑ j, y j * J j k) - x k) ^ 2) + alpha2 * ∑ j, y j ^ 2

end Menpofit.Spec
