import Mathlib.LinearAlgebra.Matrix.NonsingularInverse
import Mathlib.Algebra.Order.Field.Basic
/-!
# Specification vocabulary for the regularised solvers (C16–C19)
-/

namespace Menpofit.Spec
open Matrix

variable {K : Type} [Field K]

/-- Sum of squares. -/
def sqNorm {m : Nat} (v : Fin m → K) : K := ∑ i, v i ^ 2

/-- Prior energy of parameters: `∑ wᵢ pᵢ²`. -/
def priorEnergy {n : Nat} (w p : Fin n → K) : K := ∑ i, w i * p i ^ 2

/-- `d` is the only minimiser of `f`. -/
def UniqueMin {n : Nat} [LE K] (f : (Fin n → K) → K) (d : Fin n → K) : Prop :=
  ∀ d', f d ≤ f d' ∧ (f d' = f d → d' = d)

end Menpofit.Spec
