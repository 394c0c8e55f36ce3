import Mathlib.Analysis.SpecialFunctions.Complex.Circle
import Mathlib.Analysis.SpecialFunctions.Sqrt
import Mathlib.LinearAlgebra.Matrix.DotProduct
/-!
# What Lucas-Kanade residuals should do
-/

namespace Menpofit
namespace Spec
open Matrix

/-- `y` is `x` with another contrast (`a > 0`) and brightness (`b`). -/
def Relit {ι : Type} (x y : ι → ℝ) : Prop := ∃ a b : ℝ, 0 < a ∧ ∀ i, y i = a * x i + b

/-- The two collections of vectors agree up to one positive factor. -/
def SameUpToGain {ι : Type} (x y : ι → ℝ) : Prop := ∃ a : ℝ, 0 < a ∧ ∀ i, y i = a * x i

/-- The vectors `(x₀, x₁)` and `(y₀, y₁)` are parallel: they point in the same or in opposite directions. -/
def Parallel (x y : Fin 2 → ℝ) : Prop := x 0 * y 1 = x 1 * y 0

/-- The two vectors point in the same direction. -/
def SameDirection (x y : Fin 2 → ℝ) : Prop := ∃ a : ℝ, 0 < a ∧ ∀ d, y d = a * x d

/-- Linear filters of the frequency domain that map real images to real images. -/
def RealFilter {ι : Type} (filter : (ι → ℂ) → ι → ℂ) : Prop :=
  ∀ x : ι → ℝ, ∃ y : ι → ℝ, filter (fun i => (x i : ℂ)) = fun i => (y i : ℂ)

/-- The correlation coefficient of a unit vector `u` with `v`. -/
noncomputable def correlation {ι : Type} [Fintype ι] (u v : ι → ℝ) : ℝ := (u ⬝ᵥ v) / Real.sqrt (v ⬝ᵥ v)

/-- `r` is what remains of `x` after the best approximation by the columns of `G` is subtracted. -/
def IsRemainder {ι κ : Type} [Fintype ι] [Fintype κ] (G : Matrix ι κ ℝ) (x r : ι → ℝ) : Prop :=
  (∃ a, r = x - G *ᵥ a) ∧ ∀ q, (G *ᵥ q) ⬝ᵥ r = 0

/-- The gradient ignores brightness and is proportional to contrast. -/
def IsGradient {ι κ : Type} (grad : (ι → κ → ℝ) → Fin 2 → ι → κ → ℝ) : Prop :=
  ∀ (x y : ι → κ → ℝ) (a b : ℝ), (∀ i p, y i p = a * x i p + b) → ∀ d i p, grad y d i p = a * grad x d i p

/-- Derivative of the orientation `φ` along one axis, from the derivatives `ds` and `dc` of its sine and
cosine. -/
noncomputable def orientationDerivative (phi ds dc : ℝ) : ℝ := Real.cos phi * ds - Real.sin phi * dc

end Spec
end Menpofit
