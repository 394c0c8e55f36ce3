import Mathlib.Analysis.Complex.Norm
import Mathlib.Analysis.InnerProductSpace.PiL2
/-!
# Specification of poses of planar shapes (points are complex numbers)
-/

namespace Menpofit
namespace Spec

variable {n : Nat}

/-- `t` is `s` scaled, rotated (`a`) and moved (`b`). -/
def PoseOf (a b : ℂ) (s t : Fin n → ℂ) : Prop := a ≠ 0 ∧ ∀ i, t i = a * s i + b

/-- Not all points coincide. -/
def NotPoint (s : Fin n → ℂ) : Prop := ∃ i j, s i ≠ s j

/-- The points have mean 0. -/
def CentredAtOrigin (s : Fin n → ℂ) : Prop := ∑ i, s i = 0

/-- Sum of the squared distances of the points from the origin. -/
noncomputable def energy (s : Fin n → ℂ) : ℝ := ∑ i, ‖s i‖ ^ 2

/-- How far one shape is from another: the length of the difference of the two vectors of points. -/
noncomputable def complexDistance (s t : Fin n → ℂ) : ℝ :=
  ‖(WithLp.toLp 2 s : EuclideanSpace ℂ (Fin n)) - WithLp.toLp 2 t‖

end Spec
end Menpofit
