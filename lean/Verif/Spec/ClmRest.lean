import Verif.Spec.Clm
import Verif.Spec.FixedPoint
/-!
# Specification: what constrained local models do with their responses (C125)
-/

namespace Menpofit.Spec

/-- A response map (read row by row) that is not changed by turning it by 180 degrees. -/
def TurnSymmetric (response : List ℝ) : Prop := response.reverse = response

/-- The landmarks of a shape as pairs of coordinates. -/
def coordinatesOf {N : Nat} (s : Fin N × Fin 2 → ℝ) (i : Fin N) : ℝ × ℝ := (s (i, 0), s (i, 1))

/-- Twice the energy of a change of the landmarks: the sum of the squared distances between the points `t` and the
landmarks moved by `v` (a vector with the coordinates of the first landmark first). -/
def squaredDistances {N : Nat} (t : Fin N → ℝ × ℝ) (s : Fin N × Fin 2 → ℝ) (v : Fin (N * 2) → ℝ) : ℝ :=
  ∑ i, (((t i).1 - s (i, 0) - v (finProdFinEquiv (i, 0))) ^ 2 +
    ((t i).2 - s (i, 1) - v (finProdFinEquiv (i, 1))) ^ 2)

end Menpofit.Spec
