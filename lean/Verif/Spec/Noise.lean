import Verif.Model.ModelInstance
import Verif.Model.Error
import Mathlib.Analysis.SpecialFunctions.Trigonometric.Basic
/-!
# Specification of noisy alignments
-/

namespace Menpofit
namespace Spec
open MI

noncomputable section

/-- Sum of squared distances of the points to their centroid. -/
def spread {n : Nat} (p : Pts n 2) : ℝ :=
  ∑ i, ((p (i, 0) - centroid p 0) ^ 2 + (p (i, 1) - centroid p 1) ^ 2)

/-- Height or width of the bounding box of the points. -/
def side {n : Nat} (p : Pts n 2) (j : Fin 2) : ℝ := Error.extent (fun i k => p (i, k)) j

/-- The points turned by `θ` (radians), scaled by `c`, both about the point `o`, then moved by
`t`. -/
def turned {n : Nat} (o : Fin 2 → ℝ) (c θ : ℝ) (t : Fin 2 → ℝ) (p : Pts n 2) : Pts n 2 := fun ij =>
  let x := p (ij.1, 0) - o 0
  let y := p (ij.1, 1) - o 1
  if ij.2 = 0 then o 0 + c * (Real.cos θ * x - Real.sin θ * y) + t 0
  else o 1 + c * (Real.sin θ * x + Real.cos θ * y) + t 1

/-- The smallest box with the given lower and upper corner that contains the points. -/
def IsBoundingBox {n : Nat} (p : Pts n 2) (lo hi : Fin 2 → ℝ) : Prop :=
  ∀ j, (∀ i, lo j ≤ p (i, j) ∧ p (i, j) ≤ hi j) ∧ (∃ i, p (i, j) = lo j) ∧ ∃ i, p (i, j) = hi j

/-- The four corners in menpo's order. -/
def corners (lo hi : Fin 2 → ℝ) : Pts 4 2 := fun ij =>
  ![![lo 0, lo 1], ![hi 0, lo 1], ![hi 0, hi 1], ![lo 0, hi 1]] ij.1 ij.2

end
end Spec
end Menpofit
