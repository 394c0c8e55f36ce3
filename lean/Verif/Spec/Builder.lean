import Verif.Model.Error
/-!
# Specification of the training helpers
-/

namespace Menpofit
namespace Spec
open Error

noncomputable section

/-- Length of the diagonal of the axis-aligned bounding box. -/
def diagonalLength {n : Nat} (s : Shape n 2) : ℝ :=
  Real.sqrt (extent s 0 ^ 2 + extent s 1 ^ 2)

/-- `m` is the pointwise mean of the shapes. -/
def IsMeanOf {n : Nat} (shapes : List (Shape n 2)) (m : Shape n 2) : Prop :=
  ∀ i j, shapes.length * m i j = (shapes.map fun s => s i j).sum

end
end Spec
end Menpofit
