import Verif.Model.AamBase
/-!
# Specification of AAM instances and reconstructions
-/

namespace Menpofit
namespace Spec
open AamBase

/-- `x` is the mean of the model plus a weighted sum of the modes, `w` standard deviations of
each. -/
def ModeSum {ι : Type} (m : EigModel ι) (w : Nat → ℝ) (x : ι → ℝ) : Prop :=
  ∀ i, x i = m.mean i + ∑ k : Fin m.modes.length, w k * Real.sqrt (m.modes[k]).1 * (m.modes[k]).2 i

end Spec
end Menpofit
