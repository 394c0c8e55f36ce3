import Verif.Model.Result
/-!
# Specification: one result continues another
-/

namespace Menpofit
namespace Spec
open Result

variable {S V K : Type}

/-- `r` continues `r'`: same initial shape and ground truth, and all shapes of `r'`, numbers of iterations
per scale and costs of `r'` are the first ones of `r`. -/
def Continues (r' r : Res S V K) : Prop :=
  r'.initial = r.initial ∧ r'.gt = r.gt ∧ r'.shapes <+: r.shapes ∧ r'.perScale <+: r.perScale ∧
    r'.costs.isSome = r.costs.isSome ∧ ∀ c c', r.costs = some c → r'.costs = some c' → c' <+: c

end Spec
end Menpofit
