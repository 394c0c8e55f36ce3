import Mathlib.Algebra.BigOperators.Group.List.Basic
/-!
# Specification: training data listed several times
-/

namespace Menpofit
namespace Spec

/-- The whole list, `m` times in a row. -/
def copies {α : Type} (m : Nat) (l : List α) : List α := (List.replicate m l).flatten

end Spec
end Menpofit
