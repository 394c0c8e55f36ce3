import Verif.Model.Py
import Mathlib.Data.List.Perm.Basic
/-!
# When the order of the data does not matter
-/

namespace Menpofit
namespace Spec

/-- Two computations succeed with the same values (if they fail they may fail differently). -/
def Agree {α : Type} (x y : Except PyErr α) : Prop := ∀ v, x = .ok v ↔ y = .ok v

/-- What is computed from a list does not depend on its order. -/
def OrderFree {D α : Type} (f : List D → Except PyErr α) : Prop :=
  ∀ d d', d.Perm d' → Agree (f d) (f d')

/-- Something is computed for each element of a list: in another order of the list it is the same in
the other order. -/
def Follows {D E : Type} (f : List D → Except PyErr (List E)) : Prop :=
  ∀ d d', d.Perm d' → ∀ r, f d = .ok r → ∃ r', f d' = .ok r' ∧ r.Perm r'

end Spec
end Menpofit
