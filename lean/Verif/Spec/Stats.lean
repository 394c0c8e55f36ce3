import Mathlib.Algebra.Order.Field.Basic
import Mathlib.Data.List.Basic
/-!
# Specification vocabulary for the error statistics (C30–C33, C71)
-/

namespace Menpofit.Spec

variable {K : Type} [Field K] [LinearOrder K]

/-- Fraction of the entries of a list that satisfy a property. -/
def fraction (p : K → Bool) (l : List K) : K := ((l.filter p).length : K) / l.length

end Menpofit.Spec
