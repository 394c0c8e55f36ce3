import Mathlib.Data.Matrix.Mul
import Mathlib.Algebra.BigOperators.Fin
/-!
# Specification of the appearance features
-/

namespace Menpofit
namespace Spec

variable {K : Type} [Field K] {N m a : Nat}

/-- The image an appearance model generates: the mean plus the weighted components. -/
def generated (mean : Fin N → K) (components : Fin a → Fin N → K) (c : Fin a → K) : Fin N → K :=
  fun p => mean p + ∑ j, c j * components j p

/-- Sum of squared differences between an image and the image generated with the weights `c`, over
the pixels of a mask. -/
def maskedError (mean : Fin N → K) (components : Fin a → Fin N → K) (mask : Fin m → Fin N)
    (i : Fin N → K) (c : Fin a → K) : K :=
  ∑ r, (i (mask r) - generated mean components c (mask r)) ^ 2

end Spec
end Menpofit
