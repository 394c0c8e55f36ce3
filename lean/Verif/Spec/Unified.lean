import Verif.Spec.GaussNewton
/-!
# Specification vocabulary for unified fitting (C57)
-/

namespace Menpofit.Spec
open Matrix

/-- The energy that interpolates between the holistic term (weight `a`) and the part-based term
(weight `1 - a`) for the increment `x`; `s` and `r` are the inverse noise variances. -/
def unifiedEnergy {K : Type} [Field K] {n m l : Nat} (a s r : K) (Ja : Matrix (Fin m) (Fin n) K)
    (ea : Fin m → K) (Jc : Matrix (Fin l) (Fin n) K) (ec : Fin l → K) (x : Fin n → K) : K :=
  a * (s * sqNorm (ea - Ja *ᵥ x)) + (1 - a) * (r * sqNorm (ec - Jc *ᵥ x))

end Menpofit.Spec
