import Mathlib.Data.Matrix.Mul
/-!
# The features of the supervised descent algorithms for AAMs

Models `/repo/menpofit/aam/algorithm/sd.py:67-71`, `:166-176`, `:258-288` and `:372-399`: the
feature vector of a warped image.  The warp itself is an argument (the pixels of the warped image as
a vector); `pinv` is the result of `np.linalg.pinv`.
-/

namespace Menpofit
namespace SdFeatures
open Matrix

variable {K : Type} [Field K] {N m a : Nat}

/-- The appearance model (mean and components as rows), the sampling mask of the interface and the
matrix computed by `np.linalg.pinv`. See `/repo/menpofit/aam/algorithm/sd.py:67-71` -/
structure Setup (K : Type) (N m a : Nat) where
  mean : Fin N → K
  components : Matrix (Fin a) (Fin N) K
  iMask : Fin m → Fin N
  pinv : Matrix (Fin a) (Fin m) K

/-- `i.as_vector()[self.interface.i_mask]`, `/repo/menpofit/aam/algorithm/sd.py:175`, `:283`,
`:397`. -/
def sampled (z : Setup K N m a) (i : Fin N → K) : Fin m → K := fun r => i (z.iMask r)

/-- `a_bar_m`, `/repo/menpofit/aam/algorithm/sd.py:67-71`. -/
def aBarM (z : Setup K N m a) : Fin m → K := sampled z z.mean

/-- `A_m = A.T[i_mask, :]`, `/repo/menpofit/aam/algorithm/sd.py:266-267` and `:380-381`. -/
def aM (z : Setup K N m a) : Matrix (Fin m) (Fin a) K := Matrix.of fun r j => z.componentsᵀ (z.iMask r) j

/-- `MeanTemplate._compute_test_features`, `/repo/menpofit/aam/algorithm/sd.py:172-176`. -/
def meanTemplate (z : Setup K N m a) (i : Fin N → K) : Fin m → K := sampled z i - aBarM z

/-- `ProjectOut._compute_test_features` with `project_out`,
`/repo/menpofit/aam/algorithm/sd.py:271-288`. -/
def projectedOut (z : Setup K N m a) (i : Fin N → K) : Fin m → K :=
  let e := sampled z i - aBarM z
  e - aM z *ᵥ (z.pinv *ᵥ e)

/-- `AppearanceWeights._compute_test_features` with `project`,
`/repo/menpofit/aam/algorithm/sd.py:385-399`. -/
def appearanceWeights (z : Setup K N m a) (i : Fin N → K) : Fin a → K :=
  z.pinv *ᵥ (sampled z i - aBarM z)

end SdFeatures
end Menpofit
