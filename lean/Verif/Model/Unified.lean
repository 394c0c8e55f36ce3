import Verif.Model.GaussNewton
/-!
# Unified holistic and part-based fitting: increments and costs

Models the increments of `/repo/menpofit/unified_aam_clm/algorithm.py`.  `Ja` is the Jacobian of the
(projected-out) appearance, `Jc` that of the shape, `s` the inverse noise variance of the appearance and
`r` that of the shape, `ea` and `ec` the appearance and landmark errors.  The landmark error is that of
`Verif.Model.Clm`.
-/

namespace Menpofit
namespace Unified
open Matrix GN

noncomputable section

variable {K : Type} [Field K] [DecidableEq K] {n m l : Nat}

/-- The increment of `ProjectOutRegularisedLandmarkMeanShift.run`,
`/repo/menpofit/unified_aam_clm/algorithm.py:137-143`, `:84-90`, `:156-159` (in the constructor) and
`:237-243`. -/
def projectOutStep (Ja : Matrix (Fin m) (Fin n) K) (s : K) (Jc : Matrix (Fin l) (Fin n) K) (r : K)
    (prior p : Fin n → K) (usePrior : Bool) (a : K) (ea : Fin m → K) (ec : Fin l → K) :
    Except PyErr (Fin n → K) := do
  let ja := s • Ja
  let jc := r • Jc
  let h := jaᵀ * Ja + jcᵀ * Jc
  let pinvA ← npSolveMat h jaᵀ
  let pinvC ← npSolveMat h jcᵀ
  let invPrior ← npInv (h + diagonal prior)
  if usePrior then
    return -(invPrior *ᵥ (prior * p - a • (jaᵀ *ᵥ ea) - (1 - a) • (jcᵀ *ᵥ ec)))
  else return pinvA *ᵥ ea + pinvC *ᵥ ec

/-- The increment of `AlternatingRegularisedLandmarkMeanShift.run`,
`/repo/menpofit/unified_aam_clm/algorithm.py:391-408`. -/
def alternatingStep (Ja : Matrix (Fin m) (Fin n) K) (s : K) (Jc : Matrix (Fin l) (Fin n) K) (r : K)
    (prior p : Fin n → K) (usePrior : Bool) (a : K) (ea : Fin m → K) (ec : Fin l → K) :
    Except PyErr (Fin n → K) :=
  let ja := s • Ja
  let jc := r • Jc
  if usePrior then
    (npSolve (a • (jaᵀ * Ja) + (1 - a) • (jcᵀ * Jc) + diagonal prior)
      (prior * p - a • (jaᵀ *ᵥ ea) - (1 - a) • (jcᵀ *ᵥ ec))).map fun x => -x
  else
    npSolve (a • (jaᵀ * Ja) + (1 - a) • (jcᵀ * Jc)) (a • (jaᵀ *ᵥ ea) + (1 - a) • (jcᵀ *ᵥ ec))

/-- `cost_closure`, `/repo/menpofit/unified_aam_clm/algorithm.py:206-207` and `:351-352`. -/
def cost (a : K) (ea : Fin m → K) (ec : Fin l → K) : K := a * (ea ⬝ᵥ ea) + ec ⬝ᵥ ec

end
end Unified
end Menpofit
