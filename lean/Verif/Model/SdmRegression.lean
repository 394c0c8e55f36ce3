import Verif.Model.Sdm
import Verif.Model.Regression
import Verif.Model.Spectral
/-!
# The cascade with regularised linear regression

The classes `IRLRegression`, `IIRLRegression`, `PCRRegression` and `OPPRegression` of
`/repo/menpofit/math/regression.py` as the regressors of supervised descent algorithms.  `np.vstack` of the feature rows and the array of the targets are matrices with one sample per row.
-/

namespace Menpofit
namespace SdmReg
open Reg Sdm

noncomputable section

variable {K : Type} [Field K] [DecidableEq K]

/-- `np.vstack` of the rows. See `/repo/menpofit/sdm/algorithm/base.py:215` and `:251` -/
def stack {d : Nat} (rows : List (Fin d → K)) : Matrix (Fin rows.length) (Fin d) K := Matrix.of rows.get

/-- `self._regressor_cls()` and its `train`, `increment` and `predict`,
/repo/menpofit/sdm/algorithm/base.py:102-110 with /repo/menpofit/math/regression.py:20-103.  `predict` is row by
row (`predictRows`, :84-103); the regressors of a cascade are trained, so that the `TypeError` of an untrained
one (here: zeros) does not occur. -/
def irlOps (alpha : K) (bias incrementable : Bool) (d q : Nat) :
    RegOps (Fin d → K) (Fin q → K) (Irl K (width bias d) q) where
  train xs ys :=
    let r := Reg.train bias (newIrl alpha incrementable _ _) (stack xs) (stack ys)
    r.2.map fun _ => r.1
  increment st xs ys :=
    let r := Reg.increment bias st (stack xs) (stack ys)
    r.2.map fun _ => r.1
  predict st xs :=
    match predictRows bias st (stack xs) with
    | .ok M => List.ofFn fun i => M i
    | .error _ => xs.map fun _ => 0

/-- A call of a method that returns the prediction of one sample, or zeros where it raises (see `irlOps`).
See `/repo/menpofit/sdm/algorithm/base.py:110` -/
def orZero {L : Type} [Zero L] {q : Nat} : Except PyErr (Fin q → L) → Fin q → L
  | .ok v => v
  | .error _ => 0

/-- `IIRLRegression` in a cascade: /repo/menpofit/sdm/algorithm/base.py:102-110 with
/repo/menpofit/math/regression.py:120-188 (the Gauss-Newton algorithms,
/repo/menpofit/sdm/algorithm/nonparametric.py:147-148). -/
def iirlOps (alpha alpha2 : K) (d q : Nat) : RegOps (Fin d → K) (Fin q → K) (Iirl K d q) where
  train xs ys :=
    let r := trainIirl (newIirl alpha alpha2 d q) (stack xs) (stack ys)
    r.2.map fun _ => r.1
  increment st xs ys :=
    let r := incrementIirl st (stack xs) (stack ys)
    r.2.map fun _ => r.1
  predict st xs := xs.map fun x => orZero (predictIirl st x)

/-- `PCRRegression` in a cascade: /repo/menpofit/sdm/algorithm/base.py:102-110 with
/repo/menpofit/math/regression.py:203-275 (/repo/menpofit/sdm/algorithm/nonparametric.py:181-182). -/
def pcrOps (svd : SvdFn) (variance : Option ℝ) (bias : Bool) (d q : Nat) :
    RegOps (Fin d → ℝ) (Fin q → ℝ) (Pcr (width bias d) q) where
  train xs ys :=
    let r := trainPcr svd bias ⟨variance, none, none⟩ (stack xs) (stack ys)
    r.2.map fun _ => r.1
  increment st xs _ :=
    let r := incrementOther st xs
    r.2.map fun _ => r.1
  predict st xs := xs.map fun x => orZero (predictPcr bias st x)

/-- `OPPRegression` in a cascade: /repo/menpofit/sdm/algorithm/base.py:102-110 with
/repo/menpofit/math/regression.py:382-450 (/repo/menpofit/sdm/algorithm/nonparametric.py:249). -/
def oppOps (svd : SvdFn) (pca : PcaFn) (whiten bias : Bool) (d q : Nat) :
    RegOps (Fin d → ℝ) (Fin q → ℝ) (Opp (width bias d) q) where
  train xs ys :=
    let r := trainOpp svd pca bias ⟨whiten, none⟩ (stack xs) (stack ys)
    r.2.map fun _ => r.1
  increment st xs _ :=
    let r := incrementOther st xs
    r.2.map fun _ => r.1
  predict st xs := xs.map fun x => orZero (predictR bias st.R x)

end
end SdmReg
end Menpofit
