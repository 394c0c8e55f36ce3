import Verif.Model.Regression
import Mathlib.Analysis.SpecialFunctions.Sqrt
/-!
# Regressors based on principal components

Models `PCRRegression`, `OptimalLinearRegression` and `OPPRegression` of
`/repo/menpofit/math/regression.py`.  NumPy's singular value decomposition and pseudo-inverse and menpo's
`pca` are parameters; exact real arithmetic; non-empty arrays.
-/

namespace Menpofit
namespace Reg
open Matrix GN

noncomputable section

/-- A thin singular value decomposition: `U`, the singular values and `V` (already transposed).
See `/repo/menpofit/math/regression.py:224` -/
structure Svd (n d r : Nat) where
  U : Matrix (Fin n) (Fin r) ℝ
  s : Fin r → ℝ
  V : Matrix (Fin r) (Fin d) ℝ

/-- `np.linalg.svd(X, full_matrices=False)`. See `/repo/menpofit/math/regression.py:224` -/
abbrev SvdFn := ∀ n d : Nat, Matrix (Fin n) (Fin d) ℝ → Svd n d (min n d)

/-- Principal components (rows) and their eigenvalues.
See `/repo/menpofit/math/regression.py:310` -/
structure PcaResult (d : Nat) where
  k : Nat
  U : Matrix (Fin k) (Fin d) ℝ
  l : Fin k → ℝ

/-- `menpo.math.pca(X, centre=False)`. See `/repo/menpofit/math/regression.py:310` -/
abbrev PcaFn := ∀ n d : Nat, Matrix (Fin n) (Fin d) ℝ → PcaResult d

/-- `np.linalg.pinv`. See `/repo/menpofit/math/regression.py:328` -/
abbrev PinvFn := ∀ n d : Nat, Matrix (Fin n) (Fin d) ℝ → Matrix (Fin d) (Fin n) ℝ

/-- `np.sum(np.cumsum(s) / np.sum(s) < variance)`, /repo/menpofit/math/regression.py:226-228 and 313-315.
If all values are zero NumPy compares NaN, which is never smaller. -/
def keep {r : Nat} (s : Fin r → ℝ) (variance : ℝ) : Nat :=
  if ∑ i, s i = 0 then 0
  else (Finset.univ.filter fun i : Fin r => (∑ j ∈ Finset.Iic i, s j) / ∑ j, s j < variance).card

theorem keep_le {r : Nat} (s : Fin r → ℝ) (variance : ℝ) : keep s variance ≤ r := by
  unfold keep
  split
  · exact Nat.zero_le _
  · refine (Finset.card_le_univ _).trans ?_
    simp

/-! ### PCRRegression -/

/-- Attributes of a `PCRRegression`, /repo/menpofit/math/regression.py:203-207. -/
structure Pcr (d q : Nat) where
  variance : Option ℝ
  V : Option (Σ k, Matrix (Fin k) (Fin d) ℝ)
  R : Option (Matrix (Fin d) (Fin q) ℝ)

/-- How many components are used, /repo/menpofit/math/regression.py:225-228: `if self.variance` is false for
`None` and zero. -/
def pcrCount {r : Nat} (s : Fin r → ℝ) : Option ℝ → Nat
  | none => r
  | some v => if v = 0 then r else keep s v

theorem pcrCount_le {r : Nat} (s : Fin r → ℝ) (v : Option ℝ) : pcrCount s v ≤ r := by
  unfold pcrCount
  split
  · exact le_refl _
  · split
    · exact le_refl _
    · exact keep_le _ _

/-- /repo/menpofit/math/regression.py:223-235 `PCRRegression.train` after the bias was added.  `self.V` is
assigned before anything can raise.  (The product of line 235 is reassociated.) -/
def trainPcrCore (svd : SvdFn) {n n' d q : Nat} (st : Pcr d q) (X : Matrix (Fin n) (Fin d) ℝ)
    (Y : Matrix (Fin n') (Fin q) ℝ) : Pcr d q × Except PyErr Unit :=
  let f := svd n d X
  let k := pcrCount f.s st.variance
  let c : Fin k → Fin (min n d) := Fin.castLE (pcrCount_le f.s st.variance)
  let U := f.U.submatrix id c
  let V := f.V.submatrix c id
  let s := fun i => f.s (c i)
  let st := { st with V := some ⟨k, V⟩ }
  match npInv (diagonal s) with
  | .error e => (st, .error e)
  | .ok Si =>
    match tdot U Y with
    | .error e => (st, .error e)
    | .ok UY => ({ st with R := some (Vᵀ * Si * UY) }, .ok ())

/-- /repo/menpofit/math/regression.py:209-235 `PCRRegression.train`. -/
def trainPcr (svd : SvdFn) (bias : Bool) {n n' d q : Nat} (st : Pcr (width bias d) q)
    (X : Matrix (Fin n) (Fin d) ℝ) (Y : Matrix (Fin n') (Fin q) ℝ) :
    Pcr (width bias d) q × Except PyErr Unit :=
  trainPcrCore svd st (addBias bias X) Y

/-- /repo/menpofit/math/regression.py:255-275 `PCRRegression.predict` of one sample; `None.T` raises
`AttributeError`, a product with `None` `TypeError`. -/
def predictPcr (bias : Bool) {d q : Nat} (st : Pcr (width bias d) q) (x : Fin d → ℝ) :
    Except PyErr (Fin q → ℝ) :=
  match st.V with
  | none => .error .attributeError
  | some ⟨_, V⟩ =>
    match st.R with
    | none => .error .typeError
    | some R => .ok (addBias1 bias x ᵥ* Vᵀ ᵥ* V ᵥ* R)

/-! ### OptimalLinearRegression -/

/-- Attributes of an `OptimalLinearRegression`, /repo/menpofit/math/regression.py:290-293. -/
structure Optimal (d q : Nat) where
  variance : Option ℝ
  R : Option (Matrix (Fin d) (Fin q) ℝ)

/-- How many components are used, /repo/menpofit/math/regression.py:311-315. -/
def optimalCount {r : Nat} (l : Fin r → ℝ) : Option ℝ → Nat
  | none => r
  | some v => keep l v

theorem optimalCount_le {r : Nat} (s : Fin r → ℝ) (v : Option ℝ) : optimalCount s v ≤ r := by
  unfold optimalCount
  split
  · exact le_refl _
  · exact keep_le _ _

/-- The whitened components, /repo/menpofit/math/regression.py:316-320 (also 405-406): `U[:k]` divided by
the roots of the eigenvalues; `np.linalg.inv` of the diagonal matrix raises if one is zero. -/
def whiten {d k : Nat} (U : Matrix (Fin k) (Fin d) ℝ) (l : Fin k → ℝ) : Except PyErr (Matrix (Fin k) (Fin d) ℝ) :=
  (npInv (diagonal l)).map fun Li => Li.map Real.sqrt * U

/-- /repo/menpofit/math/regression.py:309-328 `OptimalLinearRegression.train` after the bias was added. -/
def trainOptimalCore (pca : PcaFn) (pinv : PinvFn) {n n' d q : Nat} (st : Optimal d q)
    (X : Matrix (Fin n) (Fin d) ℝ) (Y : Matrix (Fin n') (Fin q) ℝ) : Optimal d q × Except PyErr Unit :=
  let p := pca n d X
  let k := optimalCount p.l st.variance
  let c : Fin k → Fin p.k := Fin.castLE (optimalCount_le p.l st.variance)
  match whiten (p.U.submatrix c id) (fun i => p.l (c i)) with
  | .error e => (st, .error e)
  | .ok U =>
    match tdot X Y with
    | .error e => (st, .error e)
    | .ok XY =>
      let A := XY * XYᵀ
      let At := U * A * Uᵀ
      let p2 := pca k k At
      let H := p2.U * U
      match tdot (pinv n p2.k (X * Hᵀ))ᵀ Y with
      | .error e => (st, .error e)
      | .ok PY => ({ st with R := some (Hᵀ * PY) }, .ok ())

/-- /repo/menpofit/math/regression.py:295-328 `OptimalLinearRegression.train`. -/
def trainOptimal (pca : PcaFn) (pinv : PinvFn) (bias : Bool) {n n' d q : Nat} (st : Optimal (width bias d) q)
    (X : Matrix (Fin n) (Fin d) ℝ) (Y : Matrix (Fin n') (Fin q) ℝ) :
    Optimal (width bias d) q × Except PyErr Unit :=
  trainOptimalCore pca pinv st (addBias bias X) Y

/-- /repo/menpofit/math/regression.py:348-367 and 431-450: `predict` of one sample. -/
def predictR (bias : Bool) {d q : Nat} (R : Option (Matrix (Fin (width bias d)) (Fin q) ℝ)) (x : Fin d → ℝ) :
    Except PyErr (Fin q → ℝ) :=
  match R with
  | none => .error .typeError
  | some R => .ok (addBias1 bias x ᵥ* R)

/-! ### OPPRegression -/

/-- Attributes of an `OPPRegression`, /repo/menpofit/math/regression.py:382-385. -/
structure Opp (d q : Nat) where
  whiten : Bool
  R : Option (Matrix (Fin d) (Fin q) ℝ)

/-- /repo/menpofit/math/regression.py:402-411 `OPPRegression.train` after the bias was added. -/
def trainOppCore (svd : SvdFn) (pca : PcaFn) {n n' d q : Nat} (st : Opp d q) (X : Matrix (Fin n) (Fin d) ℝ)
    (Y : Matrix (Fin n') (Fin q) ℝ) : Opp d q × Except PyErr Unit :=
  let X' : Except PyErr (Matrix (Fin n) (Fin d) ℝ) :=
    if st.whiten then
      let p := pca n d X
      (whiten p.U p.l).map fun U => X * Uᵀ * U
    else .ok X
  match X' with
  | .error e => (st, .error e)
  | .ok X' =>
    match tdot X' Y with
    | .error e => (st, .error e)
    | .ok XY =>
      let f := svd d q XY
      ({ st with R := some (f.U * f.V) }, .ok ())

/-- /repo/menpofit/math/regression.py:387-411 `OPPRegression.train`. -/
def trainOpp (svd : SvdFn) (pca : PcaFn) (bias : Bool) {n n' d q : Nat} (st : Opp (width bias d) q)
    (X : Matrix (Fin n) (Fin d) ℝ) (Y : Matrix (Fin n') (Fin q) ℝ) :
    Opp (width bias d) q × Except PyErr Unit :=
  trainOppCore svd pca st (addBias bias X) Y

end
end Reg
end Menpofit
