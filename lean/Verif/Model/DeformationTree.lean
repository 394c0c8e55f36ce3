import Verif.Model.ModelInstance
import Mathlib.Analysis.SpecialFunctions.Log.Basic
import Mathlib.Analysis.Real.Pi.Bounds
/-!
# The default deformation graph of an APS

Models `_compute_minimum_spanning_tree`, `/repo/menpofit/aps/base.py:787-830`.  Arithmetic is exact.
menpo's search for the tree itself is not modelled, only described (`Spec.IsMinimumTree`).
-/

namespace Menpofit
namespace Mst
open MI

noncomputable section

variable {n N : Nat}

/-- `diffs_x`, `diffs_y`, `/repo/menpofit/aps/base.py:806-807`: coordinate `d` of the difference of the
points `i` and `j` in shape `k`. -/
def diff (shapes : Fin N → Pts n 2) (i j : Fin n) (d : Fin 2) (k : Fin N) : ℝ :=
  shapes k (i, d) - shapes k (j, d)

/-- `np.mean(coords, axis=1)`, `/repo/menpofit/aps/base.py:811`. -/
def mean (x : Fin N → ℝ) : ℝ := (∑ k, x k) / N

/-- An entry of `np.cov(coords)`, `/repo/menpofit/aps/base.py:812`; NumPy divides by `N - 1`. -/
def cov (x y : Fin N → ℝ) : ℝ := (∑ k, (x k - mean x) * (y k - mean y)) / (N - 1)

/-- `multivariate_normal.pdf(coords[:, im], mean=m, cov=c)`, `/repo/menpofit/aps/base.py:817`, as SciPy
computes it for an invertible covariance: `exp(-0.5 * (rank * log(2 pi) + log det + maha))`. -/
def pdf (x y mx my cxx cxy cyy : ℝ) : ℝ :=
  let det := cxx * cyy - cxy * cxy
  let maha := (cyy * (x - mx) ^ 2 - 2 * cxy * (x - mx) * (y - my) + cxx * (y - my) ^ 2) / det
  Real.exp (-(1 / 2) * (2 * Real.log (2 * Real.pi) + Real.log det + maha))

/-- The weight of an edge, `/repo/menpofit/aps/base.py:806-818`.  With one shape the covariance is not
a number, which SciPy refuses (`ValueError`); it also refuses a singular covariance (`LinAlgError`).
Simplification: SciPy calls a covariance singular below a tolerance. -/
def edge (shapes : Fin N → Pts n 2) (i j : Fin n) : Except PyErr ℝ :=
  let x := diff shapes i j 0
  let y := diff shapes i j 1
  if N = 1 then .error .valueError
  else if cov x x * cov y y - cov x y * cov x y = 0 then .error .linAlgError
  else .ok (∑ k, -Real.log (pdf (x k) (y k) (mean x) (mean y) (cov x x) (cov x y) (cov y y)))

/-- The pairs of `for i in range(n_vertices - 1): for j in range(i + 1, n_vertices)`.
See `/repo/menpofit/aps/base.py:803-804` -/
def pairs (n : Nat) : List (Fin n × Fin n) :=
  (List.finRange n).flatMap fun i => ((List.finRange n).filter fun j => i < j).map fun j => (i, j)

/-- `weights[i, j] += ...` (from zero) and `weights[j, i] = weights[i, j]`,
`/repo/menpofit/aps/base.py:815-819`. -/
def setWeight (W : Fin n → Fin n → ℝ) (i j : Fin n) (w : ℝ) : Fin n → Fin n → ℝ := fun a b =>
  if a = i ∧ b = j then w else if a = j ∧ b = i then w else W a b

/-- The double loop over the pairs of vertices. See `/repo/menpofit/aps/base.py:803-819` -/
def weightsLoop (shapes : Fin N → Pts n 2) :
    List (Fin n × Fin n) → (Fin n → Fin n → ℝ) → Except PyErr (Fin n → Fin n → ℝ)
  | [], W => .ok W
  | (i, j) :: ps, W =>
    match edge shapes i j with
    | .error e => .error e
    | .ok w => weightsLoop shapes ps (setWeight W i j w)

/-- The matrix of weights, `/repo/menpofit/aps/base.py:789-819`; `shapes[0]` of an empty list raises
`IndexError`. -/
def weights (shapes : Fin N → Pts n 2) : Except PyErr (Fin n → Fin n → ℝ) :=
  if N = 0 then .error .indexError else weightsLoop shapes (pairs n) fun _ _ => 0

end
end Mst
end Menpofit
