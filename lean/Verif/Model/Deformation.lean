import Verif.Model.SharedModel
import Verif.Model.DeformationTree
import Verif.Model.Placement
/-!
# The deformation model of an APS

`_build_deformation_model` (`/repo/menpofit/aps/base.py:420-430`) asks menpo for a Gaussian Markov
random field over the deformation graph in the mode `subtraction`: one covariance per edge, of the
differences of its two vertices; the precision matrix has the inverse covariance of each edge in the
diagonal blocks of its vertices and minus the inverse covariance in the two blocks between them
(menpo's `GMRFModel` with `n_components=None`, `sparse=False`).
-/

namespace Menpofit
namespace Deform
open Matrix MI Shared Place Warp

noncomputable section

variable {n N m M : Nat}

/-- The covariance of an edge of `GMRFModel(shapes, graph, mode="subtraction")`,
`/repo/menpofit/aps/base.py:421-430`: of the differences of its vertices over the shapes. -/
def edgeCov (shapes : Fin N → Pts n 2) (e : Fin n × Fin n) : Matrix (Fin 2) (Fin 2) ℝ :=
  Matrix.of fun d d' => Mst.cov (Mst.diff shapes e.1 e.2 d) (Mst.diff shapes e.1 e.2 d')

/-- What an edge contributes to the precision: the block of the vertices `i` and `j`.
See `/repo/menpofit/aps/base.py:421-430` -/
def blockSign (e : Fin n × Fin n) (i j : Fin n) : ℝ :=
  if i = j then (if i = e.1 ∨ i = e.2 then 1 else 0)
  else if (i = e.1 ∧ j = e.2) ∨ (i = e.2 ∧ j = e.1) then -1 else 0

/-- The precision of the field, `/repo/menpofit/aps/base.py:421-430`.  Simplification: the blocks
between two vertices are added, not assigned, which is the same in a graph that joins no two vertices
twice and no vertex to itself. -/
def assemble : List (Fin n × Fin n) → List (Matrix (Fin 2) (Fin 2) ℝ) →
    Matrix (Fin (n * 2)) (Fin (n * 2)) ℝ
  | e :: es, B :: Bs =>
    Matrix.of (fun r c => blockSign e (finProdFinEquiv.symm r).1 (finProdFinEquiv.symm c).1 *
      B (finProdFinEquiv.symm r).2 (finProdFinEquiv.symm c).2) + assemble es Bs
  | _, _ => 0

/-- The mean of the field: the mean of the vectors of the shapes.
See `/repo/menpofit/aps/base.py:421-430` -/
def meanVector (shapes : Fin N → Pts n 2) : Fin (n * 2) → ℝ := fun r =>
  Mst.mean fun k => shapes k (finProdFinEquiv.symm r)

/-- `_build_deformation_model`, `/repo/menpofit/aps/base.py:420-430`: precision and mean.  A singular
covariance raises `LinAlgError`.  With fewer than two shapes NumPy divides by zero; in the model the
covariance is then zero, hence singular (`N - 1` is zero or negative and the sum is zero). -/
def build (shapes : Fin N → Pts n 2) (edges : List (Fin n × Fin n)) :
    Except PyErr (Matrix (Fin (n * 2)) (Fin (n * 2)) ℝ × (Fin (n * 2) → ℝ)) := do
  let Bs ← edges.mapM fun e => GN.npInv (edgeCov shapes e)
  return (assemble edges Bs, meanVector shapes)

/-- The shapes of which the deformation model is made, `/repo/menpofit/aps/base.py:330-333`: the
aligned ones with `use_procrustes`, otherwise the scaled training shapes as they are. -/
def trainingShapes (useProcrustes : Bool) (scaled aligned : Fin N → Pts n 2) : Fin N → Pts n 2 :=
  if useProcrustes then aligned else scaled

/-! ### The deformation model is drawn -/

/-- The ellipse `view_deformation_model` draws for an edge `(parent, child)`,
`/repo/menpofit/aps/base.py:684-698`: its covariance, read off the precision, and its centre, the child in the
mean of the shape model. -/
def ellipse (Q : Matrix (Fin (n * 2)) (Fin (n * 2)) ℝ) (mean : Pts n 2) (e : Fin n × Fin n) :
    Except PyErr (Matrix (Fin 2) (Fin 2) ℝ × (Fin 2 → ℝ)) := do
  let at' := fun (i : Fin n) (d : Fin 2) => finProdFinEquiv (i, d)
  let s1 := -Q (at' e.2 0) (at' e.1 0)
  let s2 := -Q (at' e.2 1) (at' e.1 1)
  let s3 := -Q (at' e.2 0) (at' e.1 1)
  let c ← GN.npInv !![s1, s3; s3, s2]
  return (c, fun d => mean (e.2, d))

/-- The ellipses of `view_deformation_model`, `/repo/menpofit/aps/base.py:676-698`, `:752-779`: one per edge. -/
def ellipses (Q : Matrix (Fin (n * 2)) (Fin (n * 2)) ℝ) (mean : Pts n 2) (edges : List (Fin n × Fin n)) :
    Except PyErr (List (Matrix (Fin 2) (Fin 2) ℝ × (Fin 2 → ℝ))) :=
  edges.mapM (ellipse Q mean)

/-! ### An APS looks at a picture -/

variable {q : Nat} {Pic C : Type}

/-- A picture seen by an APS, `/repo/menpofit/aps/algorithm/gn.py:121-160`: the patches around the
current shape after `patch_normalisation` (`pixels`: vectorised and masked), and their gradient (any
function of them).  No borders and exact positions, see `Place.patches`. -/
def apsImage {W : Type} (offs : Fin q → P 2) (normalise : (Fin n → Fin q → C) → W)
    (pixels : W → Fin m → ℝ) (grad : W → Fin 2 → Fin m → ℝ) (sample : Pic → P 2 → C) (im : Pic) :
    ApsImage n m where
  warp s := .ok (pixels (normalise (patches offs sample im s)))
  gradient s := grad (normalise (patches offs sample im s))

end
end Deform
end Menpofit
