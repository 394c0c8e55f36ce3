import Verif.Model.Py
import Mathlib.Analysis.InnerProductSpace.PiL2
import Mathlib.Analysis.SpecialFunctions.Log.Basic
/-!
# Radial basis functions, piecewise affine and thin plate spline warps

Models `/repo/menpofit/transform/{rbf,piecewiseaffine,thinsplatesplines}.py`.  From menpo: the
basis functions vanish at their centres; a piecewise affine warp finds, for every point, a
triangle containing it and the two barycentric coordinates `alpha`, `beta`, and sends it to the
point with the same coordinates in the target triangle; a thin plate spline is the sum of
weighted basis functions and an affine part.
-/

namespace Menpofit
namespace Warp

noncomputable section

/-- Points. See `/repo/menpofit/transform/rbf.py:9-80` -/
abbrev P (d : Nat) := EuclideanSpace ℝ (Fin d)

/-! ### Basis functions -/

/-- menpo `R2LogRRBF.apply` for one point and centre. See `/repo/menpofit/transform/rbf.py:9` -/
def r2LogR {d : Nat} (c x : P d) : ℝ := if dist x c = 0 then 0 else dist x c ^ 2 * Real.log (dist x c)

/-- menpo `R2LogR2RBF.apply`. See `/repo/menpofit/transform/rbf.py:45` -/
def r2LogR2 {d : Nat} (c x : P d) : ℝ :=
  if dist x c = 0 then 0 else dist x c ^ 2 * Real.log (dist x c ^ 2)

/-- /repo/menpofit/transform/rbf.py:19-42 `DifferentiableR2LogRRBF.d_dl`. -/
def r2LogRDdl {np nc d : Nat} (c : Fin nc → P d) (x : Fin np → P d) (i : Fin np) (k : Fin nc) : P d :=
  let r := dist (x i) (c k)
  let comp := x i - c k
  let r := if r = 0 then 1 else r
  (1 + 2 * Real.log r) • comp

/-- /repo/menpofit/transform/rbf.py:55-80 `DifferentiableR2LogR2RBF.d_dl`. -/
def r2LogR2Ddl {np nc d : Nat} (c : Fin nc → P d) (x : Fin np → P d) (i : Fin np) (k : Fin nc) : P d :=
  let r := dist (x i) (c k)
  let comp := x i - c k
  let r := if r = 0 then 1 else r
  (2 * Real.log r + 1) • (2 : ℝ) • comp

/-! ### Piecewise affine -/

/-- A located point: the three vertices of the triangle, `alpha` and `beta`.
See `/repo/menpofit/transform/piecewiseaffine.py:21-78` -/
structure Located (nv : Nat) where
  i : Fin nv
  j : Fin nv
  k : Fin nv
  alpha : ℝ
  beta : ℝ

/-- Attributes of a piecewise affine warp; `locate` is menpo's `index_alpha_beta` followed by the
look-up in `trilist` (`none` when the point lies outside every triangle).
See `/repo/menpofit/transform/piecewiseaffine.py:6` -/
structure Pwa (nv : Nat) where
  source : Fin nv → P 2
  target : Fin nv → P 2
  locate : P 2 → Option (Located nv)

/-- menpo `PiecewiseAffine._apply` for one point.
See `/repo/menpofit/transform/piecewiseaffine.py:6` -/
def Pwa.apply {nv : Nat} (w : Pwa nv) (x : P 2) : Option (P 2) :=
  (w.locate x).map fun l =>
    w.target l.i + l.alpha • (w.target l.j - w.target l.i) + l.beta • (w.target l.k - w.target l.i)

/-- /repo/menpofit/transform/piecewiseaffine.py:21-78 `d_dl` for one located point: vertex and
dimension. -/
def pwaDdl {nv : Nat} (l : Located nv) (v : Fin nv) (_r : Fin 2) : ℝ :=
  let jac : Fin nv → ℝ := fun _ => 0
  let jac := Function.update jac l.i (1 - l.alpha - l.beta)
  let jac := Function.update jac l.j l.alpha
  let jac := Function.update jac l.k l.beta
  jac v

/-- /repo/menpofit/transform/piecewiseaffine.py:80-110 `d_dx` (leading axis of length one left
out). -/
def pwaDdx (r c : Fin 2) : ℝ := if r = c then 1 else 0

/-! ### Thin plate splines -/

/-- Attributes of a thin plate spline: centres, weights of the basis functions and affine
coefficients (constant, first and second coordinate) per output coordinate.
See `/repo/menpofit/transform/thinsplatesplines.py:10-30` -/
structure Tps (m : Nat) where
  centres : Fin m → P 2
  w : Fin m → Fin 2 → ℝ
  aff : Fin 3 → Fin 2 → ℝ

/-- menpo `ThinPlateSplines._apply`, output coordinate `j`.
See `/repo/menpofit/transform/thinsplatesplines.py:10-30` -/
def Tps.apply {m : Nat} (t : Tps m) (j : Fin 2) (x : P 2) : ℝ :=
  (∑ i, t.w i j * r2LogR2 (t.centres i) x) + t.aff 0 j + t.aff 1 j * x 0 + t.aff 2 j * x 1

/-- /repo/menpofit/transform/thinsplatesplines.py:141-174 `d_dx`: the contraction over the first axis
requires as many points as centres.  Result: `k` (centre axis), `l`, `j`. -/
def tpsDdx {m np : Nat} (t : Tps m) (x : Fin np → P 2) :
    Except PyErr (Fin m → Fin 2 → Fin 2 → ℝ) :=
  if h : np = m then
    .ok fun k l j => (∑ i : Fin m, t.w i j * (r2LogR2Ddl t.centres x (Fin.cast h.symm i) k) l) +
      (t.aff 1 j * (if l = 0 then 1 else 0) + t.aff 2 j * (if l = 1 then 1 else 0))
  else .error .valueError

end
end Warp
end Menpofit
