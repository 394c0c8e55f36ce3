import Verif.Model.Fitter
import Verif.Model.Result
import Verif.Model.Noise
import Verif.Model.Placement
import Verif.Model.Sdm
/-!
# Whole fits of pictures of the plane

Puts the multi-scale fitter (`Verif.Model.Fitter`) together with the operations of menpo it calls, for
pictures of the plane: the pixels are any function of the points of the plane.  Simplification: no
borders and no pixel grid, so rescaling a picture is exact; the images menpo computes are of this
kind up to interpolation and rounding of their size.
-/

namespace Menpofit
namespace Plane
open MI Warp Fitter Matrix

noncomputable section

variable {N : Nat} {C F V K : Type}

/-- An image of the plane. See `/repo/menpofit/fitter.py:344-388` -/
abbrev Pic (N : Nat) (C : Type) := Img (Pts N 2) (P 2 → C)

/-- The points as the columns of a matrix of homogeneous coordinates, menpo `h_points()`.
See `/repo/menpofit/fitter.py:371` -/
def hPoints (s : Pts N 2) : Matrix (Fin 3) (Fin N) ℝ :=
  Matrix.of fun r i => if r = 0 then s (i, 0) else if r = 1 then s (i, 1) else 1

/-- menpo `AlignmentAffine(source, target).h_matrix`:
`solve(a.dot(a.T), a.dot(b.T)).T` for the homogeneous points `a` and `b`.
See `/repo/menpofit/fitter.py:371` -/
def alignH (source target : Pts N 2) : Except PyErr (Matrix (Fin 3) (Fin 3) ℝ) := do
  let a := hPoints source
  let b := hPoints target
  let x ← GN.npSolveMat (a * aᵀ) (a * bᵀ)
  return xᵀ

/-- menpo `Affine.apply`: the linear component of a homogeneous matrix, then its translation.
See `/repo/menpofit/result.py:13-18` -/
def applyH (h : Matrix (Fin 3) (Fin 3) ℝ) (s : Pts N 2) : Pts N 2 := fun ij =>
  h ij.2.castSucc 0 * s (ij.1, 0) + h ij.2.castSucc 1 * s (ij.1, 1) + h ij.2.castSucc 2

/-- The affine transform with given homogeneous matrix as an invertible transform of shapes.  A
singular one has no `pseudoinverse()`; its `LinAlgError` is raised here already.
See `/repo/menpofit/fitter.py:371` -/
def affinePerm (h : Matrix (Fin 3) (Fin 3) ℝ) : Except PyErr (Equiv.Perm (Pts N 2)) :=
  if hd : h 0 0 * h 1 1 - h 0 1 * h 1 0 = 0 then .error .linAlgError
  else .ok
    { toFun := applyH h
      invFun := fun s ij =>
        let q := h 0 0 * h 1 1 - h 0 1 * h 1 0
        let x := s (ij.1, 0) - h 0 2
        let y := s (ij.1, 1) - h 1 2
        if ij.2 = 0 then (h 1 1 * x - h 0 1 * y) / q else (h 0 0 * y - h 1 0 * x) / q
      left_inv := by
        intro s
        funext ⟨i, j⟩
        match j with
        | 0 => simp [applyH]; rw [div_eq_iff hd]; ring
        | 1 => simp [applyH]; rw [div_eq_iff hd]; ring
      right_inv := by
        intro s
        funext ⟨i, j⟩
        match j with
        | 0 =>
          simp [applyH]
          rw [mul_div_assoc', mul_div_assoc', ← add_div, div_add' _ _ _ hd, div_eq_iff hd]; ring
        | 1 =>
          simp [applyH]
          rw [mul_div_assoc', mul_div_assoc', ← add_div, div_add' _ _ _ hd, div_eq_iff hd]; ring }

/-- menpo `image.rescale(k)`: landmarks are multiplied by `k`, the picture is sampled at `x / k`.
See `/repo/menpofit/fitter.py:382` -/
def resize (k : ℝ) (im : Pic N C) : Pic N C :=
  ⟨fun g => (im.lm g).map (k • ·), fun x => im.px (k⁻¹ • x)⟩

/-- menpo `PointCloud.norm()`: the Frobenius norm of the centred points.
See `/repo/menpofit/fitter.py:344` -/
def norm (s : Pts N 2) : ℝ := Real.sqrt (centred s ⬝ᵥ centred s)

/-- The transform `image.rescale(k, return_transform=True)` returns: `Scale(1 / k)`.
See `/repo/menpofit/fitter.py:382` -/
def shrink (k : ℝ) (hk : k ≠ 0) : Equiv.Perm (Pts N 2) where
  toFun s := k⁻¹ • s
  invFun s := k • s
  left_inv s := by simp [smul_smul, hk]
  right_inv s := by simp [smul_smul, hk]

/-- Holistic features on pictures of the plane: what they compute from the pixels, and how they change
the geometry (dense features do not; a histogram per window multiplies the coordinates by
`1 / stride` and moves them). See `/repo/menpofit/fitter.py:363` -/
structure Features (F C : Type) where
  op : F → (P 2 → C) → Except PyErr (P 2 → C)
  step : F → ℝ
  off : F → Fin 2 → ℝ

/-- The operations of menpo the multi-scale fitter uses (`/repo/menpofit/fitter.py:344-388`), for pictures
of the plane.  `rescale_to_pointcloud` rescales by the quotient of the norms
(`AlignmentUniformScale`); factors that are not positive raise `ValueError` (a vanishing norm of the initial shape is a
division by zero in NumPy and makes menpo raise later; it is a `ValueError` here). -/
def ext (fe : Features F C) (reference : Pts N 2) : Ext (Pts N 2) (P 2 → C) F where
  rescaleToRef im := do
    let s ← getLm im "__initial_shape"
    let k := norm reference / norm s
    if 0 < k then return resize k im else .error .valueError
  feature f im := do
    let px ← fe.op f im.px
    return ⟨fun g => (im.lm g).map fun s ij => fe.step f * s ij + fe.off f ij.2, px⟩
  align source target := do
    let h ← alignH source target
    affinePerm h
  rescale im c :=
    if h : 0 < (c : ℝ) then .ok (resize c im, shrink c h.ne') else .error .valueError

/-- `fit_from_shape` of `MultiScaleNonParametricFitter` and `MultiScaleParametricFitter`,
`/repo/menpofit/fitter.py:583-609` with `:543-546` and `:712-715`: prepare the image, run the algorithms of all
scales and collect their results. -/
def fitFromShape [DecidableEq F] (fe : Features F C) (reference : Pts N 2) (parametric : Bool)
    (features : List F) (scales : List Rat)
    (algs : List (Algorithm (Pts N 2) (P 2 → C) (Result.Res (Pts N 2) V K)))
    (image : Pic N C) (init : Pts N 2) (maxIters : Checks.MaxIters) (gt : Option (Pts N 2)) :
    Except PyErr (Result.Res (Pts N 2) V K) := do
  let r ← (Fitter.fitFromShape (ext fe reference) (fun r => r.final) features scales algs image init
    maxIters gt).2
  let affine := r.1.affine.map fun (a : Equiv.Perm (Pts N 2)) => (⇑a : Pts N 2 → Pts N 2)
  let scale := r.1.scale.map fun (a : Equiv.Perm (Pts N 2)) => (⇑a : Pts N 2 → Pts N 2)
  if parametric then Result.multiParam r.2 scales.length affine scale gt
  else Result.multiNonParam r.2 scales.length affine scale gt

/-- `fit_from_bb`, `/repo/menpofit/fitter.py:647-651`. -/
def fitFromBb [DecidableEq F] (fe : Features F C) (reference : Pts N 2) (parametric : Bool)
    (features : List F) (scales : List Rat)
    (algs : List (Algorithm (Pts N 2) (P 2 → C) (Result.Res (Pts N 2) V K)))
    (image : Pic N C) (bb : Pts 4 2) (maxIters : Checks.MaxIters) (gt : Option (Pts N 2)) :
    Except PyErr (Result.Res (Pts N 2) V K) := do
  let init ← Noise.alignShapeWithBoundingBox reference bb
  fitFromShape fe reference parametric features scales algs image init maxIters gt

/-- The algorithm of a constrained local model at one scale, with the result it builds
(`/repo/menpofit/clm/algorithm/gd.py:144-206` and `:287-345`). -/
def clmAlgorithm {k : Nat} (env : ClmRun.Env N k (P 2 → C)) (alg : ClmRun.Alg) (map : Bool) (tol : ℝ) :
    Algorithm (Pts N 2) (P 2 → C) (Result.Res (Pts N 2) (List ℝ) K) :=
  fun im s gt n => do
    let tr ← ClmRun.run env alg map n tol im.px s
    Result.param tr.shapes (tr.params.map List.ofFn) (some s) gt none

/-- An AAM algorithm with explicit appearance at one scale, with the result it builds (the shape part of
`/repo/menpofit/aam/algorithm/lk.py:1065-1072`; the appearance parameters are left out). -/
def aamAlgorithm {n a m : Nat} {W : Type} (z : Aam.Setup n a m ℝ (Pts N 2) (P 2 → C) W ℝ) (alg : Aam.Alg)
    (inverse : Bool) (tol : ℝ) (costs : Bool) :
    Algorithm (Pts N 2) (P 2 → C) (Result.Res (Pts N 2) (List ℝ) ℝ) :=
  fun im s gt n => do
    let tr ← Aam.run z alg inverse false n tol costs im.px s
    Result.param tr.shapes (tr.params.map fun v => List.ofFn v.1) (some s) gt tr.costs

/-- The algorithm of non-parametric supervised descent at one scale
(`/repo/menpofit/sdm/algorithm/base.py:603-656`); it has no number of iterations to choose. -/
def sdmAlgorithm {Row Reg : Type} (ops : Sdm.RegOps Row (Pts N 2) Reg) (feat : (P 2 → C) → Pts N 2 → Row)
    (regs : List Reg) : Algorithm (Pts N 2) (P 2 → C) (Result.Res (Pts N 2) V K) :=
  fun im s gt _ => Result.fitNonParametric (Sdm.fitStep ops (Sdm.plain _) feat im.px) regs s gt

/-- A project-out AAM algorithm or an ATM algorithm at one scale, with the result it builds
(`/repo/menpofit/aam/algorithm/lk.py:885-888` and `/repo/menpofit/atm/algorithm.py:313-316`, with the results of `:60-63` and `:152-155`; the shape part). -/
def poAlgorithm {n m : Nat} {W : Type} (env : GN.Env n m ℝ (Pts N 2) (P 2 → C) W ℝ) (inverse : Bool) (tol : ℝ)
    (cache : GN.Cache n m ℝ) (costs : Bool) :
    Algorithm (Pts N 2) (P 2 → C) (Result.Res (Pts N 2) (List ℝ) ℝ) :=
  fun im s gt n => do
    let tr ← (GN.poRun env inverse tol cache ⟨im.px, s, n, costs, false⟩).2
    Result.param tr.shapes (tr.params.map fun v => List.ofFn v) (some s) gt tr.costs

/-- A unified algorithm at one scale, with the result it builds
(the shape part of `/repo/menpofit/unified_aam_clm/algorithm.py:274-278` and `:443-447`). -/
def unifiedAlgorithm {k a m : Nat} {W : Type} (env : ClmRun.UEnv N k a m (P 2 → C) W) (alg : ClmRun.UAlg)
    (prior : Bool) (α tol : ℝ) (costs : Bool) :
    Algorithm (Pts N 2) (P 2 → C) (Result.Res (Pts N 2) (List ℝ) ℝ) :=
  fun im s gt n => do
    let tr ← ClmRun.uRun env alg prior α n tol costs im.px s
    Result.param tr.shapes (tr.params.map fun v => List.ofFn v.1) (some s) gt tr.costs

/-- The algorithm of parametric supervised descent at one scale
(`/repo/menpofit/sdm/algorithm/base.py:541-600`). -/
def sdmParametricAlgorithm {Row Reg W : Type} [AddCommGroup W] (ops : Sdm.RegOps Row W Reg)
    (co : Sdm.Coord (Pts N 2) W) (feat : (P 2 → C) → Pts N 2 → Row) (regs : List Reg) :
    Algorithm (Pts N 2) (P 2 → C) (Result.Res (Pts N 2) W K) :=
  fun im s gt _ => Result.fitParametric co.proj co.inst (Sdm.fitParamStep ops co feat im.px) regs s gt

/-- The supervised descent algorithm of an AAM at one scale
(`/repo/menpofit/aam/algorithm/sd.py:109-163`). -/
def aamSdAlgorithm {Row Reg W : Type} [AddCommGroup W] (ops : Sdm.RegOps Row W Reg)
    (co : Sdm.Coord (Pts N 2) W) (feat : (P 2 → C) → Pts N 2 → Row) (regs : List Reg) :
    Algorithm (Pts N 2) (P 2 → C) (Result.Res (Pts N 2) W K) :=
  fun im s gt _ => Result.fitAamSd co.proj co.inst (Sdm.fitParamStep ops co feat im.px) regs s gt

end
end Plane
end Menpofit
