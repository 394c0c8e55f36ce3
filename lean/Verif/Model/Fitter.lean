import Verif.Model.Py
import Verif.Model.Checks
import Mathlib.Logic.Equiv.Defs
import Mathlib.Algebra.Group.End
/-!
# Model of the multi-scale fitter, `menpofit/fitter.py`

Shapes are an abstract type `S`; images carry a landmark manager (a partial map
from group names to shapes) and opaque pixels.  Invertible homogeneous
transforms are permutations of `S` (`a * b` is "`a` after `b`",
`pseudoinverse()` is the inverse).  Feature extraction, rescaling and alignment
are parameters that may raise.
-/

namespace Menpofit
namespace Fitter

/-- An image: landmark manager and pixels. See `/repo/menpofit/fitter.py:337-340` -/
structure Img (S P : Type) where
  lm : String → Option S
  px : P

/-- `lm[group] = shape`. See `/repo/menpofit/fitter.py:338-340` -/
def attach (lm : String → Option S) (g : String) (s : S) : String → Option S :=
  fun x => if x = g then some s else lm x

/-- `del lm[group]`. See `/repo/menpofit/fitter.py:406-408` -/
def detach (lm : String → Option S) (g : String) : String → Option S :=
  fun x => if x = g then none else lm x

/-- The operations of menpo used by the fitter; each may raise.
See `/repo/menpofit/fitter.py:344-388` -/
structure Ext (S P F : Type) where
  /-- `image.rescale_to_pointcloud(reference_shape, group='__initial_shape')` -/
  rescaleToRef : Img S P → Except PyErr (Img S P)
  /-- `holistic_features[i](image)` -/
  feature : F → Img S P → Except PyErr (Img S P)
  /-- `AlignmentAffine(source, target)` -/
  align : S → S → Except PyErr (Equiv.Perm S)
  /-- `image.rescale(scale, return_transform=True)` -/
  rescale : Img S P → Rat → Except PyErr (Img S P × Equiv.Perm S)

/-- `image.landmarks[group]`, raising `KeyError` if there is none.
See `/repo/menpofit/fitter.py:397` -/
def getLm (im : Img S P) (g : String) : Except PyErr S :=
  match im.lm g with
  | some s => .ok s
  | none => .error .keyError

/-- What the loop of `_prepare_image` has accumulated. See `/repo/menpofit/fitter.py:356-394` -/
structure Prep (S P : Type) where
  images : List (Img S P)
  affine : List (Equiv.Perm S)
  scale : List (Equiv.Perm S)

/-- The loop over scales of `_prepare_image`, `/repo/menpofit/fitter.py:356-394`.
`prev` is the feature of the previous scale with its feature image (`none` for
the first scale); `acc` the lists built so far. -/
def prepLoop [DecidableEq F] (ext : Ext S P F) (tmp : Img S P) (init : S) :
    Option (F × Img S P) → Prep S P → List (F × Rat) → Except PyErr (Prep S P)
  | _, acc, [] => .ok acc
  | prev, acc, (f, sc) :: rest => do
    let step ← (match prev with
      | some (f', fi) =>
        if f ≠ f' then do
          let fi' ← ext.feature f tmp
          let src ← getLm fi' "__initial_shape"
          let a ← ext.align src init
          return (fi', a)
        else
          match acc.affine with
          | a0 :: _ => return (fi, a0)
          | [] => .error .indexError
      | none => do
          let fi' ← ext.feature f tmp
          let src ← getLm fi' "__initial_shape"
          let a ← ext.align src init
          return (fi', a) : Except PyErr (Img S P × Equiv.Perm S))
    let sc' ← (if sc ≠ 1 then ext.rescale step.1 sc else .ok (step.1, 1) :
      Except PyErr (Img S P × Equiv.Perm S))
    prepLoop ext tmp init (some (f, step.1))
      ⟨acc.images ++ [sc'.1], acc.affine ++ [step.2], acc.scale ++ [sc'.2]⟩ rest

/-- The value returned by `_prepare_image`. See `/repo/menpofit/fitter.py:397-411` -/
structure Prepared (S P : Type) where
  images : List (Img S P)
  initialShapes : List S
  gtShapes : Option (List S)
  affine : List (Equiv.Perm S)
  scale : List (Equiv.Perm S)

/-- The part of `_prepare_image` between attaching and detaching the landmarks,
`/repo/menpofit/fitter.py:344-403`. -/
def prepBody [DecidableEq F] (ext : Ext S P F) (features : List F) (scales : List Rat)
    (image : Img S P) (init : S) (gt : Option S) : Except PyErr (Prepared S P) := do
  let tmp ← ext.rescaleToRef image
  let p ← prepLoop ext tmp init none ⟨[], [], []⟩ (features.zip scales)
  let inits ← p.images.mapM fun i => getLm i "__initial_shape"
  let gts ← (match gt with
    | some _ => do
      let l ← p.images.mapM fun i => getLm i "__gt_shape"
      return some l
    | none => return none : Except PyErr (Option (List S)))
  return ⟨p.images, inits, gts, p.affine, p.scale⟩

/-- `_prepare_image`, `/repo/menpofit/fitter.py:298-411`.  Returns the landmarks of
the input image after the call (the call mutates them), and the result or the
exception.  There is no `try/finally` in the code: an exception leaves the
attached landmarks in place.  Attaching itself is assumed not to raise (menpo
raises only for a dimensionality mismatch). -/
def prepareImage [DecidableEq F] (ext : Ext S P F) (features : List F) (scales : List Rat)
    (image : Img S P) (init : S) (gt : Option S) :
    (String → Option S) × Except PyErr (Prepared S P) :=
  let lm1 := attach image.lm "__initial_shape" init
  let lm2 := match gt with
    | some g => attach lm1 "__gt_shape" g
    | none => lm1
  match prepBody ext features scales ⟨lm2, image.px⟩ init gt with
  | .error e => (lm2, .error e)
  | .ok r =>
    let lm3 := detach lm2 "__initial_shape"
    let lm4 := match gt with
      | some _ => detach lm3 "__gt_shape"
      | none => lm3
    (lm4, .ok r)

/-- A per-scale fitting algorithm: `run(image, shape, gt_shape, max_iters)`.
See `/repo/menpofit/fitter.py:463-515` -/
abbrev Algorithm (S P R : Type) := Img S P → S → Option S → Int → Except PyErr R

/-- Everything `_fit` uses at one scale (the per-scale lists, all of length
`n_scales`, zipped). See `/repo/menpofit/fitter.py:463-515` -/
structure Level (S P F R : Type) where
  feature : F
  sc : Rat
  image : Img S P
  affine : Equiv.Perm S
  scale : Equiv.Perm S
  gt : Option S
  iters : Int
  alg : Algorithm S P R

/-- The shape handed to the next scale, `/repo/menpofit/fitter.py:480-512`:
`t1 = S_i.compose_after(A_i)`, `t2 = A_{i+1}⁻¹.compose_after(t1)`,
`S_{i+1}⁻¹.compose_after(t2)`; with equal features and different scales
`S_{i+1}⁻¹.compose_after(S_i)`; otherwise the shape itself. -/
def carry [DecidableEq F] (l l' : Level S P F R) (shape : S) : S :=
  if l'.feature ≠ l.feature then
    let t1 := l.scale * l.affine
    let t2 := l'.affine⁻¹ * t1
    (l'.scale⁻¹ * t2) shape
  else if l'.feature = l.feature ∧ l.sc ≠ l'.sc then
    (l'.scale⁻¹ * l.scale) shape
  else shape

/-- The loop of `_fit`, `/repo/menpofit/fitter.py:463-515`. `final` is
`algorithm_result.final_shape`. -/
def fitLoop [DecidableEq F] (final : R → S) :
    S → List (Level S P F R) → Except PyErr (List R)
  | _, [] => .ok []
  | shape, l :: rest => do
    let r ← l.alg l.image shape l.gt l.iters
    let rs ← (match rest with
      | [] => .ok []
      | l' :: _ => fitLoop final (carry l l' (final r)) rest : Except PyErr (List R))
    return r :: rs

/-- The per-scale data of `_fit` for scale `i` (indexing the lists as the code
does). See `/repo/menpofit/fitter.py:463-515` -/
def mkLevels (features : List F) (scales : List Rat) (images : List (Img S P))
    (affine scale : List (Equiv.Perm S)) (gts : Option (List S)) (iters : List Int)
    (algs : List (Algorithm S P R)) : List (Level S P F R) :=
  let gtl : List (Option S) := match gts with
    | some l => l.map some
    | none => List.replicate scales.length none
  (features.zip (scales.zip (images.zip (affine.zip (scale.zip (gtl.zip (iters.zip algs))))))).map
    fun ⟨f, s, i, a, t, g, n, al⟩ => ⟨f, s, i, a, t, g, n, al⟩

/-- `fit_from_shape` up to the construction of the result object,
`/repo/menpofit/fitter.py:592-602` with `:413-515`.  Returns the landmarks of the
input image afterwards. -/
def fitFromShape [DecidableEq F] (ext : Ext S P F) (final : R → S) (features : List F)
    (scales : List Rat) (algs : List (Algorithm S P R)) (image : Img S P) (init : S)
    (maxIters : Checks.MaxIters) (gt : Option S) :
    (String → Option S) × Except PyErr (Prepared S P × List R) :=
  let (lm, p) := prepareImage ext features scales image init gt
  (lm, do
    let p ← p
    let iters ← Checks.checkMaxIters maxIters scales.length
    let s0 ← (match p.initialShapes with
      | s :: _ => .ok s
      | [] => .error .indexError : Except PyErr S)
    let rs ← fitLoop final s0
      (mkLevels features scales p.images p.affine p.scale p.gtShapes iters algs)
    return (p, rs))

end Fitter
end Menpofit
