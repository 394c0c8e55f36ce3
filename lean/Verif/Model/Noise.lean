import Verif.Model.ModelInstance
import Verif.Model.Error
import Mathlib.Analysis.SpecialFunctions.Trigonometric.Basic
/-!
# Noisy alignments and alignment with a bounding box

Models `/repo/menpofit/fitter.py:34-229` in two dimensions with exact real arithmetic.  From menpo:
`AlignmentSimilarity` (`procrustes_alignment`, with or without rotation), `scale_about_centre`,
`rotate_ccw_about_centre`, `Translation`, `compose_after`, `PointCloud.range`, `centre`
and `bounding_box`.  Random draws are parameters.
-/

namespace Menpofit
namespace Noise
open MI

noncomputable section

variable {n : Nat}

/-- `pointcloud.range()[j]`. See `/repo/menpofit/fitter.py:121` -/
def rangeOf (p : Pts n 2) (j : Fin 2) : ℝ := Error.extent (fun i k => p (i, k)) j

/-- menpo `f.compose_after(g)`: first `g`, then `f`. See `/repo/menpofit/fitter.py:73-91` -/
def after (f g : Sim) : Sim :=
  ⟨f.a * g.a - f.b * g.b, f.b * g.a + f.a * g.b,
    f.a * g.tx - f.b * g.ty + f.tx, f.b * g.tx + f.a * g.ty + f.ty⟩

/-- menpo `AlignmentSimilarity(source, target, rotation=...)`. See `/repo/menpofit/fitter.py:70` -/
def alignSim (rotation : Bool) (source target : Pts n 2) : Sim :=
  if rotation then procrustes source target
  else
    let s := centred source
    let t := centred target
    let a := Real.sqrt (t ⬝ᵥ t) / Real.sqrt (s ⬝ᵥ s)
    ⟨a, 0, centroid target 0 - a * centroid source 0, centroid target 1 - a * centroid source 1⟩

/-- menpo `Translation(t)`. See `/repo/menpofit/fitter.py:73-91` -/
def translation (x y : ℝ) : Sim := ⟨1, 0, x, y⟩

/-- menpo `transform_about_centre(target, transform)`. See `/repo/menpofit/fitter.py:73-91` -/
def aboutCentre (target : Pts n 2) (f : Sim) : Sim :=
  after (translation (centroid target 0) (centroid target 1))
    (after f (translation (-centroid target 0) (-centroid target 1)))

/-- menpo `scale_about_centre`. See `/repo/menpofit/fitter.py:73-91` -/
def scaleAboutCentre (target : Pts n 2) (s : ℝ) : Sim := aboutCentre target ⟨s, 0, 0, 0⟩

/-- menpo `rotate_ccw_about_centre`, the angle in degrees. See `/repo/menpofit/fitter.py:73-91` -/
def rotateAboutCentre (target : Pts n 2) (deg : ℝ) : Sim :=
  aboutCentre target ⟨Real.cos (deg * (Real.pi / 180)), Real.sin (deg * (Real.pi / 180)), 0, 0⟩

/-- The argument `noise_percentage`: a float, a list or tuple of numbers, or an integer.
See `/repo/menpofit/fitter.py:65-68` -/
inductive Percentage where
  | float (x : ℝ)
  | list (l : List ℝ)
  | tuple (l : List ℝ)
  | int (k : Int)

/-- `/repo/menpofit/fitter.py:65-68`: the percentages used afterwards, and the object of the caller
afterwards.  `noise_percentage *= 3` extends a list in place and rebinds a tuple. -/
def percentages : Percentage → Except PyErr (List ℝ) × Percentage
  | .float x => (.ok [x, x, x], .float x)
  | .int k => (.error .typeError, .int k)
  | .list l => if l.length = 1 then (.ok (l ++ l ++ l), .list (l ++ l ++ l)) else (.ok l, .list l)
  | .tuple l => if l.length = 1 then (.ok (l ++ l ++ l), .tuple l) else (.ok l, .tuple l)

/-- The random draws of one call in order: `np.random.randn(1)[0]` for the scale, `randn` or `rand`
for the rotation, `randn(2)` or `rand(2)` for the translation.
See `/repo/menpofit/fitter.py:73-91` -/
structure Draws where
  scale : ℝ
  rot : ℝ
  tr : Fin 2 → ℝ

/-- `l[k]` for a non-negative literal index. See `/repo/menpofit/fitter.py:73-91` -/
def item (l : List ℝ) (k : Nat) : Except PyErr ℝ :=
  match l[k]? with
  | some x => .ok x
  | none => .error .indexError

/-- Scale change, angle in degrees and translation of the noise,
`/repo/menpofit/fitter.py:73-91`.  Line 82 draws the scale from a normal distribution. -/
def noise (target : Pts n 2) (kind : String) (np : List ℝ) (d : Draws) :
    Except PyErr (ℝ × ℝ × (Fin 2 → ℝ)) :=
  if kind = "gaussian" then do
    let p0 ← item np 0
    let p1 ← item np 1
    let p2 ← item np 2
    return (p0 * (1 / 2 / 3) * d.scale, p1 * (180 / 3) * d.rot,
      fun j => p2 * (rangeOf target j / 3) * d.tr j)
  else if kind = "uniform" then do
    let p0 ← item np 0
    let p1 ← item np 1
    let p2 ← item np 2
    return (p0 * (1 / 2) * (2 * d.scale - 1), p1 * 180 * (2 * d.rot - 1),
      fun j => p2 * rangeOf target j * (2 * d.tr j - 1))
  else .error .valueError

/-- `noisy_alignment_similarity_transform`, `/repo/menpofit/fitter.py:65-93`: the transform and the
caller's `noise_percentage` afterwards. -/
def noisyAlignment (source target : Pts n 2) (kind : String) (percentage : Percentage)
    (rotation : Bool) (d : Draws) : Except PyErr Sim × Percentage :=
  match percentages percentage with
  | (.error e, p) => (.error e, p)
  | (.ok np, p) =>
    let similarity := alignSim rotation source target
    match noise target kind np d with
    | .error e => (.error e, p)
    | .ok (s, r, t) =>
      let s := scaleAboutCentre target (1 + s)
      let r := rotateAboutCentre target r
      let t := translation (t 0) (t 1)
      (.ok (after similarity (after t (after s r))), p)

/-- `noisy_shape_from_shape`, `/repo/menpofit/fitter.py:199-203`. -/
def noisyShapeFromShape (reference shape : Pts n 2) (kind : String) (percentage : Percentage)
    (rotation : Bool) (d : Draws) : Except PyErr (Pts n 2) := do
  let t ← (noisyAlignment reference shape kind percentage rotation d).1
  return t.apply reference

/-! ### Bounding boxes -/

/-- `pointcloud.bounds()[0][j]`. See `/repo/menpofit/fitter.py:160-164` -/
def axisMin (p : Pts n 2) (j : Fin 2) : ℝ := Stats.npMin (List.ofFn fun i => p (i, j))

/-- `pointcloud.bounds()[1][j]`. See `/repo/menpofit/fitter.py:160-164` -/
def axisMax (p : Pts n 2) (j : Fin 2) : ℝ := Stats.npMax (List.ofFn fun i => p (i, j))

/-- menpo `bounding_box(min, max)`: the corners in menpo's order.
See `/repo/menpofit/fitter.py:160-164` -/
def box (lo hi : Fin 2 → ℝ) : Pts 4 2 := fun ij =>
  if ij.2 = 0 then (if ij.1 = 1 ∨ ij.1 = 2 then hi 0 else lo 0)
  else (if ij.1 = 2 ∨ ij.1 = 3 then hi 1 else lo 1)

/-- menpo `pointcloud.bounding_box()`; no points raise `ValueError`.
See `/repo/menpofit/fitter.py:160-164` -/
def boundingBox (p : Pts n 2) : Except PyErr (Pts 4 2) :=
  if n = 0 then .error .valueError else .ok (box (axisMin p) (axisMax p))

/-- `noisy_shape_from_bounding_box`, `/repo/menpofit/fitter.py:160-164`. -/
def noisyShapeFromBoundingBox (shape : Pts n 2) (bb : Pts 4 2) (kind : String)
    (percentage : Percentage) (rotation : Bool) (d : Draws) : Except PyErr (Pts n 2) := do
  let sb ← boundingBox shape
  let t ← (noisyAlignment sb bb kind percentage rotation d).1
  return t.apply shape

/-- `align_shape_with_bounding_box`, `/repo/menpofit/fitter.py:227-229`, with the default
`AlignmentSimilarity`. -/
def alignShapeWithBoundingBox (shape : Pts n 2) (bb : Pts 4 2) : Except PyErr (Pts n 2) := do
  let sb ← boundingBox shape
  return (alignSim true sb bb).apply shape

/-! ### Noise on the target -/

/-- The argument `noise_std` of `noisy_target_alignment_transform`.
See `/repo/menpofit/fitter.py:96-121` -/
inductive Std where
  | float (x : ℝ)
  | list (l : List ℝ)

/-- `noise_std * target.range()`, `/repo/menpofit/fitter.py:121`: a list is broadcast against the
array of the two ranges, so it must have one or two elements. -/
def stdTimesRange (std : Std) (range : Fin 2 → ℝ) : Except PyErr (Fin 2 → ℝ) :=
  match std with
  | .float x => .ok fun j => x * range j
  | .list [x] => .ok fun j => x * range j
  | .list [x, y] => .ok fun j => (if j = 0 then x else y) * range j
  | .list _ => .error .valueError

/-- `noisy_target_alignment_transform`, `/repo/menpofit/fitter.py:121-124`, for any alignment
class; `d` is `np.random.randn(n_points, n_dims)`. -/
def noisyTargetAlignment {T : Type} (align : Pts n 2 → Pts n 2 → T) (source target : Pts n 2)
    (std : Std) (d : Pts n 2) : Except PyErr T := do
  let s ← stdTimesRange std (rangeOf target)
  return align source fun ij => target ij + s ij.2 * d ij

end
end Noise
end Menpofit
