import Verif.Model.Error
/-!
# Training helpers

Models `/repo/menpofit/builder.py`.  Shapes are arrays of points; images and the operations of
menpo on them are parameters.  Progress printing is not modelled.
-/

namespace Menpofit
namespace Builder
open Error

noncomputable section

variable {n : Nat}

/-- menpo `mean_pointcloud`: sum of the arrays of points divided by the number of clouds (Python
division of the empty sum `0` by the length `0` raises). See `/repo/menpofit/builder.py:47` -/
def meanShape (shapes : List (Shape n 2)) : Except PyErr (Shape n 2) :=
  if shapes.length = 0 then .error .zeroDivisionError
  else .ok fun i j => (shapes.map fun s => s i j).sum / shapes.length

/-- `compute_reference_shape`, `/repo/menpofit/builder.py:47-56`.  `if diagonal:` is false for
`None` and for 0.  `Scale(scale).apply` multiplies every coordinate.  Where NumPy divides by
a zero range and continues with `inf`, Lean divides by zero to zero. -/
def computeReferenceShape (shapes : List (Shape n 2)) (diagonal : Option ℝ) :
    Except PyErr (Shape n 2) := do
  let ref ← meanShape shapes
  match diagonal with
  | none => return ref
  | some d =>
    if d = 0 then return ref
    else do
      let (x, y) ← bbSides ref
      let scale := d / Real.sqrt (x ^ 2 + y ^ 2)
      return fun i j => scale * ref i j

end

/-- `np.allclose(scale, 1)` with NumPy's default tolerances. See `/repo/menpofit/builder.py:200` -/
def allcloseOne (scale : Rat) : Bool := decide (|scale - 1| ≤ 1 / 10 ^ 8 + 1 / 10 ^ 5)

/-- `scale_images(..., return_transforms=True)`, `/repo/menpofit/builder.py:200-223`.  `rescale` is
`image.rescale(scale, return_transform=True)`, `unit` is `Scale(1., images[0].n_dims)`; both
may raise. -/
def scaleImagesT {Im T : Type} (rescale : Im → Except PyErr (Im × T)) (unit : Im → T)
    (images : List Im) (scale : Rat) : Except PyErr (List Im × List T) :=
  if allcloseOne scale then
    match images with
    | [] => .error .indexError
    | i :: _ => .ok (images, List.replicate images.length (unit i))
  else do
    let r ← images.mapM rescale
    return (r.map Prod.fst, r.map Prod.snd)

/-- `scale_images(..., return_transforms=False)`, `/repo/menpofit/builder.py:200-223`. -/
def scaleImages {Im T : Type} (rescale : Im → Except PyErr (Im × T)) (images : List Im)
    (scale : Rat) : Except PyErr (List Im) :=
  if allcloseOne scale then .ok images
  else images.mapM fun i => do
    let r ← rescale i
    return r.1

/-- A transform object with mutable state that is re-targeted for each image.
See `/repo/menpofit/builder.py:257-270` -/
structure Retarget (W S Im : Type) where
  /-- `transform(source, source)` -/
  new : Except PyErr W
  /-- `warp_transform.set_target(s)` -/
  setTarget : W → S → Except PyErr W
  /-- `i.warp_to_mask(mask, warp_transform, warp_landmarks=False)`, then the landmarks of the
  reference frame are attached -/
  warp : Im → W → Except PyErr Im

/-- The loop of `warp_images`, `/repo/menpofit/builder.py:261-270`: one transform object is used
for all images. -/
def warpLoop {W S Im : Type} (t : Retarget W S Im) : W → List (Im × S) → Except PyErr (List Im)
  | _, [] => .ok []
  | w, (i, s) :: rest => do
    let w ← t.setTarget w s
    let i' ← t.warp i w
    let r ← warpLoop t w rest
    return i' :: r

/-- `warp_images`, `/repo/menpofit/builder.py:257-270`. -/
def warpImages {W S Im : Type} (t : Retarget W S Im) (images : List Im) (shapes : List S) :
    Except PyErr (List Im) := do
  let w ← t.new
  warpLoop t w (images.zip shapes)

/-- `extract_patches`, `/repo/menpofit/builder.py:303-309`. -/
def extractPatches {S Im Pa : Type} (extract : Im → S → Except PyErr Pa)
    (normalise : Pa → Except PyErr Pa) (images : List Im) (shapes : List S) :
    Except PyErr (List Pa) :=
  (images.zip shapes).mapM fun x => do
    let p ← extract x.1 x.2
    normalise p

/-- `densify_shapes`, `/repo/menpofit/builder.py:394-404`: `transform s` is the transform from the
landmarks of the reference frame to `s` on one point; `mask` the true pixels of the frame. -/
def densifyShapes {P : Type} (transform : List P → P → P) (mask : List P)
    (shapes : List (List P)) : List (List P) :=
  let transforms := shapes.map transform
  (transforms.zip shapes).map fun x => x.2 ++ mask.map x.1

end Builder
end Menpofit
