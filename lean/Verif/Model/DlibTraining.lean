import Verif.Model.Dlib
import Verif.Model.ScaleTraining
/-!
# Training and running dlib's predictors

Models `/repo/menpofit/dlib/algorithm.py:75-171`, `/repo/menpofit/dlib/conversion.py:29-32` and the
options of `/repo/menpofit/dlib/fitter.py:205-259` with what `/repo/menpofit/dlib/fitter.py:462-522`
prints of them.  dlib itself is a parameter; shapes are lists of points `(y, x)`.  The boxes updated in
place during training are taken to be distinct objects.  Messages are not modelled.
-/

namespace Menpofit
namespace Dlib

noncomputable section

/-- A shape: its points `(y, x)`. See `/repo/menpofit/dlib/conversion.py:10-15` -/
abbrev Shape := List (ℝ × ℝ)

/-- `dlib.full_object_detection`. See `/repo/menpofit/dlib/conversion.py:29-32` -/
structure Detection where
  rect : Rect
  parts : List Point

/-- dlib: `train j` is `dlib.train_shape_predictor` with the options of algorithm `j`, `predict` calls
the trained predictor (and returns the parts of what it returns).
See `/repo/menpofit/dlib/algorithm.py:104-132` -/
structure Lib (Pix M : Type) where
  train : Nat → List Pix → List (List Detection) → Except PyErr M
  predict : M → Pix → Rect → List Point

/-- menpo `PointCloud.bounding_box()`; the smallest coordinate of no points raises `ValueError`.
See `/repo/menpofit/dlib/algorithm.py:122-127` -/
def boundingBox (pc : Shape) : Except PyErr Shape :=
  if pc.length = 0 then .error .valueError
  else .ok (boxOf (Stats.npMin (pc.map Prod.fst), Stats.npMin (pc.map Prod.snd))
    (Stats.npMax (pc.map Prod.fst), Stats.npMax (pc.map Prod.snd)))

/-- `bounding_box_pointcloud_to_dlib_fo_detection`, `/repo/menpofit/dlib/conversion.py:29-32`. -/
def toDetection (bbox gt : Shape) : Except PyErr Detection := do
  let bb ← boundingBox bbox
  let r ← toRect bb
  return ⟨r, toParts gt⟩

/-- The detections of all images, `/repo/menpofit/dlib/algorithm.py:106-110`. -/
def detections {I : Type} : List (List Shape) → List I → List Shape →
    Except PyErr (List (List Detection))
  | bboxes :: bs, _ :: ims, gt :: gts => do
    let d ← bboxes.mapM fun bb => toDetection bb gt
    let ds ← detections bs ims gts
    return d :: ds
  | _, _, _ => .ok []

variable {Pix M : Type}

/-- The inner loop that updates the boxes of one image, `/repo/menpofit/dlib/algorithm.py:122-127`. -/
def updateBoxes (lib : Lib Pix M) (m : M) (pix : Pix) : List Shape → List Detection →
    Except PyErr (List Shape)
  | _ :: bbs, d :: ds => do
    let pred ← ofParts (lib.predict m pix d.rect)
    let b ← boundingBox pred
    let rest ← updateBoxes lib m pix bbs ds
    return b :: rest
  | bbs, _ => .ok bbs

/-- The outer loop, `/repo/menpofit/dlib/algorithm.py:121-127`. -/
def updateAll (lib : Lib Pix M) (m : M) : List (List Shape) → List Pix → List (List Detection) →
    Except PyErr (List (List Shape))
  | bboxes :: bs, pix :: pixs, d :: ds => do
    let b ← updateBoxes lib m pix bboxes d
    let rest ← updateAll lib m bs pixs ds
    return b :: rest
  | bs, _, _ => .ok bs

/-- `DlibAlgorithm.train`, `/repo/menpofit/dlib/algorithm.py:104-132`: the trained predictor and the
updated boxes. -/
def trainAlg (lib : Lib Pix M) (j : Nat) (pixels : List Pix) (gts : List Shape)
    (bboxes : List (List Shape)) : Except PyErr (M × List (List Shape)) := do
  let ds ← detections bboxes pixels gts
  let m ← lib.train j pixels ds
  let out ← updateAll lib m bboxes pixels ds
  return (m, out)

/-- `DlibAlgorithm.run`, `/repo/menpofit/dlib/algorithm.py:166-171`: the final shape. -/
def runAlg (lib : Lib Pix M) (m : M) (pix : Pix) (box : Shape) : Except PyErr Shape := do
  let rect ← toRect box
  ofParts (lib.predict m pix rect)

/-- menpo `Scale.apply`: every axis has its factor. See `/repo/menpofit/dlib/fitter.py:332-351` -/
def scaleBy (c : ℝ × ℝ) (s : Shape) : Shape := s.map fun p => (c.1 * p.1, c.2 * p.2)

/-- What the loop over the scales of the dlib fitter uses, `/repo/menpofit/dlib/fitter.py:307-374`:
there are no features, and the algorithms are those above.  `pixels` is `image_to_dlib_pixels`. -/
def ertOps {P : Type} (lib : Lib Pix M) (pixels : P → Pix)
    (rescale : Nat → Perturb.Im Shape P → Except PyErr (Perturb.Im Shape P × (ℝ × ℝ))) :
    ScaleTrain.Ops Shape P (ℝ × ℝ) where
  rescale := rescale
  apply := scaleBy
  feature _ im := im
  noOp := true
  same _ := true
  align := id
  algo j ims gts cur := do
    let r ← trainAlg lib j (ims.map fun im => pixels im.px) gts cur
    return r.2
  key := ScaleTrain.ertKey

end

/-! ### Options -/

/-- The arguments of the dlib fitter at one scale that become options.
See `/repo/menpofit/dlib/fitter.py:231-259` -/
structure ErtArgs (A : Type) where
  featurePadding : A
  nPixelPairs : A
  distancePriorWeighting : A
  regularisationWeight : A
  nSplitTests : A
  nTrees : A
  nDlibPerturbations : A
  nTreeLevels : A

/-- The template of the options of one scale, `/repo/menpofit/dlib/fitter.py:231-259`: `fresh` is
`dlib.shape_predictor_training_options()`. -/
def template {A : Type} (fresh : Options A) (a : ErtArgs A) : Options A :=
  let o := Function.update fresh "feature_pool_region_padding" a.featurePadding
  let o := Function.update o "feature_pool_size" a.nPixelPairs
  let o := Function.update o "lambda_param" a.distancePriorWeighting
  let o := Function.update o "nu" a.regularisationWeight
  let o := Function.update o "num_test_splits" a.nSplitTests
  let o := Function.update o "num_trees_per_cascade_level" a.nTrees
  let o := Function.update o "oversampling_amount" a.nDlibPerturbations
  Function.update o "tree_depth" a.nTreeLevels

/-- What a fitter keeps of one scale, `/repo/menpofit/dlib/fitter.py:174-195`: the template and the
algorithm made from it. -/
structure ErtScale (A : Type) where
  template : Options A
  alg : Alg A

/-- `/repo/menpofit/dlib/fitter.py:190-195`. -/
def newErtScale {A : Type} (hidden : String → Bool) (names : List String) (fresh : Options A)
    (a : ErtArgs A) (nIterations : A) : ErtScale A :=
  let t := template fresh a
  ⟨t, newAlg hidden names fresh t nIterations⟩

/-- What `str` prints about one scale, `/repo/menpofit/dlib/fitter.py:481-493`: the name of the line
and the value. -/
def printed {A : Type} (s : ErtScale A) : List (String × A) :=
  [("Cascade depth", s.template "cascade_depth"), ("Depth per tree", s.template "tree_depth"),
    ("Trees per cascade level", s.template "num_trees_per_cascade_level"),
    ("Regularisation parameter", s.template "nu"),
    ("Feature pool size", s.template "feature_pool_size"),
    ("Feature pool padding", s.template "feature_pool_region_padding"),
    ("Lambda", s.template "lambda_param"), ("Split tests", s.template "num_test_splits"),
    ("Perturbations", s.template "oversampling_amount")]

end Dlib
end Menpofit
