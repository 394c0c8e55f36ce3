import Verif.Model.DlibTraining
import Verif.Model.Fitter
/-!
# Specification of training and running dlib's predictors
-/

namespace Menpofit
namespace Spec
open Dlib ScaleTrain

noncomputable section

/-- The level of a fitter with which image `k` of the training set would be fitted at the scale `a` of
its training: it has the pixels of the scaled training image, the scale transform of that image and
runs the predictor `m`. -/
structure LevelOf {Pix M P F : Type} (lib : Lib Pix M) (pixels : P → Pix) (k : Nat)
    (a : Scale Shape P (ℝ × ℝ)) (m : M) (L : Fitter.Level Shape P F Shape) : Prop where
  image : ∃ im, a.images[k]? = some im ∧ im.px = L.image.px
  scale : ∃ t, a.transforms[k]? = some t ∧ ∀ s : Shape, L.scale s = scaleBy t s
  alg : ∀ (im : Fitter.Img Shape P) s gt it, L.alg im s gt it = runAlg lib m (pixels im.px) s

/-- The predictor `m` was trained at scale `j` on the pixels of all images of the scale; with the boxes
of each image go the rectangles of the boxes and the points of the ground truth of that image. -/
def TrainedOn {Pix M P : Type} (lib : Lib Pix M) (pixels : P → Pix) (j : Nat)
    (a : Scale Shape P (ℝ × ℝ)) (m : M) : Prop :=
  ∃ ds, lib.train j (a.images.map fun im => pixels im.px) ds = .ok m ∧
    ds.length = a.input.length ∧
    ∀ (k : Nat) (bbs : List Shape) (gt : Shape), a.input[k]? = some bbs → a.gts[k]? = some gt →
      ∃ d, ds[k]? = some d ∧
        List.Forall₂ (fun bb (x : Detection) => toRect bb = .ok x.rect ∧ x.parts = toParts gt) bbs d

/-- The numbers a fitter was given for one scale, under the names `str` prints them. -/
def givenOptions {A : Type} (a : ErtArgs A) (nIterations : A) : List (String × A) :=
  [("Cascade depth", nIterations), ("Depth per tree", a.nTreeLevels),
    ("Trees per cascade level", a.nTrees), ("Regularisation parameter", a.regularisationWeight),
    ("Feature pool size", a.nPixelPairs), ("Feature pool padding", a.featurePadding),
    ("Lambda", a.distancePriorWeighting), ("Split tests", a.nSplitTests),
    ("Perturbations", a.nDlibPerturbations)]

end

end Spec
end Menpofit
