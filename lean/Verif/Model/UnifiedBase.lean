import Verif.Model.Training
/-!
# Training of the unified AAM-CLM

Models `/repo/menpofit/unified_aam_clm/base.py:176-313` and `:425-454`.  As in
`Verif.Model.Training`, what menpo and the model classes do with the data is a parameter that may
raise, and printing is left out.  `instance`, `random_instance` and
`appearance_reconstructions` (352-411, 456-487) are the code of `Verif.Model.AamBase`.
-/

namespace Menpofit
namespace UniBase
open Training

/-- What the constructor does with data, besides `ImageOps`.
See `/repo/menpofit/unified_aam_clm/base.py:176-313` -/
structure UniOps (Im Sh Fr W SM AM E : Type) where
  /-- `check_landmark_trilist` -/
  trilist : Im → Except PyErr Unit
  /-- `fsmooth(image, sigma)`, `/repo/menpofit/unified_aam_clm/base.py:26-28` -/
  smooth : Rat → Im → Im
  /-- `build_reference_frame(shape, boundary=boundary)` -/
  frame : Nat → Sh → Fr
  /-- `warp_images` for one image -/
  warp : Fr → Im → Sh → Except PyErr W
  /-- `shape_model_cls[j]` -/
  shape : Nat → Learner SM Sh
  /-- `PCAModel` -/
  appearance : Learner AM W
  /-- `expert_ensemble_cls[j]` given patch shape, context shape and covariance of the response -/
  expert : Nat → Nat × Nat → Nat × Nat → Nat → List Im → List Sh → Except PyErr E

/-- The settings of one scale. See `/repo/menpofit/unified_aam_clm/base.py:221-305` -/
structure UniLevel (F : Type) extends Level F where
  patch : Nat × Nat
  context : Nat × Nat

/-- Options that are stored as they come. See `/repo/menpofit/unified_aam_clm/base.py:151-175` -/
structure UniOpts (Sh : Type) where
  referenceShape : Option Sh
  sigma : Option Rat
  boundary : Nat
  responseCovariance : Nat

/-- Attributes of a trained model. See `/repo/menpofit/unified_aam_clm/base.py:176-186` -/
structure UniSt (Sh SM AM E : Type) where
  ref : Option Sh
  shapeModels : List SM
  appearance : List AM
  experts : List E
deriving DecidableEq

variable {Im Sh Fr W SM AM E F : Type}

/-- The default `boundary` of `build_reference_frame`, `/repo/menpofit/builder.py:276-299`. -/
def defaultBoundary : Nat := 3

/-- The default `response_covariance` of an expert ensemble,
`/repo/menpofit/clm/expert/ensemble.py:285`. -/
def defaultCovariance : Nat := 3

/-- `_warp_images`, `/repo/menpofit/unified_aam_clm/base.py:191-202`: the frame is built without
passing `self.boundary`. -/
def uniWarp (U : UniOps Im Sh Fr W SM AM E) (_opts : UniOpts Sh) (ref : Sh) (i : Im) (s : Sh) :
    Except PyErr W :=
  U.warp (U.frame defaultBoundary ref) i s

/-- The expert ensemble of a scale, `/repo/menpofit/unified_aam_clm/base.py:294-304`: the
covariance of the response is not passed.  The remaining arguments (normalisation, mask, offsets)
do not vary. -/
def uniExpert (U : UniOps Im Sh Fr W SM AM E) (_opts : UniOpts Sh) (j : Nat) (l : UniLevel F)
    (images : List Im) (shapes : List Sh) : Except PyErr E :=
  U.expert j l.patch l.context defaultCovariance images shapes

/-- The loop over scales of `_train`, `/repo/menpofit/unified_aam_clm/base.py:221-305`, from scale
`j` on. -/
def uniLoop [DecidableEq F] (o : ImageOps Im Sh F) (U : UniOps Im Sh Fr W SM AM E)
    (opts : UniOpts Sh) (ref : Sh) (images : List Im) :
    Nat → Option (F × List Im) → UniSt Sh SM AM E → List (UniLevel F) →
    Except PyErr (UniSt Sh SM AM E)
  | _, _, st, [] => .ok st
  | j, prev, st, l :: ls => do
    let fi ← featureImages o images prev l.feature
    let si ← scaledImages o l.scale fi
    let shapes ← si.mapM o.shapeOf
    let sm ← (U.shape j).new l.maxShape shapes
    let warped ← (si.zip shapes).mapM fun x =>
      uniWarp U opts (o.scaleShape l.scale ref) x.1 x.2
    let am ← U.appearance.new l.maxSecond warped
    let e ← uniExpert U opts j l si shapes
    uniLoop o U opts ref images (j + 1) (some (l.feature, fi))
      { st with
        shapeModels := st.shapeModels ++ [sm]
        appearance := st.appearance ++ [am]
        experts := st.experts ++ [e] } ls

/-- `if self.sigma: images = [fsmooth(i, self.sigma) for i in images]`,
`/repo/menpofit/unified_aam_clm/base.py:214-215`. -/
def smoothed (U : UniOps Im Sh Fr W SM AM E) (sigma : Option Rat) (images : List Im) : List Im :=
  match sigma with
  | none => images
  | some q => if q = 0 then images else images.map (U.smooth q)

/-- The constructor after its checks, `/repo/menpofit/unified_aam_clm/base.py:174-186` with
`_train`, 204-305.  The reference shape that was stored is overwritten (206). -/
def uniConstruct [DecidableEq F] (o : ImageOps Im Sh F) (U : UniOps Im Sh Fr W SM AM E)
    (opts : UniOpts Sh) (levels : List (UniLevel F)) (images : List Im) :
    Except PyErr (UniSt Sh SM AM E) :=
  match images with
  | [] => .error .indexError
  | i :: _ => do
    U.trilist i
    let shapes ← images.mapM o.shapeOf
    let ref ← o.reference shapes
    let rescaled ← images.mapM (o.rescale ref)
    uniLoop o U opts ref (smoothed U opts.sigma rescaled) 0 none ⟨some ref, [], [], []⟩ levels

/-- `build_fitter_interfaces`, `/repo/menpofit/unified_aam_clm/base.py:443-454`: appearance model,
shape model and sampling of every interface. -/
def interfaces {T : Type} (st : UniSt Sh SM AM E) (sampling : List T) : List (AM × SM × T) :=
  st.appearance.zip (st.shapeModels.zip sampling)

end UniBase
end Menpofit
