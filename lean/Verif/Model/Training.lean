import Verif.Model.Base
import Verif.Model.Py
import Mathlib.Algebra.Order.Field.Rat
import Mathlib.Algebra.Order.AbsoluteValue.Basic
/-!
# Batched training of the multi-scale models

Models the training loops of `/repo/menpofit/aam/base.py`, `/repo/menpofit/clm/base.py`,
`/repo/menpofit/aps/base.py` and `/repo/menpofit/atm/base.py`.  What menpo and the model classes
do with the data is a parameter and may raise: reference shape, rescaling, features, warping,
building and incrementing a model.  All of these are functions of their arguments (a model object
that is incremented in place is a value here, replaced in the list).  The state after an
exception is not modelled.  Printing and warnings are left out.
-/

namespace Menpofit
namespace Training

/-- The batches of `_train`, `/repo/menpofit/aam/base.py:179-184` (the same in the other
classes); a tuple is a list. -/
def batches {α : Type} (images : List α) (batchSize : Option Nat) : List (List α) :=
  match batchSize with
  | some n => Base.batch n images
  | none => [images]

/-- A model class: constructor, `increment` and `trim_components`.
See `/repo/menpofit/aam/base.py:388-398` -/
structure Learner (M D : Type) where
  build : List D → Except PyErr M
  increment : M → List D → Except PyErr M
  trim : Nat → M → M

variable {M D : Type}

/-- `if max_n_components is not None: model.trim_components(max_n_components)`.
See `/repo/menpofit/modelinstance.py:298-309` -/
def Learner.cut (L : Learner M D) (maxN : Option Nat) (m : M) : M :=
  match maxN with
  | none => m
  | some k => L.trim k m

/-- `_build_shape_model` (`/repo/menpofit/aam/base.py:388-391` with
`/repo/menpofit/modelinstance.py:298-309`) and the appearance model (`aam/base.py:316-319`). -/
def Learner.new (L : Learner M D) (maxN : Option Nat) (d : List D) : Except PyErr M := do
  let m ← L.build d
  return L.cut maxN m

/-- `_increment_shape_model` (`/repo/menpofit/aam/base.py:393-398` with
`/repo/menpofit/modelinstance.py:368-408`) and the appearance model (`aam/base.py:324-331`). -/
def Learner.inc (L : Learner M D) (maxN : Option Nat) (m : M) (d : List D) : Except PyErr M := do
  let m ← L.increment m d
  return L.cut maxN m

/-- `if not increment: self.models.append(..) else: self.models[j].increment(..)`.
See `/repo/menpofit/aam/base.py:296-331` -/
def update (new : List D → Except PyErr M) (inc : M → List D → Except PyErr M) (increment : Bool)
    (j : Nat) (models : List M) (d : List D) : Except PyErr (List M) :=
  if increment then
    match models[j]? with
    | none => .error .indexError
    | some m => do
      let m' ← inc m d
      return models.set j m'
  else do
    let m ← new d
    return models ++ [m]

/-- `np.allclose(scale, 1)`. See `/repo/menpofit/builder.py:200` -/
def closeToOne (s : Rat) : Bool := decide (|s - 1| ≤ 1 / 10 ^ 8 + 1 / 10 ^ 5)

/-- What the loop does with images. See `/repo/menpofit/aam/base.py:246-331` -/
structure ImageOps (Im Sh F : Type) where
  /-- `compute_reference_shape(shapes, diagonal)` -/
  reference : List Sh → Except PyErr Sh
  /-- `image.rescale_to_pointcloud(reference_shape, group)` -/
  rescale : Sh → Im → Except PyErr Im
  noOp : F
  feature : F → Im → Except PyErr Im
  /-- `image.rescale(scale)` -/
  rescaleBy : Rat → Im → Except PyErr Im
  /-- `image.landmarks[group]` -/
  shapeOf : Im → Except PyErr Sh
  /-- `Scale(s).apply(shape)` -/
  scaleShape : Rat → Sh → Sh

/-- The settings of one scale. See `/repo/menpofit/aam/base.py:246-331` -/
structure Level (F : Type) where
  feature : F
  scale : Rat
  maxShape : Option Nat
  maxSecond : Option Nat

variable {Im Sh F W SM AM : Type}

/-- `scale_images` without transforms, `/repo/menpofit/builder.py:200-223`. -/
def scaleImages (o : ImageOps Im Sh F) (s : Rat) (images : List Im) : Except PyErr (List Im) :=
  if closeToOne s then .ok images else images.mapM (o.rescaleBy s)

/-- The feature images of a scale, `/repo/menpofit/aam/base.py:256-270` (the same at
`clm/base.py:246-260` and `aps/base.py:280-294`).  `prev` holds the feature and the feature
images of the previous scale (`none` at scale 0). -/
def featureImages [DecidableEq F] (o : ImageOps Im Sh F) (images : List Im)
    (prev : Option (F × List Im)) (f : F) : Except PyErr (List Im) :=
  match prev with
  | none => if f = o.noOp then .ok images else images.mapM (o.feature f)
  | some (f', fi) => if f ≠ f' then images.mapM (o.feature f) else .ok fi

/-- The scaled images of a scale, `/repo/menpofit/aam/base.py:272-278`. -/
def scaledImages (o : ImageOps Im Sh F) (s : Rat) (fi : List Im) : Except PyErr (List Im) :=
  if s ≠ 1 then scaleImages o s fi else .ok fi

/-- Attributes of a trained model: reference shape, shape models and the second list of models
(appearance models of an AAM, expert ensembles of a CLM).
See `/repo/menpofit/aam/base.py:151-165` -/
structure St (Sh SM AM : Type) where
  ref : Option Sh
  shapeModels : List SM
  second : List AM
deriving DecidableEq

/-- The models trained at each scale: the shape model from the shapes, the second one from what
`warp` makes of reference shape, scale index, image and shape.
See `/repo/menpofit/aam/base.py:296-331` -/
structure Learners (Im Sh W SM AM : Type) where
  shape : Learner SM Sh
  second : Learner AM W
  warp : Sh → Nat → Im → Sh → Except PyErr W

/-- `_train_batch` from scale `j` on, `/repo/menpofit/aam/base.py:246-331` (AAM) and
`/repo/menpofit/clm/base.py:236-305` (CLM: the second model is the expert ensemble, trained
on pairs of scaled image and shape). -/
def batchLoop [DecidableEq F] (o : ImageOps Im Sh F) (L : Learners Im Sh W SM AM) (ref : Sh)
    (increment : Bool) (images : List Im) :
    Nat → Option (F × List Im) → St Sh SM AM → List (Level F) → Except PyErr (St Sh SM AM)
  | _, _, st, [] => .ok st
  | j, prev, st, l :: ls => do
    let fi ← featureImages o images prev l.feature
    let si ← scaledImages o l.scale fi
    let shapes ← si.mapM o.shapeOf
    let sm ← update (L.shape.new l.maxShape) (L.shape.inc l.maxShape) increment j
      st.shapeModels shapes
    let warped ← (si.zip shapes).mapM fun x => L.warp (o.scaleShape l.scale ref) j x.1 x.2
    let am ← update (L.second.new l.maxSecond) (L.second.inc l.maxSecond) increment j
      st.second warped
    batchLoop o L ref increment images (j + 1) (some (l.feature, fi))
      { st with shapeModels := sm, second := am } ls

/-- The reference shape at batch `k`, `/repo/menpofit/aam/base.py:187-207`. -/
def reference (o : ImageOps Im Sh F) (k : Nat) (ref : Option Sh) (b : List Im) :
    Except PyErr (Option Sh) :=
  if k = 0 then
    match ref with
    | none => do
      let shapes ← b.mapM o.shapeOf
      let r ← o.reference shapes
      return some r
    | some r => .ok (some r)
  else .ok ref

/-- `_train` from batch `k` on, `/repo/menpofit/aam/base.py:186-224` and
`/repo/menpofit/clm/base.py:182-216`, with `rescale_images_to_reference_shape`
(`aam/base.py:236-238`); without a reference shape the rescaling fails. -/
def trainLoop [DecidableEq F] (o : ImageOps Im Sh F) (L : Learners Im Sh W SM AM)
    (levels : List (Level F)) :
    Nat → Bool → St Sh SM AM → List (List Im) → Except PyErr (St Sh SM AM)
  | _, _, st, [] => .ok st
  | k, increment, st, b :: bs => do
    let ref ← reference o k st.ref b
    let increment := if k > 0 then true else increment
    match ref with
    | none => .error .attributeError
    | some r => do
      let images ← b.mapM (o.rescale r)
      let st ← batchLoop o L r increment images 0 none { st with ref := ref } levels
      trainLoop o L levels (k + 1) increment st bs

/-- `_train`. See `/repo/menpofit/aam/base.py:186-224` -/
def train [DecidableEq F] (o : ImageOps Im Sh F) (L : Learners Im Sh W SM AM)
    (levels : List (Level F)) (increment : Bool) (st : St Sh SM AM) (images : List Im)
    (batchSize : Option Nat) : Except PyErr (St Sh SM AM) :=
  trainLoop o L levels 0 increment st (batches images batchSize)

/-- The constructor of an AAM or CLM after its checks, `/repo/menpofit/aam/base.py:151-165`,
`/repo/menpofit/clm/base.py:143-149`. -/
def construct [DecidableEq F] (o : ImageOps Im Sh F) (L : Learners Im Sh W SM AM)
    (levels : List (Level F)) (ref : Option Sh) (images : List Im) (batchSize : Option Nat) :
    Except PyErr (St Sh SM AM) :=
  train o L levels false ⟨ref, [], []⟩ images batchSize

/-- `increment`, `/repo/menpofit/aam/base.py:336-386`, `/repo/menpofit/clm/base.py:322-363`. -/
def incrementModel [DecidableEq F] (o : ImageOps Im Sh F) (L : Learners Im Sh W SM AM)
    (levels : List (Level F)) (st : St Sh SM AM) (images : List Im) (batchSize : Option Nat) :
    Except PyErr (St Sh SM AM) :=
  train o L levels true st images batchSize

/-! ### Active template models -/

/-- Attributes of an ATM. See `/repo/menpofit/atm/base.py:129-147` -/
structure AtmSt (Sh SM W : Type) where
  ref : Option Sh
  shapeModels : List SM
  templates : List W
deriving DecidableEq

/-- The parameters of ATM training: the learner of the shape models and `_warp_template`
(`/repo/menpofit/atm/base.py:349-361`: reference shape, scale index, template image). -/
structure AtmOps (Im Sh W SM : Type) where
  shape : Learner SM Sh
  warpTemplate : Sh → Nat → Im → Except PyErr W

/-- `scaled_images[0]`. See `/repo/menpofit/atm/base.py:225-285` -/
def first {α : Type} (l : List α) : Except PyErr α :=
  match l with
  | x :: _ => .ok x
  | [] => .error .indexError

/-- `_train_batch` of an ATM from scale `j` on, `/repo/menpofit/atm/base.py:225-285`.  The features
are those of the template; `prev` as above, without the shortcut for `no_op`.  The warped
template is appended in every batch. -/
def atmBatchLoop [DecidableEq F] (o : ImageOps Im Sh F) (L : AtmOps Im Sh W SM) (ref : Sh)
    (increment : Bool) (template : Im) (shapes : List Sh) :
    Nat → Option (F × List Im) → AtmSt Sh SM W → List (Level F) → Except PyErr (AtmSt Sh SM W)
  | _, _, st, [] => .ok st
  | j, prev, st, l :: ls => do
    let fi ← (match prev with
      | none => [template].mapM (o.feature l.feature)
      | some (f', fi) =>
        if l.feature ≠ f' then [template].mapM (o.feature l.feature) else .ok fi :
      Except PyErr (List Im))
    let si ← scaledImages o l.scale fi
    let scaleShapes := if l.scale ≠ 1 then shapes.map (o.scaleShape l.scale) else shapes
    let sm ← update (L.shape.new l.maxShape) (L.shape.inc l.maxShape) increment j
      st.shapeModels scaleShapes
    let t ← first si
    let w ← L.warpTemplate (o.scaleShape l.scale ref) j t
    atmBatchLoop o L ref increment template shapes (j + 1) (some (l.feature, fi))
      { st with shapeModels := sm, templates := st.templates ++ [w] } ls

/-- The reference shape of an ATM at batch 0, `/repo/menpofit/atm/base.py:171-186`. -/
def atmReference (o : ImageOps Im Sh F) (ref : Option Sh) (b : List Sh) : Except PyErr Sh :=
  match ref with
  | none => o.reference b
  | some r => .ok r

/-- `_train` of an ATM from batch `k` on, `/repo/menpofit/atm/base.py:168-208`. -/
def atmTrainLoop [DecidableEq F] (o : ImageOps Im Sh F) (L : AtmOps Im Sh W SM)
    (levels : List (Level F)) :
    Nat → Bool → Im → AtmSt Sh SM W → List (List Sh) → Except PyErr (AtmSt Sh SM W)
  | _, _, _, st, [] => .ok st
  | k, increment, template, st, b :: bs => do
    if k = 0 then
      let r ← atmReference o st.ref b
      let template ← o.rescale r template
      let st ← atmBatchLoop o L r increment template b 0 none { st with ref := some r } levels
      atmTrainLoop o L levels (k + 1) increment template st bs
    else
      match st.ref with
      | none => .error .attributeError
      | some r =>
        let st ← atmBatchLoop o L r true template b 0 none st levels
        atmTrainLoop o L levels (k + 1) true template st bs

/-- The constructor, `/repo/menpofit/atm/base.py:129-147`. -/
def atmConstruct [DecidableEq F] (o : ImageOps Im Sh F) (L : AtmOps Im Sh W SM)
    (levels : List (Level F)) (ref : Option Sh) (template : Im) (shapes : List Sh)
    (batchSize : Option Nat) : Except PyErr (AtmSt Sh SM W) :=
  atmTrainLoop o L levels 0 false template ⟨ref, [], []⟩ (batches shapes batchSize)

/-- `increment`, `/repo/menpofit/atm/base.py:290-335`. -/
def atmIncrement [DecidableEq F] (o : ImageOps Im Sh F) (L : AtmOps Im Sh W SM)
    (levels : List (Level F)) (st : AtmSt Sh SM W) (template : Im) (shapes : List Sh)
    (batchSize : Option Nat) : Except PyErr (AtmSt Sh SM W) :=
  atmTrainLoop o L levels 0 true template st (batches shapes batchSize)

/-- The template and shape model each fitter interface is built from,
`/repo/menpofit/atm/base.py:455-462`. -/
def atmInterfaces (st : AtmSt Sh SM W) : List (W × SM) := st.templates.zip st.shapeModels

/-! ### Active pictorial structures -/

/-- Attributes of an APS. See `/repo/menpofit/aps/base.py:193-201` -/
structure ApsSt (Sh G SM DM AM : Type) where
  ref : Option Sh
  graphs : List (Option G)
  shapeModels : List SM
  deformation : List DM
  second : List AM
deriving DecidableEq

/-- The model classes of an APS: shape, deformation (given its graph) and appearance;
`align_shapes`; the minimum spanning tree; patch extraction.
See `/repo/menpofit/aps/base.py:270-370` -/
structure ApsOps (Im Sh W G SM DM AM : Type) where
  shape : Learner SM Sh
  deformation : G → Learner DM Sh
  second : Learner AM W
  align : List Sh → Except PyErr (List Sh)
  tree : List Sh → Except PyErr G
  warp : Nat → Im → Sh → Except PyErr W
  useProcrustes : Bool

variable {G DM : Type}

/-- `_train_batch` of an APS from scale `j` on, `/repo/menpofit/aps/base.py:270-370`, given an
appearance graph at every scale (without one, `NotImplementedError`).  `increment` of the
shape model is called without `max_n_components` (line 324). -/
def apsBatchLoop [DecidableEq F] (o : ImageOps Im Sh F) (L : ApsOps Im Sh W G SM DM AM)
    (increment : Bool) (images : List Im) :
    Nat → Option (F × List Im) → ApsSt Sh G SM DM AM → List (Level F) →
      Except PyErr (ApsSt Sh G SM DM AM)
  | _, _, st, [] => .ok st
  | j, prev, st, l :: ls => do
    let fi ← featureImages o images prev l.feature
    let si ← scaledImages o l.scale fi
    let shapes ← si.mapM o.shapeOf
    let aligned ← L.align shapes
    let sm ← update (L.shape.new l.maxShape) (L.shape.inc none) increment j
      st.shapeModels aligned
    let g ← (match st.graphs[j]? with
      | some (some g) => .ok g
      | _ => .error .typeError : Except PyErr G)
    let dm ← update (L.deformation g).build (L.deformation g).increment increment j st.deformation
      (if L.useProcrustes then aligned else shapes)
    let warped ← (si.zip shapes).mapM fun x => L.warp j x.1 x.2
    let am ← update L.second.build L.second.increment increment j st.second warped
    apsBatchLoop o L increment images (j + 1) (some (l.feature, fi))
      { st with shapeModels := sm, deformation := dm, second := am } ls

/-- The deformation graphs, `/repo/menpofit/aps/base.py:255-262`. -/
def apsGraphs (o : ImageOps Im Sh F) (L : ApsOps Im Sh W G SM DM AM) (graphs : List (Option G))
    (images : List Im) : Except PyErr (List (Option G)) :=
  if graphs.any (·.isNone) then do
    let shapes ← images.mapM o.shapeOf
    let t ← L.tree shapes
    return graphs.map fun g => some (g.getD t)
  else .ok graphs

/-- `_train` of an APS from batch `k` on, `/repo/menpofit/aps/base.py:215-262`. -/
def apsTrainLoop [DecidableEq F] (o : ImageOps Im Sh F) (L : ApsOps Im Sh W G SM DM AM)
    (levels : List (Level F)) :
    Nat → Bool → ApsSt Sh G SM DM AM → List (List Im) → Except PyErr (ApsSt Sh G SM DM AM)
  | _, _, st, [] => .ok st
  | k, increment, st, b :: bs => do
    let ref ← reference o k st.ref b
    let increment := if k > 0 then true else increment
    match ref with
    | none => .error .attributeError
    | some r => do
      let images ← b.mapM (o.rescale r)
      let graphs ← apsGraphs o L st.graphs images
      let st ← apsBatchLoop o L increment images 0 none
        { st with ref := ref, graphs := graphs } levels
      apsTrainLoop o L levels (k + 1) increment st bs

/-- The constructor after its checks, `/repo/menpofit/aps/base.py:193-201`. -/
def apsConstruct [DecidableEq F] (o : ImageOps Im Sh F) (L : ApsOps Im Sh W G SM DM AM)
    (levels : List (Level F)) (ref : Option Sh) (graphs : List (Option G)) (images : List Im)
    (batchSize : Option Nat) : Except PyErr (ApsSt Sh G SM DM AM) :=
  apsTrainLoop o L levels 0 false ⟨ref, graphs, [], [], []⟩ (batches images batchSize)

/-- `increment`, `/repo/menpofit/aps/base.py:375-399`. -/
def apsIncrement [DecidableEq F] (o : ImageOps Im Sh F) (L : ApsOps Im Sh W G SM DM AM)
    (levels : List (Level F)) (st : ApsSt Sh G SM DM AM) (images : List Im)
    (batchSize : Option Nat) : Except PyErr (ApsSt Sh G SM DM AM) :=
  apsTrainLoop o L levels 0 true st (batches images batchSize)

end Training
end Menpofit
