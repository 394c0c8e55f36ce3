import Verif.Model.Training
/-!
# Training of linear models

Models how the linear and linear masked AAMs and ATMs train their dense shape models:
`/repo/menpofit/aam/base.py:807-839, 985-1018` and `/repo/menpofit/atm/base.py:685-718, 848-882`.
Unlike the other classes they keep one reference frame as an attribute.  The rest of the training
loop is that of `Verif.Model.Training`, with the same simplifications.
-/

namespace Menpofit
namespace LinTrain
open Training

/-- What the linear models do with data. See `/repo/menpofit/aam/base.py:807-839` -/
structure LinOps (Im Sh D Fr W SM AM : Type) where
  /-- `align_shapes` -/
  align : List Sh → List Sh
  /-- `mean_pointcloud` -/
  mean : List Sh → Except PyErr Sh
  /-- `build_reference_frame(shape)`, or `build_patch_reference_frame(shape, patch_shape[j])` -/
  frame : Nat → Sh → Fr
  /-- `densify_shapes` for one shape, `/repo/menpofit/builder.py:395-402` -/
  densify : Fr → Sh → Except PyErr D
  shape : Learner SM D
  second : Learner AM W
  /-- `warp_images` for one image -/
  warp : Fr → Im → Sh → Except PyErr W

/-- Attributes of a linear model. See `/repo/menpofit/aam/base.py:769-797` -/
structure LinSt (Sh Fr SM AM : Type) where
  ref : Option Sh
  frame : Option Fr
  shapeModels : List SM
  second : List AM
deriving DecidableEq

variable {Im Sh D Fr W SM AM F : Type}

/-- `_build_shape_model` and `_increment_shape_model`, `/repo/menpofit/aam/base.py:807-827`,
`985-1006` (the same at `/repo/menpofit/atm/base.py:685-705, 848-869`): the reference frame the
object has afterwards and its shape models.  The attribute does not exist before the first
scale has been built. -/
def shapeStep (L : LinOps Im Sh D Fr W SM AM) (maxN : Option Nat) (increment : Bool) (j : Nat)
    (frame : Option Fr) (models : List SM) (shapes : List Sh) : Except PyErr (Fr × List SM) :=
  if increment then
    match frame with
    | none => .error .attributeError
    | some f => do
      let dense ← (L.align shapes).mapM (L.densify f)
      let sm ← update (L.shape.new maxN) (L.shape.inc maxN) true j models dense
      return (f, sm)
  else do
    let m ← L.mean (L.align shapes)
    let f := L.frame j m
    let dense ← shapes.mapM (L.densify f)
    let sm ← update (L.shape.new maxN) (L.shape.inc maxN) false j models dense
    return (f, sm)

/-- `_train_batch` of a linear AAM from scale `j` on, `/repo/menpofit/aam/base.py:246-331` with
the methods at 807-839 (`_warp_images` ignores the scaled reference shape, 829-839). -/
def linBatchLoop [DecidableEq F] (o : ImageOps Im Sh F) (L : LinOps Im Sh D Fr W SM AM)
    (increment : Bool) (images : List Im) :
    Nat → Option (F × List Im) → LinSt Sh Fr SM AM → List (Level F) →
    Except PyErr (LinSt Sh Fr SM AM)
  | _, _, st, [] => .ok st
  | j, prev, st, l :: ls => do
    let fi ← featureImages o images prev l.feature
    let si ← scaledImages o l.scale fi
    let shapes ← si.mapM o.shapeOf
    let (f, sm) ← shapeStep L l.maxShape increment j st.frame st.shapeModels shapes
    let warped ← (si.zip shapes).mapM fun x => L.warp f x.1 x.2
    let am ← update (L.second.new l.maxSecond) (L.second.inc l.maxSecond) increment j
      st.second warped
    linBatchLoop o L increment images (j + 1) (some (l.feature, fi))
      { st with frame := some f, shapeModels := sm, second := am } ls

/-- `_train` of a linear AAM from batch `k` on, `/repo/menpofit/aam/base.py:186-238`. -/
def linTrainLoop [DecidableEq F] (o : ImageOps Im Sh F) (L : LinOps Im Sh D Fr W SM AM)
    (levels : List (Level F)) :
    Nat → Bool → LinSt Sh Fr SM AM → List (List Im) → Except PyErr (LinSt Sh Fr SM AM)
  | _, _, st, [] => .ok st
  | k, increment, st, b :: bs => do
    let ref ← reference o k st.ref b
    let increment := if k > 0 then true else increment
    match ref with
    | none => .error .attributeError
    | some r => do
      let images ← b.mapM (o.rescale r)
      let st ← linBatchLoop o L increment images 0 none { st with ref := ref } levels
      linTrainLoop o L levels (k + 1) increment st bs

/-- The constructor of a linear AAM after its checks, `/repo/menpofit/aam/base.py:769-797,
943-975` with 151-165. -/
def linConstruct [DecidableEq F] (o : ImageOps Im Sh F) (L : LinOps Im Sh D Fr W SM AM)
    (levels : List (Level F)) (ref : Option Sh) (images : List Im) (batchSize : Option Nat) :
    Except PyErr (LinSt Sh Fr SM AM) :=
  linTrainLoop o L levels 0 false ⟨ref, none, [], []⟩ (batches images batchSize)

/-- `increment` of a linear AAM, `/repo/menpofit/aam/base.py:336-386`. -/
def linIncrement [DecidableEq F] (o : ImageOps Im Sh F) (L : LinOps Im Sh D Fr W SM AM)
    (levels : List (Level F)) (st : LinSt Sh Fr SM AM) (images : List Im)
    (batchSize : Option Nat) : Except PyErr (LinSt Sh Fr SM AM) :=
  linTrainLoop o L levels 0 true st (batches images batchSize)

/-- The dense shape models of a linear ATM over one batch of shapes, from scale `j` on,
`/repo/menpofit/atm/base.py:225-268` with the methods at 685-705.  Left out: features and scaling
of the template, and its warping, which do not touch the shape models or the frame. -/
def linAtmBatch (L : LinOps Im Sh D Fr W SM AM) (scaleShape : Rat → Sh → Sh) (increment : Bool)
    (shapes : List Sh) :
    Nat → Option Fr → List SM → List (Level F) → Except PyErr (Option Fr × List SM)
  | _, f, sm, [] => .ok (f, sm)
  | j, f, sm, l :: ls => do
    let ss := if l.scale ≠ 1 then shapes.map (scaleShape l.scale) else shapes
    let (f', sm') ← shapeStep L l.maxShape increment j f sm ss
    linAtmBatch L scaleShape increment shapes (j + 1) (some f') sm' ls

end LinTrain
end Menpofit
