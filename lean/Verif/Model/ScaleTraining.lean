import Verif.Model.Perturb
/-!
# Training cascaded regressors over several scales

Models the loops over the scales of `/repo/menpofit/sdm/fitter.py:241-368` and
`/repo/menpofit/dlib/fitter.py:261-374`.  Images, landmark groups and `generate` are those of
`Verif.Model.Perturb`.  The algorithms, the features, the rescaling of one image and the alignment of
the reference shape with a box are parameters.  The algorithms update the shapes they are
given in place; these are stored on the scaled images and are overwritten or dropped afterwards, so
here the algorithms only return the new shapes.  Printing is not modelled.
-/

namespace Menpofit
namespace ScaleTrain
open Perturb

/-- What the training loop uses.  `rescale j` is `scale_images` with `scales[j]` on one image;
`feature j` is `holistic_features[j]` on one image, `noOp` whether `holistic_features[0]` is `no_op`
and `same j` whether `holistic_features[j] == holistic_features[j - 1]`.
See `/repo/menpofit/sdm/fitter.py:241-368` -/
structure Ops (S P T : Type) where
  rescale : Nat → Im S P → Except PyErr (Im S P × T)
  apply : T → S → S
  feature : Nat → Im S P → Im S P
  noOp : Bool
  same : Nat → Bool
  align : S → S
  algo : Nat → List (Im S P) → List S → List (List S) → Except PyErr (List (List S))
  key : Nat → String

/-- `'__sdm_current_shape_{}'.format(k)`. See `/repo/menpofit/sdm/fitter.py:348-351` -/
def sdmKey (k : Nat) : String := "__sdm_current_shape_" ++ toString k

/-- `'__ert_current_bbox_{}'.format(k)`. See `/repo/menpofit/dlib/fitter.py:349-373` -/
def ertKey (k : Nat) : String := "__ert_current_bbox_" ++ toString k

variable {S P T : Type}

/-- The inner loop that attaches shapes, `/repo/menpofit/sdm/fitter.py:348-351`. -/
def attachShapes (ops : Ops S P T) (t : T) : List (String × S) → Nat → List S → List (String × S)
  | lms, _, [] => lms
  | lms, k, s :: ss => attachShapes ops t (assign lms (ops.key k) (ops.apply t s)) (k + 1) ss

/-- The outer loop, `/repo/menpofit/sdm/fitter.py:347-351` and `:356-360`. -/
def attachAll (ops : Ops S P T) : List (Im S P) → List T → List (List S) →
    Except PyErr (List (Im S P))
  | ims, _, [] => .ok ims
  | im :: ims, t :: ts, o :: os => do
    let rest ← attachAll ops ims ts os
    return { im with lms := attachShapes ops t im.lms 0 o } :: rest
  | _, _, _ :: _ => .error .indexError

/-- `del landmarks[name]`. See `/repo/menpofit/sdm/fitter.py:366-368` -/
def remove (lms : List (String × S)) (name : String) : Except PyErr (List (String × S)) :=
  if lms.any fun x => x.1 = name then .ok (lms.filter fun x => x.1 ≠ name) else .error .keyError

/-- The clean-up of one image, `/repo/menpofit/sdm/fitter.py:366-368`. -/
def removeKeys (key : Nat → String) (lms : List (String × S)) :
    List Nat → Except PyErr (List (String × S))
  | [] => .ok lms
  | k :: ks => do
    let lms' ← remove lms (key k)
    removeKeys key lms' ks

/-- The clean-up at the last scale, `/repo/menpofit/sdm/fitter.py:364-368`. -/
def cleanUp (key : Nat → String) (nPert : Nat) : List (Im S P) → Except PyErr (List (Im S P))
  | [] => .error .indexError
  | im :: ims =>
    if im.lms.any fun x => x.1 = key 0 then
      (im :: ims).mapM fun im => do
        let lms ← removeKeys key im.lms (List.range nPert)
        return { im with lms := lms }
    else .ok (im :: ims)

/-- What happens at one scale. See `/repo/menpofit/sdm/fitter.py:257-368` -/
structure Scale (S P T : Type) where
  images : List (Im S P)
  transforms : List T
  gts : List S
  input : List (List S)
  output : List (List S)

/-- The images whose features are used at scale `j`, `/repo/menpofit/sdm/fitter.py:270-281`: `none`
means the same objects as `image_batch`. -/
def nextFeatures (ops : Ops S P T) (j : Nat) (batch : List (Im S P))
    (feats : Option (List (Im S P))) : Option (List (Im S P)) :=
  if j = 0 ∧ ops.noOp = true then none
  else if j = 0 ∨ ops.same j = false then some (batch.map (ops.feature j))
  else feats

/-- The shapes a scale starts with, `/repo/menpofit/sdm/fitter.py:298-326` (and
`/repo/menpofit/dlib/fitter.py:332-351`). -/
def startShapes (ops : Ops S P T) (nPert j : Nat) (scaled : List (Im S P)) :
    Except PyErr (List (List S)) :=
  if j = 0 then .ok (scaled.map fun ii => (generatedBoxes ii).map ops.align)
  else scaled.mapM fun ii => (List.range nPert).mapM fun k => getGroup ii (some (ops.key k))

/-- One scale, `/repo/menpofit/sdm/fitter.py:267-337`. -/
def atScale (ops : Ops S P T) (group : String) (nPert j : Nat) (src : List (Im S P)) :
    Except PyErr (Scale S P T) := do
  let scaled ← src.mapM (ops.rescale j)
  let images := scaled.map Prod.fst
  let gts ← images.mapM fun i => getGroup i (some group)
  let cur ← startShapes ops nPert j images
  let out ← ops.algo j images gts cur
  return ⟨images, scaled.map Prod.snd, gts, cur, out⟩

/-- The loop over the scales, `/repo/menpofit/sdm/fitter.py:257-368`: `m + 1` scales from
scale `j` on.  Returns what happened at each scale and `image_batch` at the end. -/
def scaleLoop (ops : Ops S P T) (group : String) (nPert : Nat) :
    Nat → Nat → List (Im S P) → Option (List (Im S P)) →
    Except PyErr (List (Scale S P T) × List (Im S P))
  | 0, j, batch, feats => do
    let feats := nextFeatures ops j batch feats
    let sc ← atScale ops group nPert j (feats.getD batch)
    let batch ← cleanUp ops.key nPert batch
    return ([sc], batch)
  | m + 1, j, batch, feats => do
    let feats := nextFeatures ops j batch feats
    let sc ← atScale ops group nPert j (feats.getD batch)
    let st ← (if ops.same (j + 1) = false then do
        let b ← attachAll ops batch sc.transforms sc.output
        return (b, feats)
      else match feats with
        | none => do
          let b ← attachAll ops batch sc.transforms sc.output
          return (b, none)
        | some f => do
          let f ← attachAll ops f sc.transforms sc.output
          return (batch, some f) : Except PyErr (List (Im S P) × Option (List (Im S P))))
    let rest ← scaleLoop ops group nPert m (j + 1) st.1 st.2
    return (sc :: rest.1, rest.2)

/-- `_train_batch` of the supervised descent fitters, `/repo/menpofit/sdm/fitter.py:249-368`, on the
images rescaled to the reference shape. -/
def trainSdm (g : Geom S P) (perturb : Nat → S → S → Except PyErr S) (ops : Ops S P T)
    (group : String) (glob : Option (String → Bool)) (nPert nScales : Nat)
    (images : List (Im S P)) : Except PyErr (List (Scale S P T) × List (Im S P)) :=
  match generate g perturb nPert (some group) glob images with
  | (_, some e) => .error e
  | (batch, none) =>
    match nScales with
    | 0 => .ok ([], batch)
    | n + 1 => scaleLoop { ops with key := sdmKey } group nPert n 0 batch none

/-- The loop over the scales of the dlib fitter, `/repo/menpofit/dlib/fitter.py:307-374`: no
features, and nothing is removed at the end. -/
def ertLoop (ops : Ops S P T) (group : String) (nPert : Nat) :
    Nat → Nat → List (Im S P) → Except PyErr (List (Scale S P T) × List (Im S P))
  | 0, j, images => do
    let sc ← atScale ops group nPert j images
    return ([sc], images)
  | m + 1, j, images => do
    let sc ← atScale ops group nPert j images
    let images ← attachAll ops images sc.transforms sc.output
    let rest ← ertLoop ops group nPert m (j + 1) images
    return (sc :: rest.1, rest.2)

/-- The part of `_train` of the dlib fitter after the images were rescaled,
`/repo/menpofit/dlib/fitter.py:295-374`. -/
def trainErt (g : Geom S P) (perturb : Nat → S → S → Except PyErr S) (ops : Ops S P T)
    (group : String) (glob : Option (String → Bool)) (nPert nScales : Nat)
    (images : List (Im S P)) : Except PyErr (List (Scale S P T) × List (Im S P)) :=
  match generate g perturb nPert (some group) glob images with
  | (_, some e) => .error e
  | (images, none) =>
    match nScales with
    | 0 => .ok ([], images)
    | n + 1 => ertLoop { ops with key := ertKey, align := id } group nPert n 0 images

/-! ### The temporary landmark group of the dlib fitter -/

/-- Setting `__gt_bb` on every image, `/repo/menpofit/dlib/fitter.py:273-274`: the images as they are
afterwards and the exception raised if any. -/
def setBoxes (bb : S → Except PyErr S) (group : String) :
    List (Im S P) → List (Im S P) × Option PyErr
  | [] => ([], none)
  | im :: ims =>
    match getGroup im (some group) >>= bb with
    | .error e => (im :: ims, some e)
    | .ok b =>
      let r := setBoxes bb group ims
      ({ im with lms := assign im.lms "__gt_bb" b } :: r.1, r.2)

/-- Removing `__gt_bb` from both lists of images, `/repo/menpofit/dlib/fitter.py:291-293`. -/
def deleteBoxes : List (Im S P) → List (Im S P) → (List (Im S P) × List (Im S P)) × Option PyErr
  | i :: is, i2 :: is2 =>
    match remove i.lms "__gt_bb" with
    | .error e => ((i :: is, i2 :: is2), some e)
    | .ok l =>
      match remove i2.lms "__gt_bb" with
      | .error e => (({ i with lms := l } :: is, i2 :: is2), some e)
      | .ok l2 =>
        let r := deleteBoxes is is2
        (({ i with lms := l } :: r.1.1, { i2 with lms := l2 } :: r.1.2), r.2)
  | is, is2 => ((is, is2), none)

/-- The first part of `_train` of the dlib fitter, `/repo/menpofit/dlib/fitter.py:264-293`.  `refShape`
is `compute_reference_shape` (the given reference shape is `known`), `rescale` the rescaling of one
image with respect to the group `__gt_bb`.  Returns the caller's images as they are afterwards, and
the rescaled images or the exception. -/
def prepareErt (bb : S → Except PyErr S) (refShape : List S → Except PyErr S)
    (rescale : S → Im S P → Except PyErr (Im S P)) (known : Option S) (group : Option String)
    (images : List (Im S P)) : List (Im S P) × Except PyErr (List (Im S P)) :=
  match (match group with
      | some g => .ok g
      | none => match images with
        | im :: _ => match im.lms with
          | x :: _ => .ok x.1
          | [] => .error .indexError
        | [] => .error .indexError : Except PyErr String) with
  | .error e => (images, .error e)
  | .ok g =>
    match setBoxes bb g images with
    | (marked, some e) => (marked, .error e)
    | (marked, none) =>
      match (match known with
          | some r => .ok r
          | none => do
            let bs ← marked.mapM fun i => getGroup i (some "__gt_bb")
            refShape bs : Except PyErr S) with
      | .error e => (marked, .error e)
      | .ok ref =>
        match marked.mapM (rescale ref) with
        | .error e => (marked, .error e)
        | .ok scaled =>
          match deleteBoxes marked scaled with
          | ((a, _), some e) => (a, .error e)
          | ((a, b), none) => (a, .ok b)

end ScaleTrain
end Menpofit
