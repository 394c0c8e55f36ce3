import Verif.Model.AamBase
/-!
# Instances of every kind of model

Models the methods `instance`, `random_instance`, `shape_instance` and `_instance` of the classes in
`/repo/menpofit/aam/base.py`, `atm/base.py`, `aps/base.py`, `clm/base.py` and
`unified_aam_clm/base.py`.  Shape models are those of `Verif.Model.AamBase`; building a reference
frame and warping are parameters.
-/

namespace Menpofit
namespace Inst
open AamBase

noncomputable section

/-- The five classes of each family. See `/repo/menpofit/aam/base.py:17-1316` -/
inductive Kind where
  | holistic | masked | linear | linearMasked | patch
  deriving DecidableEq

/-- What is passed as `patch_shape`: one patch shape, or the list with one per scale.
See `/repo/menpofit/builder.py:312-373` -/
inductive PatchArg where
  | one (p : Nat × Nat)
  | perScale (l : List (Nat × Nat))

/-- menpo's and menpofit's operations on shapes `Sh`, images `Im` and reference frames `Fr`.
See `/repo/menpofit/builder.py:257-373` -/
structure Ops (Sh Im Fr : Type) where
  /-- `build_reference_frame(shape)` -/
  frame : Sh → Except PyErr Fr
  /-- `build_patch_reference_frame(shape, patch_shape=p)` for one patch shape -/
  patchFrame : Sh → Nat × Nat → Except PyErr Fr
  /-- `image.landmarks['source']` -/
  source : Im → Except PyErr Sh
  /-- `image.as_unmasked().warp_to_mask(frame.mask, transform(frame.landmarks['source'], lm),
  warp_landmarks=True)` -/
  warp : Im → Sh → Fr → Except PyErr Im

variable {ι κ Im Fr : Type}

/-- `/repo/menpofit/builder.py:367-373`: menpo's `constrain_mask_to_patches_around_landmarks` uses the
two entries of `patch_shape` as integers; given the list of all patch shapes, the first entry is a tuple
(`TypeError`). -/
def buildPatchFrame {Sh : Type} (o : Ops Sh Im Fr) (s : Sh) : PatchArg → Except PyErr Fr
  | .one p => o.patchFrame s p
  | .perScale [] => .error .indexError
  | .perScale (_ :: _) => .error .typeError

/-- What `instance` returns: an image, or shape and patches.
See `/repo/menpofit/aam/base.py:487-497` -/
inductive Rendered (Sh Im : Type) where
  | image (im : Im)
  | pair (s : Sh) (im : Im)

/-- The common end of `_instance`: warp `im` from the landmarks of `template` to the frame.
See `/repo/menpofit/aam/base.py:487-497` -/
def warpInto {Sh : Type} (o : Ops Sh Im Fr) (im template : Im) (frame : Except PyErr Fr) :
    Except PyErr (Rendered Sh Im) := do
  let landmarks ← o.source template
  let fr ← frame
  let r ← o.warp im landmarks fr
  return .image r

/-- `_instance` of the AAM classes: `/repo/menpofit/aam/base.py:487-497` (`AAM`), `:686-698`
(`MaskedAAM`), `:842-843` and `:1021-1022` (linear), `:1185-1186` (`PatchAAM`); also
`/repo/menpofit/unified_aam_clm/base.py:413-423` (`holistic`). -/
def aamRender {Sh : Type} (o : Ops Sh Im Fr) (k : Kind) (patchShape : List (Nat × Nat))
    (meanAt : Int → Except PyErr Im) (scale : Int) (s : Sh) (im : Im) : Except PyErr (Rendered Sh Im) :=
  match k with
  | .holistic => do
    let template ← meanAt scale
    warpInto o im template (o.frame s)
  | .masked => do
    let template ← meanAt scale
    warpInto o im template (do
      let p ← Result.pyGet patchShape scale
      buildPatchFrame o s (.one p))
  | .linear => .error .notImplementedError
  | .linearMasked => .error .notImplementedError
  | .patch => .ok (.pair s im)

/-- `_instance` of the ATM classes: `/repo/menpofit/atm/base.py:427-436` (`ATM`), `:576-587`
(`MaskedATM`; line 580 passes the list of all patch shapes), `:720-722` and `:884-886` (linear),
`:1027-1028` (`PatchATM`). -/
def atmRender {Sh : Type} (o : Ops Sh Im Fr) (k : Kind) (patchShape : List (Nat × Nat)) (s : Sh)
    (template : Im) : Except PyErr (Rendered Sh Im) :=
  match k with
  | .holistic => warpInto o template template (o.frame s)
  | .masked => warpInto o template template (buildPatchFrame o s (.perScale patchShape))
  | .linear => .error .notImplementedError
  | .linearMasked => .error .notImplementedError
  | .patch => .ok (.pair s template)

/-- An AAM of kind `k` whose appearance vectors are pixels of `Im` by `toIm`.
See `/repo/menpofit/aam/base.py:450-497` -/
def aamOf (o : Ops (ι → ℝ) Im Fr) (k : Kind) (patchShape : List (Nat × Nat)) (toIm : (κ → ℝ) → Im)
    (shape : List (EigModel ι)) (appearance : List (EigModel κ)) :
    AamModels ι κ (Rendered (ι → ℝ) Im) where
  shape := shape
  appearance := appearance
  warp scale s t := aamRender o k patchShape
    (fun i => do
      let am ← Result.pyGet appearance i
      return toIm am.mean) scale s (toIm t)

/-- Attributes of an ATM used here. See `/repo/menpofit/atm/base.py:395-402` -/
structure Atm (ι Im : Type) where
  kind : Kind
  patchShape : List (Nat × Nat)
  shape : List (EigModel ι)
  templates : List Im

/-- `ATM.instance`, `/repo/menpofit/atm/base.py:395-402`. -/
def atmInstance (o : Ops (ι → ℝ) Im Fr) (a : Atm ι Im) (w : Option (List ℝ)) (scale : Int) :
    Except PyErr (Rendered (ι → ℝ) Im) := do
  let sm ← Result.pyGet a.shape scale
  let template ← Result.pyGet a.templates scale
  let s ← sm.instance (w.getD [0])
  atmRender o a.kind a.patchShape s template

/-- `ATM.random_instance`, `/repo/menpofit/atm/base.py:418-425`; `draw n` is `np.random.randn(n)`. -/
def atmRandom (o : Ops (ι → ℝ) Im Fr) (a : Atm ι Im) (draw : Nat → List ℝ) (scale : Int) :
    Except PyErr (Rendered (ι → ℝ) Im) := do
  let sm ← Result.pyGet a.shape scale
  let template ← Result.pyGet a.templates scale
  let s ← sm.instance (draw sm.nActive)
  atmRender o a.kind a.patchShape s template

/-- `CLM.shape_instance`, `/repo/menpofit/clm/base.py:384-387`, and
`UnifiedAAMCLM.shape_instance`, `/repo/menpofit/unified_aam_clm/base.py:347-350`. -/
def shapeInstance (shape : List (EigModel ι)) (w : Option (List ℝ)) (scale : Int) :
    Except PyErr (ι → ℝ) := do
  let sm ← Result.pyGet shape scale
  sm.instance (w.getD [0])

/-- A deformation graph of an APS: adjacency, and the root if it is a `Tree`.
See `/repo/menpofit/aps/base.py:506-522` -/
structure Graph where
  adjacency : List (Nat × Nat)
  root : Option Nat

/-- What `APS.instance` returns: points, with the edges and the root of the graph if asked for.
See `/repo/menpofit/aps/base.py:506-522` -/
inductive ApsShape (ι : Type) where
  | cloud (points : ι → ℝ)
  | directed (points : ι → ℝ) (edges : List (Nat × Nat))
  | tree (points : ι → ℝ) (edges : List (Nat × Nat)) (root : Nat)

/-- `GenerativeAPS.instance`, `/repo/menpofit/aps/base.py:506-522`. -/
def apsInstance (shape : List (EigModel ι)) (graphs : List Graph) (w : Option (List ℝ)) (scale : Int)
    (asGraph : Bool) : Except PyErr (ApsShape ι) := do
  let sm ← Result.pyGet shape scale
  let s ← sm.instance (w.getD [0])
  if asGraph then
    let g ← Result.pyGet graphs scale
    match g.root with
    | some r => return .tree s g.adjacency r
    | none => return .directed s g.adjacency
  else return .cloud s

/-- `GenerativeAPS.random_instance`, `/repo/menpofit/aps/base.py:537-540` (the number of active
components of the shape model is that of its PCA, `/repo/menpofit/modelinstance.py:311-318`). -/
def apsRandom (shape : List (EigModel ι)) (graphs : List Graph) (draw : Nat → List ℝ) (scale : Int)
    (asGraph : Bool) : Except PyErr (ApsShape ι) := do
  let sm ← Result.pyGet shape scale
  apsInstance shape graphs (some (draw sm.nActive)) scale asGraph

end
end Inst
end Menpofit
