import Verif.Model.LinearTraining
import Verif.Spec.Training
/-!
# Specification of the training of linear models
-/

namespace Menpofit
namespace Spec
open Training LinTrain

variable {Im Sh D Fr W SM AM F : Type}

/-- `f` is the reference frame of scale `j` for these shapes: the frame of their mean after
alignment. -/
def FrameOfScale (L : LinOps Im Sh D Fr W SM AM) (j : Nat) (shapes : List Sh) (f : Fr) : Prop :=
  ∃ m, L.mean (L.align shapes) = .ok m ∧ f = L.frame j m

/-- One training image at one scale, warped into the frame `f`. -/
def warpedInto (o : ImageOps Im Sh F) (L : LinOps Im Sh D Fr W SM AM) (f : Fr) (ref : Sh)
    (l : Level F) (i : Im) : Except PyErr W := do
  let x ← imageAt o ref l i
  let s ← o.shapeOf x
  L.warp f x s

/-- The dense shapes of a batch of new images in the frame `f`. -/
def denseIn (o : ImageOps Im Sh F) (L : LinOps Im Sh D Fr W SM AM) (f : Fr) (ref : Sh)
    (l : Level F) (b : List Im) : Except PyErr (List D) := do
  let shapes ← b.mapM (shapeAt o ref l)
  (L.align shapes).mapM (L.densify f)

/-- Dense shapes and shape models have a number of points: that of a dense shape depends on its
frame only, a model is built from shapes with its number of points, and refuses shapes with any
other. -/
structure Sized (L : LinOps Im Sh D Fr W SM AM) (frameSize : Fr → Nat) (size : D → Nat)
    (modelSize : SM → Nat) : Prop where
  densify : ∀ {f s d}, L.densify f s = .ok d → size d = frameSize f
  build : ∀ {ds m}, L.shape.build ds = .ok m → ∀ d ∈ ds, size d = modelSize m
  trim : ∀ k m, modelSize (L.shape.trim k m) = modelSize m
  increment : ∀ {m ds d}, d ∈ ds → size d ≠ modelSize m → L.shape.increment m ds = .error .valueError
  align : ∀ ss, (L.align ss).length = ss.length

end Spec
end Menpofit
