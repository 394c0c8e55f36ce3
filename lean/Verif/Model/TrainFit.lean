import Verif.Model.Fitter
import Verif.Model.Training
/-!
# Training and fitting over the same images

The operations of menpo that `menpofit/builder.py` (training) and `menpofit/fitter.py` (fitting)
apply to an image, split into their effect on the pixels and on the landmarks, so that both
pipelines can be run on the same image.
-/

namespace Menpofit
namespace TrainFit
open Fitter Training

/-- menpo: every operation that resizes an image moves all its landmark groups in the same way.
See `/repo/menpofit/builder.py:88-90` -/
structure Menpo (S P F : Type) where
  /-- `rescale_to_pointcloud(reference, group)` of an image whose group is the second shape -/
  toRef : S → S → P → Except PyErr (P × (S → S))
  /-- a holistic feature -/
  feature : F → P → Except PyErr (P × (S → S))
  /-- `rescale(scale)`; the permutation takes shapes of the new image back to the old one -/
  rescale : Rat → P → Except PyErr (P × Equiv.Perm S)
  align : S → S → Except PyErr (Equiv.Perm S)

variable {S P F : Type}

/-- The image with new pixels and all landmarks moved. See `/repo/menpofit/builder.py:88-90` -/
def moved (px : P) (t : S → S) (i : Img S P) : Img S P := ⟨fun g => (i.lm g).map t, px⟩

/-- `image.rescale_to_pointcloud(reference, group=group)`, as called at
`/repo/menpofit/builder.py:88-90` and `/repo/menpofit/fitter.py:344-345`. -/
def toReference (m : Menpo S P F) (ref : S) (group : String) (i : Img S P) :
    Except PyErr (Img S P) := do
  let s ← getLm i group
  let (px, t) ← m.toRef ref s i.px
  return moved px t i

/-- `features(image)`, as called at `/repo/menpofit/builder.py:164` and
`/repo/menpofit/fitter.py:363`. -/
def features (m : Menpo S P F) (f : F) (i : Img S P) : Except PyErr (Img S P) := do
  let (px, t) ← m.feature f i.px
  return moved px t i

/-- `image.rescale(scale, return_transform=True)`, as called at `/repo/menpofit/builder.py:204-209`
and `/repo/menpofit/fitter.py:382-383`. -/
def rescaled (m : Menpo S P F) (c : Rat) (i : Img S P) :
    Except PyErr (Img S P × Equiv.Perm S) := do
  let (px, t) ← m.rescale c i.px
  return (moved px (t⁻¹ : Equiv.Perm S) i, t)

/-- The operations of training (`Verif.Model.Training`): all on the landmark group given to the
constructor. See `/repo/menpofit/aam/base.py:186-224` -/
def trainOps [Inhabited F] (m : Menpo S P F) (reference : List S → Except PyErr S)
    (scaleShape : Rat → S → S) (group : String) : ImageOps (Img S P) S F where
  reference := reference
  rescale ref i := toReference m ref group i
  noOp := default
  feature f i := features m f i
  rescaleBy c i := do return (← rescaled m c i).1
  shapeOf i := getLm i group
  scaleShape := scaleShape

/-- The operations of fitting (`Verif.Model.Fitter`): all on the attached initial shape.
See `/repo/menpofit/fitter.py:344-388` -/
def fitOps (m : Menpo S P F) (ref : S) : Ext S P F where
  rescaleToRef i := toReference m ref "__initial_shape" i
  feature f i := features m f i
  align := m.align
  rescale i c := rescaled m c i

end TrainFit
end Menpofit
