import Verif.Model.Fitter
/-!
# Specification: the same picture seen through another coordinate system
-/

namespace Menpofit
namespace Spec
open Fitter

variable {S P F : Type}

/-- The image as the fitter sees it: its own landmarks, with the initial shape and the ground truth (if
given) attached. -/
def carrying (im : Img S P) (init : S) (gt : Option S) : Img S P where
  lm g :=
    if g = "__gt_shape" ∧ gt.isSome then gt
    else if g = "__initial_shape" then some init
    else im.lm g
  px := im.px

/-- The two images with their shapes are the same picture in coordinates that differ by `T`: brought to
the size of the reference shape they are the same image, and what aligns with the initial
shape of one aligns, followed by `T`, with that of the other. -/
structure SamePicture (ext : Ext S P F) (T : Equiv.Perm S) (im im' : Img S P) (init : S)
    (gt : Option S) : Prop where
  normalised : ext.rescaleToRef (carrying im' (T init) (gt.map T)) = ext.rescaleToRef (carrying im init gt)
  aligned : ∀ src a, ext.align src init = .ok a → ext.align src (T init) = .ok (T * a)

end Spec
end Menpofit
