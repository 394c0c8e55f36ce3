import Verif.Model.Sdm
import Verif.Model.Noise
/-!
# Training supervised descent from ground truths

Puts the perturbations of the ground truth (`Verif.Model.Noise`), the shapes training starts from and
the training of one scale (`Verif.Model.Sdm`) together.  Simplifications: the images have no
borders, so boxes are not moved inside them (`constrain_to_bounds`,
`/repo/menpofit/fitter.py:780`); boxes are not looked up by their group; the images have been rescaled
already, and there is one scale.
-/

namespace Menpofit
namespace Sdm
open MI

noncomputable section

variable {N : Nat} {W Row Reg I : Type} [AddCommGroup W]

/-- A shape training starts from: a perturbation of the bounding box of the ground truth
(`/repo/menpofit/fitter.py:746` and `:772-780`, with the default `noisy_shape_from_bounding_box`), and the
reference shape aligned with it (`/repo/menpofit/sdm/fitter.py:307-313`). -/
def startShape (reference gt : Pts N 2) (kind : String) (percentage : Noise.Percentage) (rotation : Bool)
    (d : Noise.Draws) : Except PyErr (Pts N 2) := do
  let g ← Noise.boundingBox gt
  let bb ← Noise.boundingBox gt
  let p ← Noise.noisyShapeFromBoundingBox g bb kind percentage rotation d
  let b ← Noise.boundingBox p
  Noise.alignShapeWithBoundingBox reference b

/-- A training picture with its ground truth and the random draws of its perturbations.
See `/repo/menpofit/sdm/fitter.py:251-254` -/
structure TrainImage (I : Type) (N : Nat) where
  picture : I
  gt : Pts N 2
  draws : List Noise.Draws

/-- Training (or incrementing) one scale, `/repo/menpofit/sdm/fitter.py:251-254`, `:298-313` and
`:330-337`. -/
def trainFromGt (reference : Pts N 2) (kind : String) (percentage : Noise.Percentage) (rotation : Bool)
    (ops : RegOps Row W Reg) (co : Coord (Pts N 2) W) (feat : I → Pts N 2 → Row) (junk : Nat → W)
    (nIterations : Nat) (increment : Bool) (regs : List Reg) (images : List (TrainImage I N)) :
    Except PyErr (List Reg × List (List (Pts N 2)) × List (Stage (Pts N 2) W Row)) := do
  let cur ← images.mapM fun x => x.draws.mapM (startShape reference x.gt kind percentage rotation)
  train ops co feat junk nIterations increment regs (images.map (·.picture)) (images.map (·.gt)) cur

end
end Sdm
end Menpofit
