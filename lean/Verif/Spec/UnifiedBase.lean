import Verif.Model.UnifiedBase
/-!
# Specification of the training of a unified AAM-CLM, one image and one scale at a time
-/

namespace Menpofit
namespace Spec
open Training UniBase

variable {Im Sh Fr W SM AM E F : Type}

/-- One training image at one scale: brought to the size of the reference shape, smoothed if asked
for, features taken, scaled (a scale within NumPy's tolerance of 1 leaves the image alone). -/
def uniImageAt (o : ImageOps Im Sh F) (smooth : Im → Im) (ref : Sh) (l : UniLevel F) (i : Im) :
    Except PyErr Im := do
  let i ← o.rescale ref i
  let i ← o.feature l.feature (smooth i)
  if |l.scale - 1| ≤ 1 / 10 ^ 8 + 1 / 10 ^ 5 then .ok i else o.rescaleBy l.scale i

/-- The smoothing that `sigma` asks for; 0 and `None` mean none. -/
def smoothing (U : UniOps Im Sh Fr W SM AM E) (sigma : Option Rat) (i : Im) : Im :=
  match sigma with
  | none => i
  | some q => if q = 0 then i else U.smooth q i

/-- The models of scale `j` are the ones trained from the images of that scale: `frame` is the
frame the images are warped into, `cov` the covariance of the response of the experts. -/
def ScaleTrained (o : ImageOps Im Sh F) (U : UniOps Im Sh Fr W SM AM E) (smooth : Im → Im)
    (ref : Sh) (frame : Fr) (cov : Nat) (images : List Im) (j : Nat) (l : UniLevel F) (sm : SM)
    (am : AM) (e : E) : Prop :=
  ∃ xs shapes warped,
    images.mapM (uniImageAt o smooth ref l) = .ok xs ∧
    xs.mapM o.shapeOf = .ok shapes ∧
    (xs.zip shapes).mapM (fun x => U.warp frame x.1 x.2) = .ok warped ∧
    (U.shape j).new l.maxShape shapes = .ok sm ∧
    U.appearance.new l.maxSecond warped = .ok am ∧
    U.expert j l.patch l.context cov xs shapes = .ok e

end Spec
end Menpofit
