import Verif.Model.ScaleTraining
/-!
# Specification of training over several scales
-/

namespace Menpofit
namespace Spec
open ScaleTrain Perturb

variable {S P T : Type}

/-- Features and rescaling act on the landmarks as in menpo: features keep them, and rescaling
transforms every landmark group by the inverse (`inv`) of the transform that is returned. -/
structure MovesLandmarks (ops : Ops S P T) (inv : T → S → S) : Prop where
  feature : ∀ j im, (ops.feature j im).lms = im.lms
  rescale : ∀ j im im' t, ops.rescale j im = .ok (im', t) →
    im'.lms = im.lms.map fun x => (x.1, inv t x.2)

/-- The algorithms return as many shapes for every image as they were given. -/
def KeepsCounts (ops : Ops S P T) : Prop :=
  ∀ j ims gts cur out, ops.algo j ims gts cur = .ok out →
    out.map List.length = cur.map List.length

/-- All shapes that come out of scale `a` go into scale `b`, in the same order and at the same
place in the image: they are taken to the original resolution by the transforms of `a` and from there
to the resolution of `b`. -/
def Carried (apply inv : T → S → S) (a b : Scale S P T) : Prop :=
  b.input = List.zipWith (fun t o => o.map (inv t)) b.transforms
    (List.zipWith (fun t o => o.map (apply t)) a.transforms a.output) ∧
  b.input.map List.length = a.output.map List.length

end Spec
end Menpofit
