import Verif.Spec.Plane
/-!
# Specification: what asking for errors and costs may change (C145)
-/

namespace Menpofit
namespace Spec
open Fitter

variable {S P V K : Type}

/-- The images have the same pixels and the same landmarks, up to the group `__gt_shape`. -/
structure SameUpToTruth (im im' : Img S P) : Prop where
  pixels : im'.px = im.px
  landmarks : ∀ g, g ≠ "__gt_shape" → im'.lm g = im.lm g

/-- The results tell the same about the fit: all shapes, parameters and numbers of iterations are the
same.  Nothing is said about the ground truth and the costs, which one result may have and the other
not. -/
structure SameJourney (r r' : Result.Res S V K) : Prop where
  final : r'.final = r.final
  initial : r'.initial = r.initial
  shapes : r'.shapes = r.shapes
  nIters : r'.nIters = r.nIters
  params : r'.params = r.params
  perScale : r'.perScale = r.perScale
  nScales : r'.nScales = r.nScales

/-- Two algorithms do the same, whatever ground truths they are given, but the first reports costs if
and only if `costs`, the second if and only if `costs'`. -/
def SameAlgorithm (costs costs' : Bool) (alg alg' : Algorithm S P (Result.Res S V K)) : Prop :=
  ∀ im im' : Img S P, SameUpToTruth im im' → ∀ s gt gt' n,
    BothReturn (fun r r' => SameJourney r r' ∧ r.costs.isSome = costs ∧ r'.costs.isSome = costs')
      (alg im s gt n) (alg' im' s gt' n)

/-- The same traces up to costs. -/
structure SameTrace {C : Type} (tr tr' : Optim.Trace S V C) : Prop where
  shapes : tr'.shapes = tr.shapes
  params : tr'.params = tr.params

end Spec
end Menpofit
