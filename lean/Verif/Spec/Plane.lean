import Verif.Model.Result
import Verif.Model.Fitter
import Verif.Spec.Placement
/-!
# Specification: the same face elsewhere in a picture and in another size (C128)
-/

namespace Menpofit
namespace Spec
open MI Fitter

variable {N : Nat} {C V K : Type}

/-- Every point of the shape, `k` times as far from the origin and then moved by `t`. -/
def zoomedShape (k : ℝ) (t : Fin 2 → ℝ) (s : Pts N 2) : Pts N 2 := fun ij => k * s ij + t ij.2

/-- `im'` shows at every zoomed and moved point what `im` shows at the point, and all its landmarks are
zoomed and moved. -/
structure ZoomedImage (k : ℝ) (t : Fin 2 → ℝ) (im im' : Img (Pts N 2) (EuclideanSpace ℝ (Fin 2) → C)) :
    Prop where
  pixels : ∀ x, im'.px (k • x + WithLp.toLp 2 t) = im.px x
  landmarks : ∀ g, im'.lm g = (im.lm g).map (zoomedShape k t)

/-- The result `r'` is the result `r` with every shape replaced by its image under `T`; costs, numbers
of iterations and the number of parameter vectors are the same. -/
structure SameFitUnder {S : Type} (T : S → S) (r r' : Result.Res S V K) : Prop where
  final : r'.final = T r.final
  initial : r'.initial = r.initial.map T
  gt : r'.gt = r.gt.map T
  shapes : r'.shapes = r.shapes.map T
  nIters : r'.nIters = r.nIters
  costs : r'.costs = r.costs
  perScale : r'.perScale = r.perScale
  nScales : r'.nScales = r.nScales
  params : r'.params.map List.length = r.params.map List.length

/-- Both calls return, with related values, or both raise the same exception. -/
def BothReturn {α β : Type} (R : α → β → Prop) : Except PyErr α → Except PyErr β → Prop
  | .ok a, .ok b => R a b
  | .error e, .error e' => e = e'
  | _, _ => False

/-- Features follow the picture: computed from a moved picture they are the features of the picture, moved
accordingly (`step f` times as far). -/
def FeaturesFollow {F : Type}
    (op : F → (EuclideanSpace ℝ (Fin 2) → C) → Except PyErr (EuclideanSpace ℝ (Fin 2) → C)) (step : F → ℝ) :
    Prop :=
  ∀ f u px px', (∀ x, px' (x + u) = px x) →
    BothReturn (fun q q' => ∀ x, q' (x + step f • u) = q x) (op f px) (op f px')

/-- An algorithm follows the face: in the picture moved by any vector, started from the moved shape, it
does the same. -/
def FollowsFace (alg : Algorithm (Pts N 2) (EuclideanSpace ℝ (Fin 2) → C) (Result.Res (Pts N 2) V K)) :
    Prop :=
  ∀ u im im', ZoomedImage 1 u im im' → ∀ s gt n,
    BothReturn (SameFitUnder (movedShape u)) (alg im s gt n)
      (alg im' (movedShape u s) (gt.map (movedShape u)) n)

end Spec
end Menpofit
