import Verif.Model.Perturb
/-!
# Specification of the generated bounding boxes
-/

namespace Menpofit
namespace Spec
open Perturb

/-- The boxes generated for one provided box: the bounding boxes of `nPert` perturbations of the
ground truth box towards it, then the provided box itself if asked for, all constrained to
the image. -/
def BlockOf {S P : Type} (g : Geom S P) (perturb : Nat → S → S → Except PyErr S) (nPert : Nat)
    (addBox : Bool) (px : P) (gt bb : S) (block : List S) : Prop :=
  ∃ ps : List S, ps.length = nPert ∧
    (∀ p ∈ ps, ∃ c q b, perturb c gt bb = .ok q ∧ g.bb q = .ok b ∧ p = g.clamp px b) ∧
    block = if addBox then ps ++ [g.clamp px bb] else ps

/-- All points of the shape are inside the image. -/
def InsideImage (px : Nat × Nat) (s : List (ℝ × ℝ)) : Prop :=
  ∀ p ∈ s, 0 ≤ p.1 ∧ p.1 ≤ (px.1 : ℝ) - 1 ∧ 0 ≤ p.2 ∧ p.2 ≤ (px.2 : ℝ) - 1

end Spec
end Menpofit
