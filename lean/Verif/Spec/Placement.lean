import Verif.Model.Optim
import Verif.Spec.ModelInstance
import Mathlib.Analysis.InnerProductSpace.PiL2
/-!
# Specification: moving the picture and the initial shape together (C124)

Independent of the algorithms: what it means that a shape, a picture and the outcome of a fit are
moved by a vector of the plane.
-/

namespace Menpofit
namespace Spec
open MI

/-- Every point of the shape is moved by `t`. -/
def movedShape {N : Nat} (t : Fin 2 → ℝ) (s : Pts N 2) : Pts N 2 := fun ij => s ij + t ij.2

/-- `im'` shows at every point moved by `t` what `im` shows at the point. -/
def MovedPicture {Pic C : Type} (sample : Pic → EuclideanSpace ℝ (Fin 2) → C) (t : Fin 2 → ℝ)
    (im im' : Pic) : Prop :=
  ∀ x, sample im' (x + WithLp.toLp 2 t) = sample im x

/-- What is seen through `look` does not change when picture and shape are moved together. -/
def FollowsPicture {N : Nat} {Pic C R : Type} (sample : Pic → EuclideanSpace ℝ (Fin 2) → C)
    (look : Pic → Pts N 2 → R) : Prop :=
  ∀ t im im', MovedPicture sample t im im' → ∀ s, look im' (movedShape t s) = look im s

/-- What a fit returned, moved by `t`: every shape is moved, `τ` is added to the shape parameters,
the costs are the same. -/
def movedTrace {N : Nat} {V C : Type} (t : Fin 2 → ℝ) (shift : V → V)
    (r : Optim.Trace (Pts N 2) V C) : Optim.Trace (Pts N 2) V C :=
  ⟨r.shapes.map (movedShape t), r.params.map shift, r.costs⟩

/-- A change of shape parameters that only concerns the four parameters of the similarity. -/
def OnlySimilarity {k : Nat} (τ : Fin (4 + k) → ℝ) : Prop := ∀ i : Fin (4 + k), 4 ≤ i.val → τ i = 0

end Spec
end Menpofit
