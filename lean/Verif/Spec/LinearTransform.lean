import Verif.Model.LinearTransform
import Verif.Spec.ModelInstance
/-!
# Specifications for the transform of a linear AAM
-/

namespace Menpofit
namespace Spec
open Matrix MI

/-- The equations of Moore and Penrose, for matrices with any indices. -/
structure MoorePenrose {r c : Type} [Fintype r] [Fintype c] (V : Matrix r c ℝ) (P : Matrix c r ℝ) :
    Prop where
  left : V * P * V = V
  right : P * V * P = P
  symm_left : (V * P)ᵀ = V * P
  symm_right : (P * V)ᵀ = P * V

/-- The shapes a linear model describes: a similarity image of the mean plus a combination of the
active components. -/
def InFamily {n : Nat} (m : Pca n 2) (x : Pts n 2) : Prop :=
  ∃ (s : Sim) (u : Pts n 2) (w : List ℝ), Generates 0 m.active w u ∧ x = s.apply m.mean + u

/-- The landmarks (the first `l` points) of `x` are `t`. -/
def HasLandmarks {l m : Nat} (x : Pts (l + m) 2) (t : Pts l 2) : Prop :=
  ∀ (i : Fin l) (j : Fin 2), x (Fin.castAdd m i, j) = t (i, j)

/-- The dense points of `x` are `t`. -/
def HasDense {l m : Nat} (x : Pts (l + m) 2) (t : Pts m 2) : Prop :=
  ∀ (i : Fin m) (j : Fin 2), x (Fin.natAdd l i, j) = t (i, j)

/-- The landmarks determine the shape within the family. -/
def LandmarksDetermine {l m : Nat} (model : Pca (l + m) 2) : Prop :=
  ∀ x y t, InFamily model x → InFamily model y → HasLandmarks x t → HasLandmarks y t → x = y

/-- Squared distance of the landmarks of `x` from `t`. -/
noncomputable def landmarkError {l m : Nat} (x : Pts (l + m) 2) (t : Pts l 2) : ℝ :=
  ∑ i, ∑ j, (x (Fin.castAdd m i, j) - t (i, j)) ^ 2

/-- What a user does with the transform between two fits of the same fitter. -/
inductive LinOp where
  | target (c : Cloud)
  | vector (v : List ℝ)

/-- The transform after the operation (also when it raises). -/
noncomputable def linStep {l m : Nat} (s : Linear.Lin l m) : LinOp → Linear.Lin l m
  | .target c => (Linear.setTarget s c).1
  | .vector v => match Linear.fromVector s v with
    | .ok q => q
    | .error _ => s

end Spec
end Menpofit
