import Verif.Spec.GaussNewton
import Verif.Model.Optim
/-!
# Specification vocabulary for the Active Appearance Model optimisers
-/

namespace Menpofit.Spec
open Matrix

variable {K : Type} [Field K] {m a : Nat}

/-- `P` is the Moore-Penrose pseudoinverse of `A` (what `np.linalg.pinv` computes). -/
structure IsPinv (A : Matrix (Fin m) (Fin a) K) (P : Matrix (Fin a) (Fin m) K) : Prop where
  apa : A * P * A = A
  pap : P * A * P = P
  ap_symm : (A * P)ᵀ = A * P
  pa_symm : (P * A)ᵀ = P * A

/-- `v` is the least value of `f`, and it is attained. -/
def IsLeastValue {X : Type} [LE K] (f : X → K) (v : K) : Prop :=
  (∃ x, f x = v) ∧ ∀ x, v ≤ f x

/-- Residual energy between an image and the appearance with mean `aBar`, components `A`
and parameters `c`. -/
def residual (aBar : Fin m → K) (A : Matrix (Fin m) (Fin a) K) (image : Fin m → K)
    (c : Fin a → K) : K :=
  sqNorm (image - (aBar + A *ᵥ c))

/-- What a user sees of two runs is the same: both raise the same exception, or both
return the same shapes and the same shape parameters. -/
def SameFit {S V₁ V₂ V C : Type} (f₁ : V₁ → V) (f₂ : V₂ → V)
    (x : Except PyErr (Optim.Trace S V₁ C)) (y : Except PyErr (Optim.Trace S V₂ C)) : Prop :=
  (∃ e, x = .error e ∧ y = .error e) ∨
  (∃ r₁ r₂, x = .ok r₁ ∧ y = .ok r₂ ∧ r₁.shapes = r₂.shapes ∧
    r₁.params.map f₁ = r₂.params.map f₂)

end Menpofit.Spec
