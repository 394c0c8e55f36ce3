import Verif.Model.Py
import Verif.Spec.AamSolvers
import Mathlib.Analysis.Calculus.FDeriv.Basic
import Mathlib.Analysis.Calculus.FDeriv.Add
import Mathlib.Analysis.Calculus.FDeriv.Pow
import Mathlib.Topology.Algebra.Module.FiniteDimension
import Mathlib.Analysis.Normed.Module.FiniteDimension
/-!
# Specification: fitting goes downhill (C132)

Independent of the optimisers: what it means that a step starts downhill, and that the
steepest descent images are the derivative of what the model sees of the image.
-/

namespace Menpofit
namespace Spec

open Matrix

/-- Moving from `p` in the direction `d`, the value of `F` falls at first. -/
def FallsAlong {V : Type} [AddCommGroup V] [Module ℝ V] (F : V → ℝ) (p d : V) : Prop :=
  ∃ δ : ℝ, 0 < δ ∧ ∀ t : ℝ, 0 < t → t < δ → F (p + t • d) < F p

/-- The step from `p` to `p'` starts downhill; nothing moves only where `F` is stationary. -/
def StartsDownhill {V : Type} [NormedAddCommGroup V] [NormedSpace ℝ V] (F : V → ℝ) (p p' : V) : Prop :=
  (p' = p ∧ HasFDerivAt F (0 : V →L[ℝ] ℝ) p) ∨ (p' ≠ p ∧ FallsAlong F p (p' - p))

/-- `x` and `y` are neighbours in the list. -/
def Consecutive {α : Type} (l : List α) (x y : α) : Prop :=
  ∃ k : Nat, l[k]? = some x ∧ l[k + 1]? = some y

/-- `I q` is what the model sees of the image at the parameters `q`, a differentiable function
whose derivative is given by the steepest descent images. -/
structure SeesSmoothly {n m : Nat} {Im W : Type} (warp : Im → (Fin n → ℝ) → Except PyErr W)
    (mask : W → Fin m → ℝ) (jac : W → Matrix (Fin m) (Fin n) ℝ) (im : Im)
    (I : (Fin n → ℝ) → Fin m → ℝ) : Prop where
  sees : ∀ q i, warp im q = .ok i → mask i = I q
  derivative : ∀ q i, warp im q = .ok i →
    HasFDerivAt I (LinearMap.toContinuousLinearMap (toLin' (jac i))) q

/-- What the model sees depends linearly on the parameters. -/
structure SeesLinearly {n m : Nat} {Im W : Type} (warp : Im → (Fin n → ℝ) → Except PyErr W)
    (mask : W → Fin m → ℝ) (jac : W → Matrix (Fin m) (Fin n) ℝ) (im : Im)
    (b : Fin m → ℝ) (L : Matrix (Fin m) (Fin n) ℝ) : Prop where
  sees : ∀ q i, warp im q = .ok i → mask i = b + L *ᵥ q
  derivative : ∀ q i, warp im q = .ok i → jac i = L

end Spec
end Menpofit
