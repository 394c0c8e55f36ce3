import Verif.Model.Homogeneous
import Mathlib.Analysis.Calculus.Deriv.Basic
/-!
# Specifications for Jacobians
-/

namespace Menpofit
namespace Spec

/-- `jac i k r` is the partial derivative, with respect to parameter `k`, of coordinate `r` of the
image of point `i`, at the parameters `p`. -/
def IsParamJacobian {np d : Nat} (f : (Nat → ℝ) → Fin np → Fin d → ℝ) (p : Nat → ℝ) (nParams : Nat)
    (jac : Fin np → Nat → Fin d → ℝ) : Prop :=
  ∀ i k r, k < nParams → HasDerivAt (fun t => f (Function.update p k t) i r) (jac i k r) (p k)

/-- `jac r c` is the partial derivative of coordinate `r` of the image of `x` with respect to
coordinate `c` of `x`. -/
def IsPointJacobian {d : Nat} (f : (Fin d → ℝ) → Fin d → ℝ) (x : Fin d → ℝ)
    (jac : Fin d → Fin d → ℝ) : Prop :=
  ∀ r c, HasDerivAt (fun t => f (Function.update x c t) r) (jac r c) (x c)

open MI Homog

/-- Number of parameters of a 2D shape model with `k` active components. -/
def nParams (k : Nat) : Nat := 4 + k

/-- The first `k` parameters as a vector. -/
def vectorOf (q : Nat → ℝ) (k : Nat) : List ℝ := (List.range k).map q

/-- A vector as parameters. -/
noncomputable def paramsOf (v : List ℝ) (k : Nat) : ℝ := v.getD k 0

/-- `f q` is the target of a `GlobalPDM` with similarity transform after `from_vector(q)`. -/
def GTargets {n : Nat} (p : GPdm (Pts n 2 × Sim) n 2) (f : (Nat → ℝ) → Fin n → Fin 2 → ℝ) : Prop :=
  ∀ q, ∃ p', gFromVector (alignmentSimilarity n) p (vectorOf q (nParams p.model.active.length)) =
    .ok p' ∧ ∀ i r, p'.target (i, r) = f q i r

/-- `f q` is the target of an `OrthoPDM` after `from_vector(q)`. -/
def OTargets {n : Nat} (p : OPdm n) (f : (Nat → ℝ) → Fin n → Fin 2 → ℝ) : Prop :=
  ∀ q, ∃ p', oFromVector p (vectorOf q (nParams p.model.active.length)) = .ok p' ∧
    ∀ i r, p'.target (i, r) = f q i r

end Spec
end Menpofit
