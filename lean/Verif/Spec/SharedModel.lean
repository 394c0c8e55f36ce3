import Verif.Model.SharedModel
/-!
# Specifications for fitters that share a trained model, and for active pictorial structures
-/

namespace Menpofit
namespace Spec
open MI Shared Matrix

/-- What users do with a trained CLM or APS (at one scale): make a fitter of any class, with or
without a number of active shape components, or fit with any fitter. -/
inductive Use (n : Nat) : Type 1 where
  | newFitter {Im C : Type} (K : Kind n Im C) (nShape : Option Int)
  | fit {Im C : Type} (K : Kind n Im C) (a : Alg K) (eps : ℝ) (r : Request Im)

/-- The shape model of the trained model afterwards. -/
noncomputable def afterUse {n : Nat} (p : OPdm n) : Use n → OPdm n
  | .newFitter K nShape => (build K nShape p).1
  | .fit K a eps r => (run K a eps r p).1

/-- The use does not ask for a number of shape components. -/
def KeepsComponents {n : Nat} : Use n → Prop
  | .newFitter _ nShape => nShape = none
  | .fit .. => True

/-- The function minimised by one Gauss-Newton step of an APS for an increment `δ` of the parameters
`p`: the Mahalanobis norm of the error after the linearised change of appearance (pixel `q` changes by
its gradient times the movement of its part), plus the weighted Mahalanobis norm of the displacement
of the shape with parameters `p + δ`. -/
noncomputable def apsEnergy {n m M k : Nat} (a : Aps n m M) (nabla : Fin 2 → Fin m → ℝ)
    (move : Fin n → Fin 2 → Fin k → ℝ) (e : Fin m → ℝ) (p δ : Fin k → ℝ) : ℝ :=
  let r : Fin m → ℝ := fun q => e q + ∑ c, (∑ d, nabla d q * move (a.part q) d c) * δ c
  let y : Fin (n * 2) → ℝ := fun u =>
    ∑ c, move (finProdFinEquiv.symm u).1 (finProdFinEquiv.symm u).2 c * (p c + δ c)
  (∑ q, ∑ q', r q * a.Qa q q' * r q') + a.weight * ∑ u, ∑ v, y u * a.Qd u v * y v

/-- A symmetric matrix with non-negative quadratic form. -/
def SymmPsd {k : Nat} (Q : Matrix (Fin k) (Fin k) ℝ) : Prop :=
  (∀ i j, Q i j = Q j i) ∧ ∀ x : Fin k → ℝ, 0 ≤ ∑ i, ∑ j, x i * Q i j * x j

/-- How points move with the parameters: entries of a Jacobian whose rows are the coordinates. -/
def moves {n k : Nat} (J : Matrix (Fin (n * 2)) (Fin k) ℝ) : Fin n → Fin 2 → Fin k → ℝ := fun i d c =>
  J (finProdFinEquiv (i, d)) c

end Spec
end Menpofit
