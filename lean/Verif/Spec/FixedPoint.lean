import Verif.Model.Optim
import Mathlib.Data.Matrix.Mul
/-!
# Specification: fits that stay where they start (C123)

JointlyIndependent of the optimisers: what the lists of a fit look like that never left its
initial state.
-/

namespace Menpofit
namespace Spec

variable {S V C : Type}

/-- The number of recorded states of a fit that stops as soon as nothing moves: the
initial state and, if an iteration is allowed, the state after it. -/
def restLength (maxIters : Int) : Nat := if 0 < maxIters then 2 else 1

/-- All recorded shapes are `shape`, all recorded parameters are `params`, and all recorded
costs are zero. -/
def StaysAt [Zero C] (maxIters : Int) (costs : Bool) (shape : S) (params : V)
    (r : Optim.Trace S V C) : Prop :=
  r.shapes = List.replicate (restLength maxIters) shape ∧
  r.params = List.replicate (restLength maxIters) params ∧
  r.costs = if costs then some (List.replicate (restLength maxIters) 0) else none

/-- Every combination of steepest descent images that looks like a combination of appearance
components is the trivial one. -/
def JointlyIndependent {n a m : Nat} {K : Type} [NonUnitalNonAssocSemiring K] (A : Matrix (Fin m) (Fin a) K)
    (J : Matrix (Fin m) (Fin n) K) : Prop :=
  ∀ (c : Fin a → K) (d : Fin n → K), J.mulVec d = A.mulVec c → c = 0 ∧ d = 0

end Spec
end Menpofit
