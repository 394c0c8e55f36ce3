import Verif.Model.ModelDriven
/-!
# Specifications for model-driven transforms
-/

namespace Menpofit
namespace Spec
open MI Homog MDT

variable {Q A : Type} {n d : Nat}

/-- What a user does with a model-driven transform and the arrays of points they own: write new
content into an array, ask for the Jacobian at the points in an array, set a target, set
the parameters in place. -/
inductive MdOp (A : Type) where
  | write (addr : Nat) (content : A)
  | jac (addr : Nat)
  | target (c : Cloud)
  | vector (v : List ℝ)

/-- Arrays and transform after the operation (also when it raises). -/
noncomputable def mdStep [DecidableEq A] (o : Ops Q n d) (ddl : A → DW n d) (x : (Nat → A) × Md Q n d) :
    MdOp A → (Nat → A) × Md Q n d
  | .write a v => (Function.update x.1 a v, x.2)
  | .jac a => (x.1, (dDp o ddl x.1 x.2 a).1)
  | .target c => (x.1, (MDT.setTarget o x.2 c).1)
  | .vector v => (x.1, (MDT.fromVectorInplace o x.2 v).1)

/-- No array is written to after it was passed to the Jacobian. -/
def NoOverwrite (ops : List (MdOp A)) : Prop :=
  ∀ pre post a v, ops = pre ++ .write a v :: post → MdOp.jac a ∉ pre

/-- First-order mismatch of composing with the increment `delta`: `dW/dx · dW/dp|₀ · delta` against
`dW/dp · inc`, summed over points and coordinates. -/
noncomputable def mismatch {k : Nat} (dWdp dWdp0 : Jac n d) (dWdx : Fin n → Fin d → Fin d → ℝ)
    (delta inc : Fin k → ℝ) : ℝ :=
  ∑ i, ∑ r, ((∑ c, dWdx i r c * ∑ l : Fin k, dWdp0 i l c * delta l) - ∑ j : Fin k, dWdp i j r * inc j) ^ 2

/-- The identity matrix at every point: what piecewise affine warps report. -/
def identityDx (n d : Nat) : Fin n → Fin d → Fin d → ℝ := fun _ r c => if r = c then 1 else 0

/-- The columns of the Jacobian are linearly independent. -/
def Independent (k : Nat) (jac : Jac n d) : Prop :=
  ∀ v : Fin k → ℝ, (∀ i r, ∑ j : Fin k, jac i j r * v j = 0) → v = 0

end Spec
end Menpofit
