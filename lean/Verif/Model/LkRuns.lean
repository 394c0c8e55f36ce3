import Verif.Model.LkResidual
/-!
# Forward additive and inverse compositional Lucas-Kanade fits

Models `ForwardAdditive.run` and `InverseCompositional.run` of `/repo/menpofit/lk/algorithm.py` as optimisers;
`ForwardCompositional.run` is `Lk.fcRun`.  Costs are not modelled here (see `Lk.costRun`).
-/

namespace Menpofit
namespace Lk
open Matrix

noncomputable section

variable {c h w n : Nat} {Im T ρ A H B S V : Type}

/-- The loop body of `ForwardAdditive.run`, `/repo/menpofit/lk/algorithm.py:118-152`.  `dW t` is the Jacobian of the
warp, which is computed anew in every iteration; `add t dp` is
`transform.from_vector_inplace(transform.as_vector() + dp)`. -/
def faMachine (r : Residual c h w n Im T ρ A H B) (env : Env c h w Im T) (tr : Transform n T S V)
    (add : T → (Fin n → ℝ) → T) (dW : T → Jac h w n) (template : Planes c h w) (im : Im) :
    Optim.Machine (ρ × T) S V Unit ℝ where
  step st := match faIncrement r env (dW st.2) template st.1 im st.2 with
    | .error e => (st, .error e)
    | .ok (s, dp) => ((s, add st.2 dp), .ok (Real.sqrt (dp ⬝ᵥ dp)))
  shape st := tr.target st.2
  params st := tr.vector st.2
  cost _ := ()

/-- `ForwardAdditive.run`, `/repo/menpofit/lk/algorithm.py:103-161`, without costs. -/
def faRun (r : Residual c h w n Im T ρ A H B) (env : Env c h w Im T) (tr : Transform n T S V)
    (add : T → (Fin n → ℝ) → T) (dW : T → Jac h w n) (template : Planes c h w) (eps : ℝ) (s : ρ) (t : T) (im : Im)
    (initial : S) (maxIters : Int) : Except PyErr (Optim.Trace S V Unit) :=
  (Optim.run (faMachine r env tr add dW template im) true maxIters eps false (s, tr.setTarget t initial)).2

/-- The loop body of `InverseCompositional.run`, `/repo/menpofit/lk/algorithm.py:382-404`; `J` and `hess` are
`self.filtered_J` and `self.H`, `pinv t dp` is `transform.pseudoinverse_vector(dp)`; the norm is that of the
increment, not of its inverse. -/
def icMachine (r : Residual c h w n Im T ρ A H B) (env : Env c h w Im T) (tr : Transform n T S V)
    (pinv : T → (Fin n → ℝ) → (Fin n → ℝ)) (template : Planes c h w) (J : A) (hess : H) (im : Im) :
    Optim.Machine (ρ × T) S V Unit ℝ where
  step st := match icIncrement r (st.1, J, hess) template (env.warp im st.2) with
    | .error e => (st, .error e)
    | .ok (s, dp) => ((s, tr.compose st.2 (pinv st.2 dp)), .ok (Real.sqrt (dp ⬝ᵥ dp)))
  shape st := tr.target st.2
  params st := tr.vector st.2
  cost _ := ()

/-- `InverseCompositional.run`, `/repo/menpofit/lk/algorithm.py:367-413`, without costs. -/
def icRun (r : Residual c h w n Im T ρ A H B) (env : Env c h w Im T) (tr : Transform n T S V)
    (pinv : T → (Fin n → ℝ) → (Fin n → ℝ)) (template : Planes c h w) (eps : ℝ) (pre : ρ × A × H) (t : T) (im : Im)
    (initial : S) (maxIters : Int) : Except PyErr (Optim.Trace S V Unit) :=
  (Optim.run (icMachine r env tr pinv template pre.2.1 pre.2.2 im) true maxIters eps false
    (pre.1, tr.setTarget t initial)).2

/-- `InverseCompositional(template, transform, residual).run(...)`: the constructor computes the steepest descent
images and the Hessian of the template, `/repo/menpofit/lk/algorithm.py:320-334`. -/
def icFit (r : Residual c h w n Im T ρ A H B) (env : Env c h w Im T) (tr : Transform n T S V)
    (pinv : T → (Fin n → ℝ) → (Fin n → ℝ)) (dW : Jac h w n) (template : Planes c h w) (eps : ℝ) (s : ρ) (t : T)
    (im : Im) (initial : S) (maxIters : Int) : Except PyErr (Optim.Trace S V Unit) := do
  let pre ← icPrecompute r dW template s
  icRun r env tr pinv template eps pre t im initial maxIters

end
end Lk
end Menpofit
