import Verif.Model.AamSolvers
import Verif.Model.ClmRuns
import Verif.Model.LkRuns
/-!
# Specification: the same shapes described by other parameters (C151)
-/

namespace Menpofit.Spec
open Matrix

variable {K : Type} [Field K] {n a m : Nat} {S Im W E : Type}

/-- The parameters `p` of the second model describe what `R p` describes in the first: the same targets, warps and
distances; steepest descent images follow the chain rule. -/
structure Reparametrised (R : Matrix (Fin n) (Fin n) K) (env env' : GN.Env n m K S Im W E) : Prop where
  invertible : R.det ≠ 0
  setTarget : ∀ s, R *ᵥ env'.setTarget s = env.setTarget s
  target : ∀ p, env'.target p = env.target (R *ᵥ p)
  warp : ∀ im p, env'.warp im p = env.warp im (R *ᵥ p)
  jac : ∀ i, env'.jac i = env.jac i * R
  mask : env'.mask = env.mask
  aBar : env'.aBar = env.aBar
  Q : env'.Q = env.Q
  dist : env'.dist = env.dist

/-- The same for the algorithms with an explicit appearance. -/
structure ReparametrisedAam (R : Matrix (Fin n) (Fin n) K) (z z' : Aam.Setup n a m K S Im W E) : Prop where
  invertible : R.det ≠ 0
  setTarget : ∀ s, R *ᵥ z'.setTarget s = z.setTarget s
  target : ∀ p, z'.target p = z.target (R *ᵥ p)
  warp : ∀ im p, z'.warp im p = z.warp im (R *ᵥ p)
  jacI : ∀ i, z'.jacI i = z.jacI i * R
  jacA : ∀ c, z'.jacA c = z.jacA c * R
  mask : z'.mask = z.mask
  aBar : z'.aBar = z.aBar
  A : z'.A = z.A
  pinvA : z'.pinvA = z.pinvA
  dist : z'.dist = z.dist

/-- The same for constrained local models. -/
structure ReparametrisedClm {N k : Nat} (R : Matrix (Fin k) (Fin k) ℝ) (env env' : ClmRun.Env N k Im) : Prop where
  invertible : R.det ≠ 0
  setTarget : ∀ s, R *ᵥ env'.setTarget s = env.setTarget s
  shape : ∀ p, env'.shape p = env.shape (R *ᵥ p)
  J : env'.J = env.J * R
  respond : env'.respond = env.respond
  h : env'.h = env.h
  w : env'.w = env.w
  c : env'.c = env.c

/-- The same for unified models; `_precompute` of both finds the regularised Hessian invertible. -/
structure ReparametrisedUnified {N k a m : Nat} (R : Matrix (Fin k) (Fin k) ℝ) (env env' : ClmRun.UEnv N k a m Im W) :
    Prop extends ReparametrisedClm R env.toEnv env'.toEnv where
  jPo : env'.jPo = env.jPo * R
  jac : ∀ c, env'.jac c = env.jac c * R
  warp : env'.warp = env.warp
  mask : env'.mask = env.mask
  aBar : env'.aBar = env.aBar
  U : env'.U = env.U
  pinvU : env'.pinvU = env.pinvU
  invSigma2 : env'.invSigma2 = env.invSigma2
  invRho2 : env'.invRho2 = env.invRho2
  regular : ((env.invSigma2 • env.jPo)ᵀ * env.jPo + (env.invRho2 • env.J)ᵀ * env.J + diagonal env.prior).det ≠ 0
  regular' : ((env'.invSigma2 • env'.jPo)ᵀ * env'.jPo + (env'.invRho2 • env'.J)ᵀ * env'.J +
    diagonal env'.prior).det ≠ 0

/-- The same for the transforms of Lucas-Kanade fits: increments `d` of the second act as `R d` do on the first, its
warp Jacobian follows the chain rule, and what it reports as its parameters translates. -/
structure ReparametrisedLk {h w n : Nat} {T S V V' : Type} (R : Matrix (Fin n) (Fin n) ℝ) (f : V' → V)
    (tr : Lk.Transform n T S V) (tr' : Lk.Transform n T S V') (dW dW' : Lk.Jac h w n) : Prop where
  chain : ∀ d x k, dW' d x k = ∑ j, dW d x j * R j k
  compose : ∀ t d, tr'.compose t d = tr.compose t (R *ᵥ d)
  target : tr'.target = tr.target
  setTarget : tr'.setTarget = tr.setTarget
  vector : ∀ t, f (tr'.vector t) = tr.vector t

/-- A trace with its parameters translated. -/
def TranslatedParams {V U C : Type} (f : V → U) (r : Optim.Trace S V C) : Optim.Trace S U C :=
  ⟨r.shapes, r.params.map f, r.costs⟩

end Menpofit.Spec
