import Verif.Spec.AamSolvers
import Verif.Model.AamSolvers
import Verif.Model.ClmRuns
/-!
# Specification: appearance models with other components for the same space (C150)
-/

namespace Menpofit.Spec
open Matrix

variable {K : Type} [Field K] {n a a' m : Nat} {S Im W E : Type}

/-- Two set-ups that agree but for their appearance components, which span the same space (there may be more of
them in one than in the other); the images that can be rendered, hence their derivatives, are the same. -/
structure SameSpace (z : Aam.Setup n a m K S Im W E) (z' : Aam.Setup n a' m K S Im W E) : Prop where
  setTarget : z'.setTarget = z.setTarget
  target : z'.target = z.target
  warp : z'.warp = z.warp
  mask : z'.mask = z.mask
  jacI : z'.jacI = z.jacI
  aBar : z'.aBar = z.aBar
  priorS : z'.priorS = z.priorS
  dist : z'.dist = z.dist
  forth : ∃ R : Matrix (Fin a) (Fin a') K, z'.A = z.A * R
  back : ∃ R : Matrix (Fin a') (Fin a) K, z.A = z'.A * R
  jacA : ∀ c c', z'.A *ᵥ c' = z.A *ᵥ c → z'.jacA c' = z.jacA c

/-- What a fit reports, with the appearance as it looks in place of its parameters. -/
def Looks {C : Type} (z : Aam.Setup n a m K S Im W E) (r : Optim.Trace S ((Fin n → K) × (Fin a → K)) C) :
    Optim.Trace S ((Fin n → K) × (Fin m → K)) C :=
  ⟨r.shapes, r.params.map fun q => (q.1, z.A *ᵥ q.2), r.costs⟩

/-- The same for unified models: their local experts are the same. -/
structure SameSpaceUnified {N k : Nat} (env : ClmRun.UEnv N k a m Im W) (env' : ClmRun.UEnv N k a' m Im W) : Prop where
  clm : env'.toEnv = env.toEnv
  warp : env'.warp = env.warp
  mask : env'.mask = env.mask
  aBar : env'.aBar = env.aBar
  jPo : env'.jPo = env.jPo
  invSigma2 : env'.invSigma2 = env.invSigma2
  invRho2 : env'.invRho2 = env.invRho2
  forth : ∃ R : Matrix (Fin a) (Fin a') ℝ, env'.U = env.U * R
  back : ∃ R : Matrix (Fin a') (Fin a) ℝ, env.U = env'.U * R
  jac : ∀ c c', env'.U *ᵥ c' = env.U *ᵥ c → env'.jac c' = env.jac c

/-- What a unified fit reports, with the appearance as it looks in place of its parameters. -/
def LooksUnified {N k : Nat} {C : Type} (env : ClmRun.UEnv N k a m Im W)
    (r : Optim.Trace S ((Fin k → ℝ) × (Fin a → ℝ)) C) : Optim.Trace S ((Fin k → ℝ) × (Fin m → ℝ)) C :=
  ⟨r.shapes, r.params.map fun q => (q.1, env.U *ᵥ q.2), r.costs⟩

end Menpofit.Spec
