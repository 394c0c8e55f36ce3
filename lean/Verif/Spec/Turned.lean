import Verif.Model.AamSolvers
import Verif.Model.ClmRuns
/-!
# Specification: the same fitting problem in other coordinates of its parameters

The shape parameters of the second problem are those of the first multiplied by the orthogonal matrix `F`, the
appearance parameters those of the first multiplied by the orthogonal matrix `G`, and the shapes are those of the first
after `f`.  The picture may be another one.
-/

namespace Menpofit
namespace Spec
open Matrix MI

/-- Everything that refers to parameters is expressed in the other coordinates: parameters of a shape, shape of
parameters, one column per parameter in the Jacobians and in the appearance components, and the variances of the priors.
What is seen at corresponding parameters is the same. -/
structure TurnedAam {K S Im W E : Type} [Field K] {n a m : Nat} (f : S → S) (F : Matrix (Fin n) (Fin n) K)
    (G : Matrix (Fin a) (Fin a) K) (im im' : Im) (z z' : Aam.Setup n a m K S Im W E) : Prop where
  orthF : F * Fᵀ = 1
  orthG : G * Gᵀ = 1
  setTarget : ∀ s, z'.setTarget (f s) = F *ᵥ z.setTarget s
  target : ∀ p, z'.target (F *ᵥ p) = f (z.target p)
  warp : ∀ p, z'.warp im' (F *ᵥ p) = z.warp im p
  mask : z'.mask = z.mask
  jacI : ∀ w, z'.jacI w = z.jacI w * Fᵀ
  jacA : ∀ c, z'.jacA (G *ᵥ c) = z.jacA c * Fᵀ
  aBar : z'.aBar = z.aBar
  A : z'.A = z.A * Gᵀ
  pinvA : z'.pinvA = G * z.pinvA
  priorS : diagonal z'.priorS * F = F * diagonal z.priorS
  priorA : diagonal z'.priorA * G = G * diagonal z.priorA
  dist : ∀ s t, z'.dist (f s) (f t) = z.dist s t

/-- The same for the project-out algorithms and for active template models. -/
structure TurnedPo {K S Im W E : Type} [Field K] {n m : Nat} (f : S → S) (F : Matrix (Fin n) (Fin n) K)
    (im im' : Im) (z z' : GN.Env n m K S Im W E) : Prop where
  orthF : F * Fᵀ = 1
  setTarget : ∀ s, z'.setTarget (f s) = F *ᵥ z.setTarget s
  target : ∀ p, z'.target (F *ᵥ p) = f (z.target p)
  warp : ∀ p, z'.warp im' (F *ᵥ p) = z.warp im p
  mask : z'.mask = z.mask
  jac : ∀ w, z'.jac w = z.jac w * Fᵀ
  aBar : z'.aBar = z.aBar
  Q : z'.Q = z.Q
  prior : diagonal z'.prior * F = F * diagonal z.prior
  dist : ∀ s t, z'.dist (f s) (f t) = z.dist s t

/-- The landmark errors an algorithm computes from the responses. -/
noncomputable def landmarkErrors {N k : Nat} {Im : Type} (env : ClmRun.Env N k Im) (alg : ClmRun.Alg) (s : Pts N 2)
    (r : Fin N → List ℝ) : Fin (N * 2) → ℝ :=
  match alg with
  | .activeShape => Clm.ravel fun i => Clm.asmError env.h env.w env.c (ClmRun.landmarks s i) (r i)
  | .meanShift => Clm.ravel fun i => Clm.rlmsError env.h env.w env.c (ClmRun.landmarks s i) (r i)

/-- The same for constrained local models; the orthogonal matrix `R` says what `f` does to the vector of all coordinates (of
a displacement). -/
structure TurnedClm {N k : Nat} {Im : Type} (f : Pts N 2 → Pts N 2) (R : Matrix (Fin (N * 2)) (Fin (N * 2)) ℝ)
    (F : Matrix (Fin k) (Fin k) ℝ) (alg : ClmRun.Alg) (im im' : Im) (env env' : ClmRun.Env N k Im) : Prop where
  orthR : R * Rᵀ = 1
  orthF : F * Fᵀ = 1
  setTarget : ∀ s, env'.setTarget (f s) = F *ᵥ env.setTarget s
  shape : ∀ p, env'.shape (F *ᵥ p) = f (env.shape p)
  prior : diagonal env'.prior * F = F * diagonal env.prior
  dist : ∀ s t, ClmRun.shapeDistance (f s) (f t) = ClmRun.shapeDistance s t
  J : env'.J = R * env.J * Fᵀ
  errors : ∀ p, (env'.respond im' (f (env.shape p))).map (landmarkErrors env' alg (f (env.shape p))) =
    (env.respond im (env.shape p)).map fun r => R *ᵥ landmarkErrors env alg (env.shape p) r

/-- The same for unified models. -/
structure TurnedUnified {N k a m : Nat} {Im W : Type} (f : Pts N 2 → Pts N 2) (R : Matrix (Fin (N * 2)) (Fin (N * 2)) ℝ)
    (F : Matrix (Fin k) (Fin k) ℝ) (G : Matrix (Fin a) (Fin a) ℝ) (im im' : Im) (env env' : ClmRun.UEnv N k a m Im W) :
    Prop where
  clm : TurnedClm f R F .meanShift im im' env.toEnv env'.toEnv
  orthG : G * Gᵀ = 1
  warp : ∀ s, env'.warp im' (f s) = env.warp im s
  mask : env'.mask = env.mask
  aBar : env'.aBar = env.aBar
  U : env'.U = env.U * Gᵀ
  pinvU : env'.pinvU = G * env.pinvU
  jPo : env'.jPo = env.jPo * Fᵀ
  jac : ∀ c, env'.jac (G *ᵥ c) = env.jac c * Fᵀ
  invSigma2 : env'.invSigma2 = env.invSigma2
  invRho2 : env'.invRho2 = env.invRho2

/-- What a fit returned, in the other coordinates: shapes after `f`, parameters multiplied by `F`, the same costs. -/
def turnedTrace {S K C : Type} [Field K] {n : Nat} (f : S → S) (F : Matrix (Fin n) (Fin n) K)
    (r : Optim.Trace S (Fin n → K) C) : Optim.Trace S (Fin n → K) C :=
  ⟨r.shapes.map f, r.params.map fun p => F *ᵥ p, r.costs⟩

/-- The same with appearance parameters. -/
def turnedTraceA {S K C : Type} [Field K] {n a : Nat} (f : S → S) (F : Matrix (Fin n) (Fin n) K)
    (G : Matrix (Fin a) (Fin a) K) (r : Optim.Trace S ((Fin n → K) × (Fin a → K)) C) :
    Optim.Trace S ((Fin n → K) × (Fin a → K)) C :=
  ⟨r.shapes.map f, r.params.map fun p => (F *ᵥ p.1, G *ᵥ p.2), r.costs⟩

/-- What the constructor of a project-out algorithm computed, in the other coordinates. -/
def turnedCache {K : Type} [Field K] {n m : Nat} (F : Matrix (Fin n) (Fin n) K) (c : GN.Cache n m K) : GN.Cache n m K :=
  ⟨c.QJ * Fᵀ, F * c.JQJ * Fᵀ, F * c.pinvQJ⟩

end Spec
end Menpofit
