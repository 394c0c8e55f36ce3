import Verif.Model.Clm
import Verif.Model.Unified
import Verif.Model.ModelInstance
/-!
# Runs of constrained local models and of unified models

Models the `run` methods of `/repo/menpofit/clm/algorithm/gd.py` and
`/repo/menpofit/unified_aam_clm/algorithm.py` as optimisers of `Verif.Model.Optim`: what happens between
the responses of the experts and the increments is `Verif.Model.Clm` and `Verif.Model.Unified`.
Simplifications: the matrices computed once by the constructors are recomputed in every iteration (so a
singular one raises in the run); exact arithmetic.
-/

namespace Menpofit
namespace ClmRun
open MI Matrix

noncomputable section

/-- The landmarks of a shape as pairs. See `/repo/menpofit/clm/algorithm/gd.py:156-160` -/
def landmarks {N : Nat} (s : Pts N 2) : Fin N → ℝ × ℝ := fun i => (s (i, 0), s (i, 1))

/-- `np.linalg.norm(s - s')`. See `/repo/menpofit/clm/algorithm/gd.py:198` -/
def shapeDistance {N : Nat} (s s' : Pts N 2) : ℝ := Real.sqrt (∑ x, (s x - s' x) ^ 2)

/-- What the two algorithms use: the shape model, the probability maps of the experts
(`predict_probability(image, shape)`), the search window `h × w`, the covariance of the
smoothing kernel, `J` and `rho2_inv_L` (`/repo/menpofit/clm/algorithm/gd.py:33-58`). -/
structure Env (N k : Nat) (Im : Type) where
  setTarget : Pts N 2 → Fin k → ℝ
  shape : (Fin k → ℝ) → Pts N 2
  respond : Im → Pts N 2 → Except PyErr (Fin N → List ℝ)
  h : Nat
  w : Nat
  c : ℝ
  J : Matrix (Fin (N * 2)) (Fin k) ℝ
  prior : Fin k → ℝ

variable {N k a m : Nat} {Im W : Type}

/-- The two CLM algorithms: active shape model and regularised landmark mean-shift. See `/repo/menpofit/clm/algorithm/gd.py:110-345` -/
inductive Alg | activeShape | meanShift
  deriving DecidableEq

/-- One iteration of `ActiveShapeModel.run` up to the new parameters,
`/repo/menpofit/clm/algorithm/gd.py:156-193`. -/
def asmStep (env : Env N k Im) (map : Bool) (im : Im) (p : Fin k → ℝ) : Except PyErr (Fin k → ℝ) := do
  let target := landmarks (env.shape p)
  let responses ← env.respond im (env.shape p)
  let error := Clm.ravel fun i => Clm.asmError env.h env.w env.c (target i) (responses i)
  let dp ← if map then GN.clmMapStep env.J env.prior error p else GN.clmMlStep env.J error
  return p + dp

/-- The new parameters of an iteration of either algorithm.
See `/repo/menpofit/clm/algorithm/gd.py:184-189` -/
def update (env : Env N k Im) (alg : Alg) (map : Bool) (im : Im) (p : Fin k → ℝ) :
    Except PyErr (Fin k → ℝ) :=
  match alg with
  | .activeShape => asmStep env map im p
  | .meanShift => do
    let responses ← env.respond im (env.shape p)
    let error := Clm.ravel fun i =>
      Clm.rlmsError env.h env.w env.c (landmarks (env.shape p) i) (responses i)
    let dp ← if map then GN.clmMapStep env.J env.prior error p else GN.clmMlStep env.J error
    return p + dp

/-- The loop bodies, `/repo/menpofit/clm/algorithm/gd.py:154-201` and `:297-340`; there are no costs. -/
def machine (env : Env N k Im) (alg : Alg) (map : Bool) (im : Im) :
    Optim.Machine (Fin k → ℝ) (Pts N 2) (Fin k → ℝ) Unit ℝ where
  step p := match update env alg map im p with
    | .error e => (p, .error e)
    | .ok p' => (p', .ok (shapeDistance (env.shape p) (env.shape p')))
  shape := env.shape
  params p := p
  cost _ := ()

/-- `run`, `/repo/menpofit/clm/algorithm/gd.py:144-206` and `:287-345`. -/
def run (env : Env N k Im) (alg : Alg) (map : Bool) (maxIters : Int) (tol : ℝ) (im : Im)
    (init : Pts N 2) : Except PyErr (Optim.Trace (Pts N 2) (Fin k → ℝ) Unit) :=
  (Optim.run (machine env alg map im) false maxIters tol false (env.setTarget init)).2

/-! ### Unified models -/

/-- What the unified algorithms use, `/repo/menpofit/unified_aam_clm/algorithm.py:52-60`, `:69-90`,
`:121-159` and `:285-304`: the constrained local model part, the warp of the image and its masked
features, `a_bar_m`, `U` and its pseudo-inverse, the projected-out Jacobian of the mean, the
steepest descent images of the template with given appearance parameters, the inverse noise
variances. -/
structure UEnv (N k a m : Nat) (Im W : Type) extends Env N k Im where
  warp : Im → Pts N 2 → Except PyErr W
  mask : W → Fin m → ℝ
  aBar : Fin m → ℝ
  U : Matrix (Fin m) (Fin a) ℝ
  pinvU : Matrix (Fin a) (Fin m) ℝ
  jPo : Matrix (Fin m) (Fin k) ℝ
  jac : (Fin a → ℝ) → Matrix (Fin m) (Fin k) ℝ
  invSigma2 : ℝ
  invRho2 : ℝ

/-- What survives an iteration: the parameters, the warped image, the landmark error.
See `/repo/menpofit/unified_aam_clm/algorithm.py:235-272` -/
structure UState (k l : Nat) (W : Type) where
  p : Fin k → ℝ
  i : W
  ec : Fin l → ℝ

/-- The two unified algorithms: project-out and alternating. See `/repo/menpofit/unified_aam_clm/algorithm.py:162-447` -/
inductive UAlg | projectOut | alternating
  deriving DecidableEq

/-- `_compute_clm_error`, `/repo/menpofit/unified_aam_clm/algorithm.py:92-111` (exact arithmetic:
every response is finite). -/
def clmError (env : UEnv N k a m Im W) (im : Im) (p : Fin k → ℝ) : Except PyErr (Fin (N * 2) → ℝ) := do
  let responses ← env.respond im (env.shape p)
  return Clm.ravel fun i => Clm.rlmsError env.h env.w env.c (landmarks (env.shape p) i) (responses i)

/-- Warp the image and compute the landmark error at new parameters,
`/repo/menpofit/unified_aam_clm/algorithm.py:218-228`, `:251-261`, `:363-380` and `:416-430`. -/
def look (env : UEnv N k a m Im W) (im : Im) (p : Fin k → ℝ) : Except PyErr (UState k (N * 2) W) := do
  let i ← env.warp im (env.shape p)
  let ec ← clmError env im p
  return ⟨p, i, ec⟩

/-- The appearance parameters, `/repo/menpofit/unified_aam_clm/algorithm.py:371` and `:422`. -/
def uAppearance (env : UEnv N k a m Im W) (s : UState k (N * 2) W) : Fin a → ℝ :=
  env.pinvU *ᵥ (env.mask s.i - env.aBar)

/-- The image error, `/repo/menpofit/unified_aam_clm/algorithm.py:225`, `:258` (project-out) and
`:371-377`, `:422-429` (alternating). -/
def imageError (env : UEnv N k a m Im W) (alg : UAlg) (s : UState k (N * 2) W) : Fin m → ℝ :=
  match alg with
  | .projectOut => env.aBar - env.mask s.i
  | .alternating => (env.U *ᵥ uAppearance env s + env.aBar) - env.mask s.i

/-- The increment, `/repo/menpofit/unified_aam_clm/algorithm.py:237-243` and `:389-408`. -/
def increment (env : UEnv N k a m Im W) (alg : UAlg) (prior : Bool) (α : ℝ) (s : UState k (N * 2) W) :
    Except PyErr (Fin k → ℝ) :=
  match alg with
  | .projectOut => Unified.projectOutStep env.jPo env.invSigma2 env.J env.invRho2 env.prior s.p prior α
      (imageError env .projectOut s) s.ec
  | .alternating => Unified.alternatingStep (env.jac (uAppearance env s)) env.invSigma2 env.J env.invRho2
      env.prior s.p prior α (imageError env .alternating s) s.ec

/-- The loop bodies, `/repo/menpofit/unified_aam_clm/algorithm.py:235-272` and `:387-441`. -/
def uMachine (env : UEnv N k a m Im W) (alg : UAlg) (prior : Bool) (α : ℝ) (im : Im) :
    Optim.Machine (UState k (N * 2) W) (Pts N 2) ((Fin k → ℝ) × (Fin a → ℝ)) ℝ ℝ where
  step s := match increment env alg prior α s with
    | .error e => (s, .error e)
    | .ok dp => match look env im (s.p + dp) with
      | .error e => ({ s with p := s.p + dp }, .error e)
      | .ok s' => (s', .ok (shapeDistance (env.shape s.p) (env.shape s'.p)))
  shape s := env.shape s.p
  params s := (s.p, uAppearance env s)
  cost s := Unified.cost α (imageError env alg s) s.ec

/-- `run`, `/repo/menpofit/unified_aam_clm/algorithm.py:209-278` and `:354-447`.  The project-out
algorithm does not return appearance parameters; here they are recorded for both. -/
def uRun (env : UEnv N k a m Im W) (alg : UAlg) (prior : Bool) (α : ℝ) (maxIters : Int) (tol : ℝ)
    (costs : Bool) (im : Im) (init : Pts N 2) :
    Except PyErr (Optim.Trace (Pts N 2) ((Fin k → ℝ) × (Fin a → ℝ)) ℝ) := do
  let s ← look env im (env.setTarget init)
  (Optim.run (uMachine env alg prior α im) false maxIters tol costs s).2

end
end ClmRun
end Menpofit
