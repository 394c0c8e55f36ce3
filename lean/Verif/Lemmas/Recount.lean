import Verif.Model.Placement
/-!
# Lemmas: fits whose parameters are counted by an equal number

The number of parameters of a shape model is the length of a list; two models with equally many parameters have it by
different expressions.
-/

namespace Menpofit
open MI Matrix Place

/-- The same constrained local model with its parameters counted by an equal number. -/
def recountClm {N k k' : Nat} {Im : Type} (h : k' = k) (env : ClmRun.Env N k' Im) : ClmRun.Env N k Im where
  setTarget s i := env.setTarget s (Fin.cast h.symm i)
  shape v := env.shape fun i => v (Fin.cast h i)
  respond := env.respond
  h := env.h
  w := env.w
  c := env.c
  J := env.J.submatrix id (Fin.cast h.symm)
  prior i := env.prior (Fin.cast h.symm i)

/-- Parameters counted by an equal number. -/
def recount {S C : Type} {k k' : Nat} (h : k' = k) (r : Optim.Trace S (Fin k → ℝ) C) : Optim.Trace S (Fin k' → ℝ) C :=
  ⟨r.shapes, r.params.map fun p i => p (Fin.cast h i), r.costs⟩

theorem recountClm_run {N k k' : Nat} {Im : Type} (h : k' = k) (env : ClmRun.Env N k' Im) (alg : ClmRun.Alg) (map : Bool)
    (maxIters : Int) (tol : ℝ) (im : Im) (init : Pts N 2) :
    ClmRun.run env alg map maxIters tol im init =
      (ClmRun.run (recountClm h env) alg map maxIters tol im init).map (recount h) := by
  subst h
  have e : recountClm rfl env = env := rfl
  rw [e]
  cases ClmRun.run env alg map maxIters tol im init with
  | error e => rfl
  | ok r => simp [Except.map, recount]

theorem append_recount {k k' : Nat} (e : k' = k) (h : 4 + k' = 4 + k) (u : Fin 4 → ℝ) (f : Fin k → ℝ) (i : Fin (4 + k)) :
    Fin.append u (fun j : Fin k' => f (Fin.cast e j)) (Fin.cast h.symm i) = Fin.append u f i := by
  subst e; rfl

/-- The same active appearance model with its parameters counted by an equal number. -/
def recountAam {N k k' a m : Nat} {Im W : Type} (h : k' = k) (z : Aam.Setup k' a m ℝ (Pts N 2) Im W ℝ) :
    Aam.Setup k a m ℝ (Pts N 2) Im W ℝ where
  setTarget s i := z.setTarget s (Fin.cast h.symm i)
  target v := z.target fun i => v (Fin.cast h i)
  warp im v := z.warp im fun i => v (Fin.cast h i)
  mask := z.mask
  jacI w := (z.jacI w).submatrix id (Fin.cast h.symm)
  jacA c := (z.jacA c).submatrix id (Fin.cast h.symm)
  aBar := z.aBar
  A := z.A
  pinvA := z.pinvA
  priorS i := z.priorS (Fin.cast h.symm i)
  priorA := z.priorA
  dist := z.dist

/-- Parameters counted by an equal number. -/
def recountA {S C : Type} {k k' a : Nat} (h : k' = k) (r : Optim.Trace S ((Fin k → ℝ) × (Fin a → ℝ)) C) :
    Optim.Trace S ((Fin k' → ℝ) × (Fin a → ℝ)) C :=
  ⟨r.shapes, r.params.map fun p => (fun i => p.1 (Fin.cast h i), p.2), r.costs⟩

theorem recountAam_run {N k k' a m : Nat} {Im W : Type} (h : k' = k) (z : Aam.Setup k' a m ℝ (Pts N 2) Im W ℝ)
    (alg : Aam.Alg) (inverse map : Bool) (maxIters : Int) (tol : ℝ) (costs : Bool) (im : Im) (init : Pts N 2) :
    Aam.run z alg inverse map maxIters tol costs im init =
      (Aam.run (recountAam h z) alg inverse map maxIters tol costs im init).map (recountA h) := by
  subst h
  have e : recountAam rfl z = z := rfl
  rw [e]
  cases Aam.run z alg inverse map maxIters tol costs im init with
  | error e => rfl
  | ok r => simp [Except.map, recountA]

theorem recountAam_po {N k k' a m : Nat} {Im W : Type} (h : k' = k) (z : Aam.Setup k' a m ℝ (Pts N 2) Im W ℝ)
    (inverse : Bool) (tol : ℝ) (J : Matrix (Fin m) (Fin k') ℝ) (x : GN.Input (Pts N 2) Im ℝ) :
    ((GN.precompute (Aam.projectOutEnv z).Q J).bind fun c => (GN.poRun (Aam.projectOutEnv z) inverse tol c x).2) =
      ((GN.precompute (Aam.projectOutEnv (recountAam h z)).Q (J.submatrix id (Fin.cast h.symm))).bind fun c =>
        (GN.poRun (Aam.projectOutEnv (recountAam h z)) inverse tol c x).2).map (recount h) := by
  subst h
  have e : recountAam rfl z = z := rfl
  have e' : J.submatrix id (Fin.cast rfl) = J := rfl
  rw [e, e']
  generalize ((GN.precompute (Aam.projectOutEnv z).Q J).bind fun c => (GN.poRun (Aam.projectOutEnv z) inverse tol c x).2) = r
  cases r with
  | error e => rfl
  | ok r => simp [Except.map, recount]

/-- The same unified model with its parameters counted by an equal number. -/
def recountUnified {N k k' a m : Nat} {Im W : Type} (h : k' = k) (env : ClmRun.UEnv N k' a m Im W) :
    ClmRun.UEnv N k a m Im W :=
  { recountClm h env.toEnv with
    warp := env.warp
    mask := env.mask
    aBar := env.aBar
    U := env.U
    pinvU := env.pinvU
    jPo := env.jPo.submatrix id (Fin.cast h.symm)
    jac := fun c => (env.jac c).submatrix id (Fin.cast h.symm)
    invSigma2 := env.invSigma2
    invRho2 := env.invRho2 }

theorem recountUnified_run {N k k' a m : Nat} {Im W : Type} (h : k' = k) (env : ClmRun.UEnv N k' a m Im W)
    (alg : ClmRun.UAlg) (prior : Bool) (α : ℝ) (maxIters : Int) (tol : ℝ) (costs : Bool) (im : Im) (init : Pts N 2) :
    ClmRun.uRun env alg prior α maxIters tol costs im init =
      (ClmRun.uRun (recountUnified h env) alg prior α maxIters tol costs im init).map (recountA h) := by
  subst h
  have e : recountUnified rfl env = env := rfl
  rw [e]
  cases ClmRun.uRun env alg prior α maxIters tol costs im init with
  | error e => rfl
  | ok r => simp [Except.map, recountA]

end Menpofit
