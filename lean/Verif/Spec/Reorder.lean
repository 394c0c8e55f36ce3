import Verif.Spec.Renumber
import Verif.Model.Placement
/-!
# Specification: fitting problems with landmarks renumbered and features reordered

Feature `i` of the reordered problem is feature `ρ i` of the original problem.
-/

namespace Menpofit
namespace Spec
open MI Matrix

/-- A matrix with one row per feature, reordered. -/
def reorderRows {m n : Nat} (ρ : Equiv.Perm (Fin m)) (J : Matrix (Fin m) (Fin n) ℝ) : Matrix (Fin m) (Fin n) ℝ :=
  J.submatrix ρ id

/-- A matrix with one column per feature, reordered. -/
def reorderCols {m n : Nat} (ρ : Equiv.Perm (Fin m)) (J : Matrix (Fin n) (Fin m) ℝ) : Matrix (Fin n) (Fin m) ℝ :=
  J.submatrix id ρ

/-- How `y₀, x₀, y₁, x₁, …` is reordered when the landmarks are renumbered. -/
def coordinates {N : Nat} (σ : Equiv.Perm (Fin N)) : Equiv.Perm (Fin (N * 2)) :=
  finProdFinEquiv.symm.trans ((σ.prodCongr (Equiv.refl (Fin 2))).trans finProdFinEquiv)

/-- Renumbered result of a fit whose parameters are counted by a number that is only known to be
equal. -/
def renumberTrace {N k k' : Nat} {C : Type} (σ : Equiv.Perm (Fin N)) (h : k' = k)
    (r : Optim.Trace (Pts N 2) (Fin k → ℝ) C) : Optim.Trace (Pts N 2) (Fin k' → ℝ) C :=
  ⟨r.shapes.map (renumber σ), r.params.map fun v i => v (Fin.cast h i), r.costs⟩

/-- Renumbered result of a fit with appearance parameters. -/
def renumberTraceA {N k k' a : Nat} {C : Type} (σ : Equiv.Perm (Fin N)) (h : k' = k)
    (r : Optim.Trace (Pts N 2) ((Fin k → ℝ) × (Fin a → ℝ)) C) : Optim.Trace (Pts N 2) ((Fin k' → ℝ) × (Fin a → ℝ)) C :=
  ⟨r.shapes.map (renumber σ), r.params.map fun v => (fun i => v.1 (Fin.cast h i), v.2), r.costs⟩

/-- Renumbered probability maps. -/
def renumberMaps {N : Nat} {α : Type} (σ : Equiv.Perm (Fin N)) (f : Fin N → α) : Fin N → α := fun i => f (σ i)

/-- `env'` is the constrained local model `env` with its landmarks renumbered: shape model, experts
and Jacobian. -/
structure RenumberedClm {N k : Nat} {Im : Type} (σ : Equiv.Perm (Fin N)) (env env' : ClmRun.Env N k Im) : Prop where
  setTarget : ∀ s, env'.setTarget (renumber σ s) = env.setTarget s
  shape : ∀ v, env'.shape v = renumber σ (env.shape v)
  respond : ∀ im s, env'.respond im (renumber σ s) = (env.respond im s).map (renumberMaps σ)
  h : env'.h = env.h
  w : env'.w = env.w
  c : env'.c = env.c
  J : env'.J = reorderRows (coordinates σ) env.J
  prior : env'.prior = env.prior

/-- `z'` is the active appearance model `z` with its landmarks renumbered and its features
reordered; `g` is what this does to a warped image. -/
structure ReorderedAam {N n a m : Nat} {Im W : Type} (σ : Equiv.Perm (Fin N)) (ρ : Equiv.Perm (Fin m)) (g : W → W)
    (z z' : Aam.Setup n a m ℝ (Pts N 2) Im W ℝ) : Prop where
  setTarget : ∀ s, z'.setTarget (renumber σ s) = z.setTarget s
  target : ∀ p, z'.target p = renumber σ (z.target p)
  warp : ∀ im p, z'.warp im p = (z.warp im p).map g
  mask : ∀ w, z'.mask (g w) = fun i => z.mask w (ρ i)
  jacI : ∀ w, z'.jacI (g w) = reorderRows ρ (z.jacI w)
  jacA : ∀ c, z'.jacA c = reorderRows ρ (z.jacA c)
  aBar : z'.aBar = fun i => z.aBar (ρ i)
  A : z'.A = reorderRows ρ z.A
  pinvA : z'.pinvA = reorderCols ρ z.pinvA
  priorS : z'.priorS = z.priorS
  priorA : z'.priorA = z.priorA
  dist : ∀ s s', z'.dist (renumber σ s) (renumber σ s') = z.dist s s'

/-- The same for the project-out algorithms. -/
structure ReorderedPo {N n m : Nat} {Im W : Type} (σ : Equiv.Perm (Fin N)) (ρ : Equiv.Perm (Fin m)) (g : W → W)
    (z z' : GN.Env n m ℝ (Pts N 2) Im W ℝ) : Prop where
  setTarget : ∀ s, z'.setTarget (renumber σ s) = z.setTarget s
  target : ∀ p, z'.target p = renumber σ (z.target p)
  warp : ∀ im p, z'.warp im p = (z.warp im p).map g
  mask : ∀ w, z'.mask (g w) = fun i => z.mask w (ρ i)
  jac : ∀ w, z'.jac (g w) = reorderRows ρ (z.jac w)
  aBar : z'.aBar = fun i => z.aBar (ρ i)
  Q : z'.Q = z.Q.submatrix ρ ρ
  prior : z'.prior = z.prior
  dist : ∀ s s', z'.dist (renumber σ s) (renumber σ s') = z.dist s s'

/-- What the constructor of a project-out algorithm computed, reordered. -/
def reorderCache {n m : Nat} (ρ : Equiv.Perm (Fin m)) (c : GN.Cache n m ℝ) : GN.Cache n m ℝ :=
  ⟨reorderRows ρ c.QJ, c.JQJ, reorderCols ρ c.pinvQJ⟩

/-- `env'` is the unified model `env` with its landmarks renumbered and its features reordered. -/
structure ReorderedUnified {N k a m : Nat} {Im W : Type} (σ : Equiv.Perm (Fin N)) (ρ : Equiv.Perm (Fin m)) (g : W → W)
    (env env' : ClmRun.UEnv N k a m Im W) : Prop where
  clm : RenumberedClm σ env.toEnv env'.toEnv
  warp : ∀ im s, env'.warp im (renumber σ s) = (env.warp im s).map g
  mask : ∀ w, env'.mask (g w) = fun i => env.mask w (ρ i)
  aBar : env'.aBar = fun i => env.aBar (ρ i)
  U : env'.U = reorderRows ρ env.U
  pinvU : env'.pinvU = reorderCols ρ env.pinvU
  jPo : env'.jPo = reorderRows ρ env.jPo
  jac : ∀ c, env'.jac c = reorderRows ρ (env.jac c)
  invSigma2 : env'.invSigma2 = env.invSigma2
  invRho2 : env'.invRho2 = env.invRho2

/-- A piecewise affine warp whose vertices are renumbered. -/
def renumberMesh {N : Nat} (σ : Equiv.Perm (Fin N)) (mesh : Warp.Pwa N) : Warp.Pwa N :=
  ⟨fun i => mesh.source (σ i), fun i => mesh.target (σ i), fun x =>
    (mesh.locate x).map fun l => ⟨σ.symm l.i, σ.symm l.j, σ.symm l.k, l.alpha, l.beta⟩⟩

/-- `z'` is the appearance side `z` with its features reordered. -/
structure ReorderedAppearance {k k' a m : Nat} {W : Type} (ρ : Equiv.Perm (Fin m)) (g : W → W) (h : k' = k)
    (z : Place.Appearance k a m W) (z' : Place.Appearance k' a m W) : Prop where
  mask : ∀ w, z'.mask (g w) = fun i => z.mask w (ρ i)
  jacI : ∀ w, z'.jacI (g w) = (z.jacI w).submatrix ρ (Fin.cast h)
  jacA : ∀ c, z'.jacA c = (z.jacA c).submatrix ρ (Fin.cast h)
  aBar : z'.aBar = fun i => z.aBar (ρ i)
  A : z'.A = reorderRows ρ z.A
  pinvA : z'.pinvA = reorderCols ρ z.pinvA
  priorA : z'.priorA = z.priorA

end Spec
end Menpofit
