import Verif.Model.AamSolvers
import Verif.Model.Fitter
import Verif.Model.Optim
import Verif.Model.LkResidual
import Verif.Spec.LkResidual
/-!
# Pictures that differ by their light (C138)
-/

namespace Menpofit.Spec
open Matrix

/-- Both raise the same exception, or both succeed with related values. -/
def BothWays {α : Type} (R : α → α → Prop) : Except PyErr α → Except PyErr α → Prop
  | .error e, .error e' => e = e'
  | .ok x, .ok y => R x y
  | _, _ => False

/-- Wherever it is looked at, the second picture is the first with another contrast and brightness. -/
def RelitPicture {c h w : Nat} {Im T : Type} (env : Lk.Env c h w Im T) (im im' : Im) : Prop :=
  ∀ t, Relit (fun i : Lk.Px c h w => env.warp im t i.1 i.2) fun i => env.warp im' t i.1 i.2

/-- The whole pictures too: normalisation removes the difference, and gradients differ by the contrast. -/
def RelitWhole {c h w : Nat} {Im T : Type} (env : Lk.Env c h w Im T) (im im' : Im) : Prop :=
  env.normIm im' = env.normIm im ∧
    ∃ a : ℝ, 0 < a ∧ ∀ t d i p, env.fwdGrad im' t d i p = a * env.fwdGrad im t d i p

variable {K : Type} [Field K] {n a m : Nat} {S Im W E : Type}

/-- Wherever the image is warped from, the second picture differs from the first by the same vector of features
`u`, which does not change gradients and which the appearance model can express. -/
structure Brighter (z : Aam.Setup n a m K S Im W E) (u : Fin m → K) (im im' : Im) : Prop where
  learned : z.A *ᵥ (z.pinvA *ᵥ u) = u
  flat : ∀ c, z.jacA (c + z.pinvA *ᵥ u) = z.jacA c
  warps : ∀ p, BothWays (fun i i' => z.mask i' = z.mask i + u ∧ z.jacI i' = z.jacI i) (z.warp im p) (z.warp im' p)

/-- Wherever the image is warped from, the second picture is the first with contrast `g` and brightness `u`. -/
structure Contrasted (z : Aam.Setup n a m K S Im W E) (g : K) (u : Fin m → K) (im im' : Im) : Prop where
  learned : z.A *ᵥ (z.pinvA *ᵥ u) = u
  warps : ∀ p, BothWays (fun i i' => z.mask i' = g • z.mask i + u ∧ z.jacI i' = g • z.jacI i)
    (z.warp im p) (z.warp im' p)

/-- The same fit: equal shapes and shape parameters, appearance parameters shifted by `d`, equal costs. -/
def ShiftedAppearance {C : Type} (d : Fin a → K) (r : Optim.Trace S ((Fin n → K) × (Fin a → K)) C) :
    Optim.Trace S ((Fin n → K) × (Fin a → K)) C :=
  ⟨r.shapes, r.params.map fun q => (q.1, q.2 + d), r.costs⟩

/-- The same fit with every cost multiplied by `k`. -/
def ScaledCosts {V : Type} (k : K) (r : Optim.Trace S V K) : Optim.Trace S V K :=
  ⟨r.shapes, r.params, r.costs.map (List.map (k * ·))⟩

/-- Same landmarks, pixels related by `Alike`. -/
structure LitAs {P : Type} (Alike : P → P → Prop) (x y : Fitter.Img S P) : Prop where
  lm : y.lm = x.lm
  px : Alike x.px y.px

/-- Rescaling and features work alike on alike pictures. -/
structure KeepsLight {P F : Type} (Alike : P → P → Prop) (ext : Fitter.Ext S P F) : Prop where
  reference : ∀ x y, LitAs Alike x y → BothWays (LitAs Alike) (ext.rescaleToRef x) (ext.rescaleToRef y)
  feature : ∀ f x y, LitAs Alike x y → BothWays (LitAs Alike) (ext.feature f x) (ext.feature f y)
  rescale : ∀ x y s, LitAs Alike x y →
    BothWays (fun v w => LitAs Alike v.1 w.1 ∧ w.2 = v.2) (ext.rescale x s) (ext.rescale y s)

end Menpofit.Spec
