import Verif.Model.Warps
import Mathlib.Analysis.Calculus.Gradient.Basic
/-!
# Specifications for warps
-/

namespace Menpofit
namespace Spec
open Warp

/-- The location returned for `x` is right: three different vertices, and `x` is the convex
combination of the source vertices with weights `1 - alpha - beta`, `alpha`, `beta`. -/
def LocatedIn {nv : Nat} (w : Pwa nv) (x : P 2) (l : Located nv) : Prop :=
  l.i ≠ l.j ∧ l.j ≠ l.k ∧ l.i ≠ l.k ∧ 0 ≤ l.alpha ∧ 0 ≤ l.beta ∧ l.alpha + l.beta ≤ 1 ∧
    x = w.source l.i + l.alpha • (w.source l.j - w.source l.i) +
      l.beta • (w.source l.k - w.source l.i)

/-- Every location returned is right. -/
def LocatesCorrectly {nv : Nat} (w : Pwa nv) : Prop := ∀ x l, w.locate x = some l → LocatedIn w x l

/-- `jac r c` is the derivative, at `x`, of coordinate `r` with respect to coordinate `c` of a warp
defined around `x`. -/
def IsWarpJacobian (f : P 2 → Option (P 2)) (x : P 2) (jac : Fin 2 → Fin 2 → ℝ) : Prop :=
  ∃ g : P 2 → P 2, (∀ᶠ y in nhds x, f y = some (g y)) ∧
    ∀ r, HasGradientAt (fun y => g y r) (WithLp.toLp 2 fun c => jac r c) x

end Spec
end Menpofit
