import Verif.Spec.Lighting
/-!
# Specification: pictures that differ by what an appearance model can express (C149)
-/

namespace Menpofit.Spec
open Matrix

variable {K : Type} [Field K] {n a m : Nat} {S Im W E : Type}

/-- From wherever they are warped, the two pictures differ by some combination of the appearance components, maybe
another one at every place. -/
def DifferInExpression (z : Aam.Setup n a m K S Im W E) (im im' : Im) : Prop :=
  ∀ p, BothWays (fun i i' => ∃ c : Fin a → K, z.mask i' = z.mask i + z.A *ᵥ c) (z.warp im p) (z.warp im' p)

/-- The same, and so do their steepest descent images. -/
def DifferInExpressionWhole (z : Aam.Setup n a m K S Im W E) (im im' : Im) : Prop :=
  ∀ p, BothWays (fun i i' => (∃ c : Fin a → K, z.mask i' = z.mask i + z.A *ᵥ c) ∧
    ∃ B : Matrix (Fin a) (Fin n) K, z.jacI i' = z.jacI i + z.A * B) (z.warp im p) (z.warp im' p)

/-- A fit without the appearance parameters it reports. -/
def ShapeFit {C : Type} (r : Optim.Trace S ((Fin n → K) × (Fin a → K)) C) : Optim.Trace S (Fin n → K) C :=
  ⟨r.shapes, r.params.map Prod.fst, r.costs⟩

end Menpofit.Spec
