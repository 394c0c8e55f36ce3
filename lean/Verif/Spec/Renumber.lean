import Verif.Model.ModelInstance
import Verif.Spec.ModelInstance
import Verif.Model.Error
import Verif.Model.Alignment
/-!
# Specification: the same annotations with the landmarks numbered differently

Landmark `i` of the renumbered data is landmark `σ i` of the original data.
-/

namespace Menpofit
namespace Spec
open MI

variable {n d : Nat}

/-- A shape, renumbered. -/
def renumber (σ : Equiv.Perm (Fin n)) (s : Pts n d) : Pts n d := fun ij => s (σ ij.1, ij.2)

/-- A point cloud, renumbered if it has the right number of points. -/
def renumberCloud (σ : Equiv.Perm (Fin n)) (c : Cloud) : Cloud :=
  match c.fit n 2 with
  | some t => ⟨n, 2, renumber σ t⟩
  | none => c

/-- A statistical model, renumbered: its mean and each of its components. -/
def renumberPca (σ : Equiv.Perm (Fin n)) (m : Pca n d) : Pca n d :=
  ⟨renumber σ m.mean, m.comps.map (renumber σ), m.nActive⟩

/-- A shape model with its present state, renumbered. -/
def renumberPdm (σ : Equiv.Perm (Fin n)) (p : OPdm n) : OPdm n :=
  { model := renumberPca σ p.model, weights := p.weights, target := renumber σ p.target,
    simMean := renumber σ p.simMean, simComps := p.simComps.map (renumber σ), simWeights := p.simWeights,
    source := renumber σ p.source, glob := p.glob }

/-- What is done to a shape model, with the landmarks renumbered. -/
def renumberOp (σ : Equiv.Perm (Fin n)) : PdmOp n 2 → PdmOp n 2
  | .target c => .target (renumberCloud σ c)
  | .vector v => .vector v
  | .active k => .active k
  | .increment m => .increment (renumberPca σ m)

/-- Orthonormalisation does not look at the order of the coordinates: that of renumbered components is the renumbered
one. -/
def Unnumbered (ortho : Ortho n) : Prop :=
  ∀ (σ : Equiv.Perm (Fin n)) a b,
    ortho (a.map (renumber σ)) (b.map (renumber σ)) = ((ortho a b).1.map (renumber σ), (ortho a b).2.map (renumber σ))

/-- An array of points, renumbered. -/
def renumberRows {α : Type} (σ : Equiv.Perm (Fin n)) (s : Fin n → α) : Fin n → α := fun i => s (σ i)

end Spec
end Menpofit
