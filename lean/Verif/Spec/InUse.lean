import Verif.Model.InUse
import Verif.Spec.ModelInstance
/-!
# Specification: shape models that differ only in components that are not in use (C146)
-/

namespace Menpofit
namespace Spec
open MI

variable {n d : Nat} {T : Type}

/-- The same mean and the same active components. -/
structure SameInUse (m m' : Pca n d) : Prop where
  mean : m'.mean = m.mean
  active : m'.active = m.active

/-- Shape models in the same state whose statistical models are the same as far as they are in use. -/
structure SamePdm (p q : Pdm n d) : Prop where
  model : SameInUse p.model q.model
  weights : q.weights = p.weights
  target : q.target = p.target

/-- The same with a global transform. -/
structure SameGlobalPdm (p q : GPdm T n d) : Prop where
  model : SameInUse p.model q.model
  weights : q.weights = p.weights
  target : q.target = p.target
  glob : q.glob = p.glob

/-- The same with a similarity model. -/
structure SameOrthoPdm (p q : OPdm n) : Prop where
  model : SameInUse p.model q.model
  weights : q.weights = p.weights
  target : q.target = p.target
  simMean : q.simMean = p.simMean
  simComps : q.simComps = p.simComps
  simWeights : q.simWeights = p.simWeights
  source : q.source = p.source
  glob : q.glob = p.glob

/-- Calls that do not ask for other components: set the target or the parameters. -/
def KeepsModel : PdmOp n d → Prop
  | .target _ => True
  | .vector _ => True
  | .active _ => False
  | .increment _ => False

/-- Orthonormalisation goes through the components in order (as a QR decomposition does): what it makes
of the first `k` components does not depend on the others, and it makes up no components. -/
structure InOrder (ortho : Ortho n) : Prop where
  first : ∀ a b k, ortho a (b.take k) = ((ortho a b).1, (ortho a b).2.take k)
  fewer : ∀ a b, (ortho a b).2.length ≤ b.length

/-- The results of a sequence of runs, each on the shape model the previous one left behind. -/
def results {P R Q : Type} (run : R → P → P × Q) : P → List R → List Q
  | _, [] => []
  | p, r :: rs => (run r p).2 :: results run (run r p).1 rs

end Spec
end Menpofit
