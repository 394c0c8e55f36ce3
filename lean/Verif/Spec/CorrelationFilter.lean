import Mathlib.Data.Complex.Basic
import Mathlib.Data.Complex.BigOperators
/-!
# Specification vocabulary for correlation filters (C38, C39)
-/

namespace Menpofit.Spec

/-- Squared response error of the filter values `f` (one per channel) at one frequency, over the
images (transform values `a`, one per channel), for the desired value `y`, plus `l` times
the squared size of the filter. -/
noncomputable def filterCost {k : Nat} (l : ℝ) (images : List (Fin k → ℂ)) (y : ℂ)
    (f : Fin k → ℂ) : ℝ :=
  (images.map fun a => Complex.normSq ((∑ c, f c * a c) - y)).sum + l * ∑ c, Complex.normSq (f c)

/-- The same with a weight for every image. -/
noncomputable def weightedFilterCost {k : Nat} (l : ℝ) (images : List (ℝ × (Fin k → ℂ))) (y : ℂ)
    (f : Fin k → ℂ) : ℝ :=
  (images.map fun a => a.1 * Complex.normSq ((∑ c, f c * a.2 c) - y)).sum + l * ∑ c, Complex.normSq (f c)

/-- What an ensemble remembers after another batch: how many images it has counted, and the images with their weights.  The
images of the batch are already counted when the old ones are weighed (so that the weights do not become equal). -/
noncomputable def rememberBatch {A : Type} (seen : Nat × List (ℝ × A)) (batch : List A) : Nat × List (ℝ × A) :=
  let n : Nat := seen.1 + batch.length
  (n, (seen.2.map fun p => ((n : ℝ) / (n + batch.length) * p.1, p.2)) ++
    batch.map fun x => ((batch.length : ℝ) / (n + batch.length), x))

/-- What an ensemble remembers that was trained with `first` and incremented with the batches `more`. -/
noncomputable def remembered {A : Type} (first : List A) (more : List (List A)) : Nat × List (ℝ × A) :=
  more.foldl rememberBatch (first.length, first.map fun x => (1, x))

/-- `f` is the only minimiser. -/
def OnlyMin {A : Type} (cost : A → ℝ) (f : A) : Prop :=
  ∀ g, cost f ≤ cost g ∧ (cost g = cost f → g = f)

end Menpofit.Spec
