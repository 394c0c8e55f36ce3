import Verif.Model.Sampling
/-!
# Specification vocabulary for the sampling masks (C66, C82)
-/

namespace Menpofit.Spec
open Sampling

/-- Which pixels (of `n`) a sampling specification selects: all, every `k`-th, the listed
ones (negative indices count from the end), the flagged ones. -/
def Selected (n : Nat) : Sampling.Spec → Nat → Prop
  | .all, j => j < n
  | .step k, j => j < n ∧ 0 < k ∧ k ∣ (j : Int)
  | .index l, j => j < n ∧ ((j : Int) ∈ l ∨ (j : Int) - n ∈ l)
  | .flags l, j => l[j]? = some true

/-- The specifications that make sense for `n` pixels. -/
def ValidSampling (n : Nat) : Sampling.Spec → Prop
  | .all => True
  | .step k => k ≠ 0
  | .index l => ∀ i ∈ l, -(n : Int) ≤ i ∧ i < n
  | .flags l => l.length = n

end Menpofit.Spec
