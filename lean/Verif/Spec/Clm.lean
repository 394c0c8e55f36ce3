import Mathlib.Analysis.Convex.Hull
import Mathlib.Data.Real.Basic
/-!
# Specification vocabulary for constrained local models (C54, C55, C56)
-/

namespace Menpofit.Spec

/-- A list of values that is a probability distribution. -/
def IsDistribution (m : List ℝ) : Prop := (∀ v ∈ m, 0 ≤ v) ∧ m.sum = 1

/-- A map all of whose values are equal. -/
def IsFlat (m : List ℝ) : Prop := ∀ v ∈ m, ∀ u ∈ m, v = u

/-- The pixel positions of the `h × w` search window around a landmark: row `i` and column `j` of the
window lie at offset `(i - ⌊h/2⌋, j - ⌊w/2⌋)`. -/
def searchWindow (h w : Nat) (pt : ℝ × ℝ) : Set (ℝ × ℝ) :=
  {q | ∃ i j : Nat, i < h ∧ j < w ∧
    q = (pt.1 + ((i : ℝ) - (h / 2 : Nat)), pt.2 + ((j : ℝ) - (w / 2 : Nat)))}

/-- The response map has its only largest value in row `i` and column `j`. -/
def PeaksAt (h w : Nat) (response : List ℝ) (i j : Nat) : Prop :=
  i < h ∧ j < w ∧ response.length = h * w ∧
  ∀ k v, response[k]? = some v → k ≠ i * w + j → ∃ u, response[i * w + j]? = some u ∧ v < u

end Menpofit.Spec
