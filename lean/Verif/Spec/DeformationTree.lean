import Verif.Model.DeformationTree
import Mathlib.Combinatorics.SimpleGraph.Acyclic
/-!
# Specification of the default deformation graph
-/

namespace Menpofit
namespace Spec
open MI

/-- The determinant of the covariance (with `N - 1`) of the differences of two points over the
shapes, from sums and sums of products. -/
noncomputable def relativeSpread {n N : Nat} (shapes : Fin N → Pts n 2) (i j : Fin n) : ℝ :=
  let x : Fin N → ℝ := fun k => shapes k (i, 0) - shapes k (j, 0)
  let y : Fin N → ℝ := fun k => shapes k (i, 1) - shapes k (j, 1)
  ((∑ k, x k ^ 2 - (∑ k, x k) ^ 2 / N) * (∑ k, y k ^ 2 - (∑ k, y k) ^ 2 / N) -
    (∑ k, x k * y k - (∑ k, x k) * (∑ k, y k) / N) ^ 2) / (N - 1) ^ 2

/-- The sum of the weights of the edges of a graph: every edge is counted from both ends. -/
noncomputable def totalWeight {n : Nat} (W : Fin n → Fin n → ℝ) (T : SimpleGraph (Fin n)) : ℝ :=
  (∑ i, ∑ j, open Classical in if T.Adj i j then W i j else 0) / 2

/-- `T` is a spanning tree whose edges are edges of the weighted graph `W` (menpo reads a zero as "no
edge"). -/
def IsTreeOf {n : Nat} (W : Fin n → Fin n → ℝ) (T : SimpleGraph (Fin n)) : Prop :=
  T.IsTree ∧ ∀ i j, T.Adj i j → W i j ≠ 0

/-- A minimum spanning tree. -/
def IsMinimumTree {n : Nat} (W : Fin n → Fin n → ℝ) (T : SimpleGraph (Fin n)) : Prop :=
  IsTreeOf W T ∧ ∀ T', IsTreeOf W T' → totalWeight W T ≤ totalWeight W T'

/-- All shapes are moved by the same linear map and each by its own translation. -/
def Moved {n N : Nat} (a b c d : ℝ) (t : Fin N → Fin 2 → ℝ) (shapes : Fin N → Pts n 2) : Fin N → Pts n 2 :=
  fun k ij => (if ij.2 = 0 then a * shapes k (ij.1, 0) + b * shapes k (ij.1, 1)
    else c * shapes k (ij.1, 0) + d * shapes k (ij.1, 1)) + t k ij.2

end Spec
end Menpofit
