import Verif.Spec.SharedModel
import Verif.Spec.Placement
import Mathlib.Logic.Relation
/-!
# Specification: what the deformation model of an APS measures (C127)
-/

namespace Menpofit
namespace Spec
open MI

variable {n N : Nat}

/-- The position of point `i` as seen from point `j`. -/
def relPosition (s : Pts n 2) (i j : Fin n) : Fin 2 → ℝ := fun d => s (i, d) - s (j, d)

/-- The mean shape. -/
noncomputable def meanOfShapes (shapes : Fin N → Pts n 2) : Pts n 2 := fun ij => (∑ k, shapes k ij) / N

/-- The sample covariance of the relative position of two points. -/
noncomputable def relCovariance (shapes : Fin N → Pts n 2) (i j : Fin n) : Matrix (Fin 2) (Fin 2) ℝ :=
  Matrix.of fun d d' => (∑ k, (relPosition (shapes k) i j d - relPosition (meanOfShapes shapes) i j d) *
    (relPosition (shapes k) i j d' - relPosition (meanOfShapes shapes) i j d')) / (N - 1)

/-- The deformation of a shape: for every edge, how far the relative position of its ends is from
that of the mean shape, measured by the inverse covariance. -/
noncomputable def deformationEnergy (shapes : Fin N → Pts n 2) (edges : List (Fin n × Fin n))
    (s : Pts n 2) : ℝ :=
  (edges.map fun e =>
    let d := fun c => relPosition s e.1 e.2 c - relPosition (meanOfShapes shapes) e.1 e.2 c
    ∑ c, ∑ c', d c * (relCovariance shapes e.1 e.2)⁻¹ c c' * d c').sum

/-- The graph joins all points. -/
def ConnectsAll (edges : List (Fin n × Fin n)) : Prop :=
  ∀ i j, Relation.EqvGen (fun a b => (a, b) ∈ edges) i j

/-- No two points are joined twice, in either direction. -/
def JoinedOnce (edges : List (Fin n × Fin n)) : Prop :=
  edges.Pairwise fun e e' => ¬ (e = e' ∨ e = e'.swap)

/-- Parameters of a shape model after a change of the four parameters of the similarity. -/
def changedSimilarity (τ : Fin 4 → ℝ) (v : List ℝ) : List ℝ :=
  List.zipWith (· + ·) (v.take 4) (List.ofFn τ) ++ v.drop 4

end Spec
end Menpofit
