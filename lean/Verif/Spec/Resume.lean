import Verif.Model.Optim
import Mathlib.Analysis.InnerProductSpace.PiL2
/-!
# Specification: longer and resumed fits (C131)

Independent of the algorithms: only the lists of shapes, parameters and costs that a fit returns.
-/

namespace Menpofit
namespace Spec
open Optim

variable {S V C E : Type}

/-- The first `n` iterations of a fit: the start and `n` updates. -/
def firstIterations (n : Nat) (r : Trace S V C) : Trace S V C :=
  ⟨r.shapes.take (n + 1), r.params.take (n + 1), r.costs.map (·.take (n + 1))⟩

/-- A fit that starts where `a` ended, appended to `a`: its start is not listed twice. -/
def continued (a b : Trace S V C) : Trace S V C :=
  ⟨a.shapes ++ b.shapes.tail, a.params ++ b.params.tail, a.costs.bind fun x => b.costs.map fun y => x ++ y.tail⟩

/-- The last update still moved the shape by more than the tolerance. -/
def StillMoving [LT E] (dist : S → S → E) (tol : E) (shapes : List S) : Prop :=
  ∀ pre s s', shapes = pre ++ [s, s'] → tol < dist s s'

/-- How far one shape (given by its coordinates) is from another: the length of the difference of the two vectors. -/
noncomputable def euclidean {ι : Type} [Fintype ι] (a b : ι → ℝ) : ℝ :=
  ‖(WithLp.toLp 2 a : EuclideanSpace ℝ ι) - WithLp.toLp 2 b‖

end Spec
end Menpofit
