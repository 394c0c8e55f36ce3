import Verif.Model.Sdm
import Verif.Spec.Placement
/-!
# Specification: training with the faces elsewhere in their pictures (C129)
-/

namespace Menpofit
namespace Spec
open MI

variable {N : Nat} {Pic W Row Reg : Type}

/-- A training picture with its ground truth and the shapes training starts from, and a picture in which
everything is moved by a vector. -/
structure MovedSample (N : Nat) (Pic : Type) where
  picture : Pic
  moved : Pic
  vec : Fin 2 → ℝ
  gt : Pts N 2
  shapes : List (Pts N 2)

/-- The shapes of every picture, moved by the vector of the picture. -/
def movedEach (ts : List (Fin 2 → ℝ)) (shapes : List (List (Pts N 2))) : List (List (Pts N 2)) :=
  List.zipWith (fun t ss => ss.map (movedShape t)) ts shapes

/-- What training computed, with the shapes of every picture moved by the vector of the picture: the
regressors, and in every stage the features, the regressed differences and the predictions, are
the same. -/
def movedTraining (ts : List (Fin 2 → ℝ))
    (r : List Reg × List (List (Pts N 2)) × List (Sdm.Stage (Pts N 2) W Row)) :
    List Reg × List (List (Pts N 2)) × List (Sdm.Stage (Pts N 2) W Row) :=
  (r.1, movedEach ts r.2.1,
    r.2.2.map fun st => ⟨movedEach ts st.before, st.features, st.delta, st.predicted, movedEach ts st.after⟩)

end Spec
end Menpofit
