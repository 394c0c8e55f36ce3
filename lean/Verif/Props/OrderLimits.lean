import Verif.Lemmas.Order
import Verif.Model.CorrelationFilter
import Verif.Model.Sdm
import Mathlib.Algebra.BigOperators.Group.List.Basic
/-!
# C133: where the order of the training images does matter
-/

namespace Menpofit
open Spec Training

/-! ### Batches -/

/-- Images that are numbers, which are their own shapes; the reference shape is the mean. -/
def orderOps : ImageOps ℚ ℚ Unit where
  reference l := .ok (l.sum / l.length)
  rescale r i := .ok (i * r)
  noOp := ()
  feature _ i := .ok i
  rescaleBy s i := .ok (s * i)
  shapeOf i := .ok i
  scaleShape s x := s * x

/-- Models that are sums. -/
def orderLearner : Learner ℚ ℚ where
  build d := .ok d.sum
  increment m d := .ok (m + d.sum)
  trim _ m := m

def orderLearners : Learners ℚ ℚ ℚ ℚ ℚ where
  shape := orderLearner
  second := orderLearner
  warp r _ i _ := .ok (r + i)

def orderLevels : List (Level Unit) := [⟨(), 1 / 2, none, none⟩, ⟨(), 1, none, none⟩]

theorem order_reference : OrderFree orderOps.reference := fun d d' h v => by
  simp only [orderOps, h.sum_eq, h.length_eq]

theorem order_build : OrderFree orderLearner.build := fun d d' h v => by
  simp only [orderLearner, h.sum_eq]

theorem order_increment (m : ℚ) : OrderFree (orderLearner.increment m) := fun d d' h v => by
  simp only [orderLearner, h.sum_eq]

/-- **C133** fails with a `batch_size`, even if every part of the training does not depend on the order:
the reference shape is that of the first batch. -/
theorem C133_batches_violated :
    OrderFree orderOps.reference ∧ OrderFree orderLearner.build ∧ (∀ m, OrderFree (orderLearner.increment m)) ∧
    ∃ v v', construct orderOps orderLearners orderLevels none [1, 2] (some 1) = .ok v ∧
      construct orderOps orderLearners orderLevels none [2, 1] (some 1) = .ok v' ∧
      v.ref ≠ v'.ref ∧ v.shapeModels ≠ v'.shapeModels ∧ v.second ≠ v'.second :=
  ⟨order_reference, order_build, order_increment,
    ⟨some 1, [3 / 2, 3], [5 / 2, 5]⟩, ⟨some 2, [3, 6], [5, 10]⟩,
    by decide +kernel, by decide +kernel, by decide +kernel, by decide +kernel, by decide +kernel⟩

/-- Non-vacuity of `C133_construct` and `C133_train_partial`: without batches, both orders. -/
example : construct orderOps orderLearners orderLevels none [1, 2] none =
      construct orderOps orderLearners orderLevels none [2, 1] none ∧
    construct orderOps orderLearners orderLevels none [1, 2] none ≠
      construct orderOps orderLearners orderLevels none [1, 3] none ∧
    List.Forall₂ List.Perm (batches [1, 2, 3, (4 : ℕ)] (some 2)) (batches [2, 1, 4, 3] (some 2)) := by
  refine ⟨by decide +kernel, by decide +kernel, ?_⟩
  rw [show batches [1, 2, 3, 4] (some 2) = [[1, 2], [3, 4]] by decide +kernel,
    show batches [2, 1, 4, 3] (some 2) = [[2, 1], [4, 3]] by decide +kernel]
  exact .cons (List.Perm.swap 2 1 []) (.cons (List.Perm.swap 4 3 []) .nil)

/-- Non-vacuity of `C133_atm` and `C133_aps`. -/
example :
    atmConstruct orderOps ⟨orderLearner, fun r _ i => .ok (r + i)⟩ orderLevels none 3 [1, 2] none =
      .ok ⟨some (3 / 2), [3 / 2, 3], [(3 / 2) * (1 / 2) + 9 / 4, 3 / 2 + 9 / 2]⟩ ∧
    atmConstruct orderOps ⟨orderLearner, fun r _ i => .ok (r + i)⟩ orderLevels none 3 [2, 1] none =
      .ok ⟨some (3 / 2), [3 / 2, 3], [(3 / 2) * (1 / 2) + 9 / 4, 3 / 2 + 9 / 2]⟩ ∧
    ∃ L : ApsOps ℚ ℚ ℚ ℚ ℚ ℚ ℚ, Follows L.align ∧ OrderFree L.tree ∧ OrderFree L.shape.build ∧
      (∀ g, OrderFree (L.deformation g).build) ∧
      ∃ v, apsConstruct orderOps L orderLevels none [none, none] [1, 2] none = .ok v ∧
        apsConstruct orderOps L orderLevels none [none, none] [2, 1] none = .ok v := by
  refine ⟨by decide +kernel, by decide +kernel, ⟨orderLearner, fun _ => orderLearner, orderLearner,
    fun d => .ok (d.map (· + 1)), fun d => .ok d.sum, fun _ i s => .ok (i - s), true⟩, ?_, ?_, order_build,
    fun _ => order_build, ?_⟩
  · intro d d' h r hr
    cases hr
    exact ⟨_, rfl, h.map _⟩
  · exact fun d d' h v => by simp only [h.sum_eq]
  · exact ⟨⟨some (3 / 2), [some (9 / 2), some (9 / 2)], [17 / 4, 13 / 2], [17 / 4, 13 / 2], [0, 0]⟩,
      by decide +kernel, by decide +kernel⟩

/-! ### Experts -/

/-- **C133** fails for the experts of a CLM if a shape has fewer points than another: the first shape decides
how many experts there are. -/
theorem C133_experts_violated :
    ∃ ex ex' : List (List (Cf.Spectrum 1 1)), ex.Perm ex' ∧
      (∃ v, Cf.trainEnsemble (fun _ => ()) (fun _ => 1) 1 ex = .ok v) ∧
      Cf.trainEnsemble (fun _ : Cf.Ix 1 1 → ℂ => ()) (fun _ => 1) 1 ex' = .error .indexError := by
  refine ⟨[[fun _ _ => 1], [fun _ _ => 1, fun _ _ => 1]], [[fun _ _ => 1, fun _ _ => 1], [fun _ _ => 1]],
    List.Perm.swap _ _ [], ?_, ?_⟩
  · exact ⟨_, rfl⟩
  · rfl

/-! ### Supervised descent -/

/-- A regressor that learns nothing. -/
def orderRegOps : Sdm.RegOps ℤ ℤ Unit where
  train _ _ := .ok ()
  increment _ _ _ := .ok ()
  predict _ l := l.map fun _ => 0

/-- **C133** fails for supervised descent if the images do not all have the same number of initial shapes:
the number of the first image decides how much room there is. -/
theorem C133_supervised_descent_violated :
    ∃ T T' : List (Unit × ℤ × List ℤ), T.Perm T' ∧
      (∃ v, Sdm.train orderRegOps (Sdm.plain ℤ) (fun _ s => s) (fun _ => 0) 1 false []
        (T.map (·.1)) (T.map (·.2.1)) (T.map (·.2.2)) = .ok v) ∧
      Sdm.train orderRegOps (Sdm.plain ℤ) (fun _ s => s) (fun _ => 0) 1 false []
        (T'.map (·.1)) (T'.map (·.2.1)) (T'.map (·.2.2)) = .error .indexError :=
  ⟨[((), 5, [1, 2]), ((), 6, [3]), ((), 7, [4, 5, 6])], [((), 6, [3]), ((), 5, [1, 2]), ((), 7, [4, 5, 6])],
    List.Perm.swap _ _ _, ⟨_, rfl⟩, rfl⟩

end Menpofit
