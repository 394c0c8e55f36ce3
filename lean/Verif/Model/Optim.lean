import Verif.Model.Py
import Mathlib.Order.Defs.LinearOrder
/-!
# Model of the iterative optimisers

Every optimiser of the package (AAM: `ProjectOut.run`, `Simultaneous.run`,
`Alternating.run`, `ModifiedAlternating.run`, `Wiberg.run`; ATM:
`Compositional.run`; APS: `Inverse.run`, `Forward.run`; CLM:
`ActiveShapeModel.run`, `RegularisedLandmarkMeanShift.run`; unified:
`ProjectOutRegularisedLandmarkMeanShift.run`,
`AlternatingRegularisedLandmarkMeanShift.run`; Lucas-Kanade: the three `run`s)
has the same skeleton; what differs is the body of the loop, a parameter
`step` of the model.
-/

namespace Menpofit
namespace Optim

/-- The body of an optimiser's loop.  `σ` is everything that survives an iteration:
the state of the transform, the warped image, the appearance parameters and the
(mutable) caches of the algorithm object.  `step` performs one iteration and
returns the new state (also when it raises) and the quantity that is compared
with `self.eps`. See `/repo/menpofit/aam/algorithm/lk.py:857-883` -/
structure Machine (σ S V C E : Type) where
  step : σ → σ × Except PyErr E
  /-- `self.transform.target` -/
  shape : σ → S
  /-- `self.transform.as_vector()` -/
  params : σ → V
  /-- the cost computed from the current error -/
  cost : σ → C

/-- The lists built by a run. See `/repo/menpofit/aam/algorithm/lk.py:836-856` -/
structure Trace (S V C : Type) where
  shapes : List S
  params : List V
  costs : Option (List C)

variable {σ S V C E : Type} [LinearOrder E]

/-- `eps > self.eps`, where `none` is the initial `eps = np.Inf`.
See `/repo/menpofit/aam/algorithm/lk.py:857` -/
def goOn (tol : E) : Option E → Prop
  | none => True
  | some e => tol < e

instance (tol : E) (e : Option E) : Decidable (goOn tol e) := by
  cases e <;> (unfold goOn; infer_instance)

/-- `while k < max_iters and eps > self.eps`, e.g.
`/repo/menpofit/aam/algorithm/lk.py:857-883` (also `:1030-1063`, `:1206-1258`,
`:1381-1421`, `:1545-1589`), `/repo/menpofit/atm/algorithm.py:285-311`,
`/repo/menpofit/aps/algorithm/gn.py:464-498` and `:602-648`,
`/repo/menpofit/unified_aam_clm/algorithm.py:235-272` and `:387-441`,
`/repo/menpofit/clm/algorithm/gd.py:154-201` and `:297-340` (no costs there):
one step, append the new parameters, shape and (if requested) cost, compare,
increase the counter.  `lk = true` is the variant of
`/repo/menpofit/lk/algorithm.py:117-155` (also `:250-282`, `:381-407`), whose
`residual.cost_closure()` is evaluated on the error image computed *before* the
update. -/
def loop (m : Machine σ S V C E) (lk : Bool) (maxIters : Int) (tol : E) (k : Int)
    (eps : Option E) (s : σ) (tr : Trace S V C) : σ × Except PyErr (Trace S V C) :=
  if _h : k < maxIters ∧ goOn tol eps then
    match m.step s with
    | (s', .error e) => (s', .error e)
    | (s', .ok eps') =>
      loop m lk maxIters tol (k + 1) (some eps') s'
        ⟨tr.shapes ++ [m.shape s'], tr.params ++ [m.params s'],
          tr.costs.map (· ++ [if lk then m.cost s else m.cost s'])⟩
  else (s, .ok tr)
termination_by (maxIters - k).toNat
decreasing_by omega

/-- A run after `set_target(initial_shape)` and the first warp: the lists start with
the initial state; with `return_costs` the cost list starts with the cost of the
initial state (`/repo/menpofit/aam/algorithm/lk.py:833-857`) or, for
Lucas-Kanade, empty (`/repo/menpofit/lk/algorithm.py:103-114`). -/
def run (m : Machine σ S V C E) (lk : Bool) (maxIters : Int) (tol : E) (returnCosts : Bool)
    (s : σ) : σ × Except PyErr (Trace S V C) :=
  loop m lk maxIters tol 0 none s
    ⟨[m.shape s], [m.params s],
      if returnCosts then some (if lk then [] else [m.cost s]) else none⟩

end Optim
end Menpofit
