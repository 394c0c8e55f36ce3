import Verif.Model.Py
import Verif.Model.Result
import Mathlib.Algebra.BigOperators.Group.List.Basic
import Mathlib.Algebra.Group.Basic
/-!
# Training of supervised descent algorithms

Models `/repo/menpofit/sdm/algorithm/base.py:74-120`, `:218-324` and `:416-498`.  Shape vectors are
of type `V`, the quantities that are regressed of type `W`: the shape vectors themselves
(non-parametric) or the parameters of a shape model (parametric).  The regressors and the features
of one shape in one image are parameters.  Shapes are updated in place in the code; here the new
shapes are returned.  Printing is not modelled.
-/

namespace Menpofit
namespace Sdm

/-- `proj` is `shape.as_vector()`, or `model.set_target(shape)` followed by `model.as_vector()`;
`inst` is `_from_vector_inplace`, or the target of the model with the given parameters.
See `/repo/menpofit/sdm/algorithm/base.py:283-293` -/
structure Coord (V W : Type) where
  proj : V → W
  inst : W → V

/-- The non-parametric algorithms regress the shape vectors.
See `/repo/menpofit/sdm/algorithm/nonparametric.py:30-36` -/
def plain (V : Type) : Coord V V := ⟨id, id⟩

/-- A regressor class. See `/repo/menpofit/sdm/algorithm/base.py:102-110` -/
structure RegOps (Row W Reg : Type) where
  train : List Row → List W → Except PyErr Reg
  increment : Reg → List Row → List W → Except PyErr Reg
  predict : Reg → List Row → List W

variable {V W Row Reg I : Type} [AddCommGroup W]

/-- The rows written by the double loop, `/repo/menpofit/sdm/algorithm/base.py:283-291` and
`:445-457`: target and ground truth of the shapes of each image in turn. -/
def deltaRows (co : Coord V W) : List V → List (List V) → List (W × W)
  | g :: gs, ss :: sss =>
    ss.map (fun s => (co.proj g - co.proj s, co.proj g)) ++ deltaRows co gs sss
  | _, _ => []

/-- `compute_non_parametric_delta_x`, `/repo/menpofit/sdm/algorithm/base.py:274-293`, and
`compute_parametric_delta_x`, `:441-459`.  The arrays are allocated uninitialised (`junk`) with
as many rows as images times shapes of the first image. -/
def computeDelta (co : Coord V W) (junk : Nat → W) (gts : List V) (cur : List (List V)) :
    Except PyErr (List W × List W) :=
  match gts, cur with
  | _ :: _, first :: _ =>
    let n := gts.length * first.length
    let rows := deltaRows co gts cur
    if n < rows.length then .error .indexError
    else
      let rest := (List.range (n - rows.length)).map junk
      .ok (rows.map Prod.fst ++ rest, rows.map Prod.snd ++ rest)
  | _, _ => .error .indexError

/-- The inner loop of `update_non_parametric_estimates`,
`/repo/menpofit/sdm/algorithm/base.py:316-324`, and `update_parametric_estimates`, `:486-498`,
from row `j` on: the new shapes and the new rows of `delta_x`. -/
def updateShapes (co : Coord V W) (est gt : List W) : Nat → List V → Except PyErr (List V × List W)
  | _, [] => .ok ([], [])
  | j, s :: ss =>
    match est[j]?, gt[j]? with
    | some e, some g => do
      let cx := co.proj s + e
      let r ← updateShapes co est gt (j + 1) ss
      return (co.inst cx :: r.1, (g - cx) :: r.2)
    | _, _ => .error .indexError

/-- The outer loop, `/repo/menpofit/sdm/algorithm/base.py:314-324` and `:484-498`. -/
def updateAll (co : Coord V W) (est gt : List W) :
    Nat → List (List V) → Except PyErr (List (List V) × List W)
  | _, [] => .ok ([], [])
  | j, ss :: sss => do
    let r ← updateShapes co est gt j ss
    let q ← updateAll co est gt (j + ss.length) sss
    return (r.1 :: q.1, r.2 ++ q.2)

/-- `features_per_image`, `/repo/menpofit/sdm/algorithm/base.py:212-215` and `:248-251` (and the
loops of `/repo/menpofit/sdm/algorithm/parametricappearance.py:59-65`).  `np.vstack` of nothing
raises `ValueError`. -/
def featureRows (feat : I → V → Row) : List I → List (List V) → Except PyErr (List Row)
  | [], _ => .ok []
  | _ :: _, [] => .error .indexError
  | im :: ims, ss :: sss =>
    if ss.length = 0 then .error .valueError
    else do
      let r ← featureRows feat ims sss
      return ss.map (feat im) ++ r

/-- What happens in one stage of the cascade. See `/repo/menpofit/sdm/algorithm/base.py:90-118` -/
structure Stage (V W Row : Type) where
  before : List (List V)
  features : List Row
  delta : List W
  predicted : List W
  after : List (List V)

/-- The cascade, `/repo/menpofit/sdm/algorithm/base.py:90-118`: `m` stages from stage `k` on. -/
def stages (ops : RegOps Row W Reg) (co : Coord V W) (feat : I → V → Row) (ims : List I)
    (gt : List W) (increment : Bool) : Nat → Nat → List Reg → List W → List (List V) →
    Except PyErr (List Reg × List (List V) × List (Stage V W Row))
  | 0, _, regs, _, cur => .ok (regs, cur, [])
  | m + 1, k, regs, delta, cur => do
    let features ← featureRows feat ims cur
    let r ← (if increment then
        match regs[k]? with
        | some r => ops.increment r features delta
        | none => .error .indexError
      else ops.train features delta : Except PyErr Reg)
    let regs := if increment then regs.set k r else regs ++ [r]
    let predicted := ops.predict r features
    let u ← updateAll co predicted gt 0 cur
    let rest ← stages ops co feat ims gt increment m (k + 1) regs (u.2 ++ delta.drop u.2.length) u.1
    return (rest.1, rest.2.1, ⟨cur, features, delta, predicted, u.1⟩ :: rest.2.2)

/-- `_train`, `/repo/menpofit/sdm/algorithm/base.py:74-120`: the regressors, the final shapes and
the stages. -/
def train (ops : RegOps Row W Reg) (co : Coord V W) (feat : I → V → Row) (junk : Nat → W)
    (nIterations : Nat) (increment : Bool) (regs : List Reg) (ims : List I) (gts : List V)
    (cur : List (List V)) : Except PyErr (List Reg × List (List V) × List (Stage V W Row)) :=
  if increment = true ∧ regs.length = 0 then .error .valueError
  else do
    let d ← computeDelta co junk gts cur
    stages ops co feat ims d.2 increment nIterations 0 (if increment then regs else []) d.1 cur

/-- One step of `fit_non_parametric_shape`, `/repo/menpofit/sdm/algorithm/base.py:640-651`; the
prediction for a single row. -/
def fitStep (ops : RegOps Row W Reg) (co : Coord V W) (feat : I → V → Row) (im : I) (r : Reg)
    (s : V) : Except PyErr V :=
  match ops.predict r [feat im s] with
  | [dx] => .ok (co.inst (co.proj s + dx))
  | _ => .error .valueError

/-- The shapes of `fit_non_parametric_shape`, `/repo/menpofit/sdm/algorithm/base.py:636-651`. -/
def fitShapes (ops : RegOps Row V Reg) [AddCommGroup V] (feat : I → V → Row) (im : I)
    (regs : List Reg) (init : V) : Except PyErr (List V) :=
  Result.cascade (fitStep ops (plain V) feat im) init regs

/-- One step of `fit_parametric_shape`, `/repo/menpofit/sdm/algorithm/base.py:581-595`, on the
parameters. -/
def fitParamStep (ops : RegOps Row W Reg) (co : Coord V W) (feat : I → V → Row) (im : I) (r : Reg)
    (p : W) : Except PyErr W :=
  match ops.predict r [feat im (co.inst p)] with
  | [dx] => .ok (p + dx)
  | _ => .error .valueError

/-- The shapes of `fit_parametric_shape`, `/repo/menpofit/sdm/algorithm/base.py:574-595`. -/
def fitParamShapes (ops : RegOps Row W Reg) (co : Coord V W) (feat : I → V → Row) (im : I)
    (regs : List Reg) (init : V) : Except PyErr (List V) := do
  let ps ← Result.cascade (fitParamStep ops co feat im) (co.proj init) regs
  return ps.map co.inst

end Sdm
end Menpofit
