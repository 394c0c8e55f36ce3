import Verif.Model.Py
import Verif.Model.Stats
/-!
# Model of the result classes

`/repo/menpofit/result.py`, `/repo/menpofit/lk/result.py` and the cascaded
regression loops that build results without an optimiser.  Images are left out
(they are only passed through); shapes are an abstract type `S`.
-/

namespace Menpofit
namespace Result

/-- The attributes of an iterative result,
`/repo/menpofit/result.py:59-66`, `:687-693`, `:1849`, `:2437-2438`.
`params` is `_shape_parameters`, absent for non-parametric results. -/
structure Res (S V C : Type) where
  final : S
  initial : Option S
  gt : Option S
  shapes : List S
  nIters : Int
  costs : Option (List C)
  params : Option (List V) := none
  perScale : List Int := []
  nScales : Nat := 0

variable {S V C : Type}

/-- `NonParametricIterativeResult.__init__`, `/repo/menpofit/result.py:678-693`
(`shapes[-1]` of an empty list raises). -/
def nonParam (shapes : List S) (initial gt : Option S) (costs : Option (List C)) :
    Except PyErr (Res S V C) :=
  match shapes.getLast? with
  | none => .error .indexError
  | some f => .ok { final := f, initial := initial, gt := gt, shapes := initial.toList ++ shapes,
                    nIters := shapes.length, costs := costs }

/-- `ParametricIterativeResult.__init__`, `/repo/menpofit/result.py:1839-1862`. -/
def param (shapes : List S) (params : List V) (initial gt : Option S) (costs : Option (List C)) :
    Except PyErr (Res S V C) := do
  let r : Res S V C ← nonParam shapes initial gt costs
  return { r with params := some params, nIters := r.nIters - 1 }

/-- `_rescale_shapes_to_reference`, `/repo/menpofit/result.py:13-18`. -/
def rescale (shapes : List S) (affine scale : S → S) : List S :=
  shapes.map fun s => affine (scale s)

/-- The loop over the scales, `/repo/menpofit/result.py:2416-2431`: the concatenated
shapes; a missing transform raises `IndexError`. -/
def concatShapes : List (Res S V C) → List (S → S) → List (S → S) → Except PyErr (List S)
  | [], _, _ => .ok []
  | r :: rs, a :: as, t :: ts => do
    let own := if r.initial.isNone then rescale r.shapes a t else rescale r.shapes.tail a t
    let rest ← concatShapes rs as ts
    return own ++ rest
  | _ :: _, _, _ => .error .indexError

/-- `self._costs += r.costs` for every result (`None` raises `TypeError`),
`/repo/menpofit/result.py:2443-2447`. -/
def concatOpt {α : Type} : List (Option (List α)) → Except PyErr (List α)
  | [] => .ok []
  | none :: _ => .error .typeError
  | some l :: ls => do return l ++ (← concatOpt ls)

/-- The initial shape in image coordinates, `/repo/menpofit/result.py:2405-2412`. -/
def firstInitial (initial : Option S) (affine scale : List (S → S)) :
    Except PyErr (Option S) :=
  match initial with
  | none => .ok none
  | some s => match affine, scale with
    | a :: _, t :: _ => .ok (some (a (t s)))
    | _, _ => .error .indexError

/-- The costs, `/repo/menpofit/result.py:2443-2447`. -/
def concatCosts {α : Type} (first : Option (List α)) (all : List (Option (List α))) :
    Except PyErr (Option (List α)) :=
  match first with
  | none => .ok none
  | some _ => (concatOpt all).map some

/-- `MultiScaleNonParametricIterativeResult.__init__`,
`/repo/menpofit/result.py:2385-2447`.  `results` is a list (a single result is
wrapped by the caller); `nScales` is `len(scales)`. -/
def multiNonParam (results : List (Res S V C)) (nScales : Nat) (affine scale : List (S → S))
    (gt : Option S) : Except PyErr (Res S V C) :=
  if results.length ≠ nScales then .error .valueError
  else match results with
  | [] => .error .indexError
  | r0 :: _ => do
    let initial ← firstInitial r0.initial affine scale
    let shapes ← concatShapes results affine scale
    let r : Res S V C ← nonParam shapes initial gt none
    let costs ← concatCosts r0.costs (results.map (·.costs))
    return { r with perScale := results.map (·.nIters), nScales := nScales, costs := costs }

/-- `MultiScaleParametricIterativeResult.__init__`,
`/repo/menpofit/result.py:2502-2525`.  A result without `shape_parameters` has no
such attribute. -/
def multiParam (results : List (Res S V C)) (nScales : Nat) (affine scale : List (S → S))
    (gt : Option S) : Except PyErr (Res S V C) := do
  let r ← multiNonParam results nScales affine scale gt
  let ps ← (concatOpt (results.map (·.params))).mapError fun _ => PyErr.attributeError
  return { r with params := some ps, nIters := r.nIters - nScales }

/-- `LucasKanadeResult.__init__`, `/repo/menpofit/lk/result.py:78-88`: corrects `n_iters`
once more. -/
def lkMulti (results : List (Res S V C)) (nScales : Nat) (affine scale : List (S → S))
    (gt : Option S) : Except PyErr (Res S V C) := do
  let r ← multiParam results nScales affine scale gt
  return { r with nIters := r.nIters - nScales }

/-- `_reconstruction_indices` of a single-scale parametric result,
`/repo/menpofit/result.py:1899-1910`. -/
def reconIndex (r : Res S V C) : List Int := if r.initial.isSome then [1] else [0]

/-- The loop of `_reconstruction_indices`: `prev` is `ids[i - 1]`.
See `/repo/menpofit/result.py:2549-2567` -/
def reconLoop (prev : Int) : List Int → List Int
  | [] => []
  | n :: ns => (prev + n + 1) :: reconLoop (prev + n + 1) ns

/-- `_reconstruction_indices` of a multi-scale parametric result,
`/repo/menpofit/result.py:2549-2567` (uses the first `n_scales - 1` entries of
`n_iters_per_scale`). -/
def reconIndices (r : Res S V C) : List Int :=
  let v : Int := if r.initial.isSome then 1 else 0
  if r.nScales = 0 then [] else v :: reconLoop v (r.perScale.take (r.nScales - 1))

/-- `Result.to_result` and its subclass, `/repo/menpofit/result.py:724-759`: final, initial
and ground-truth shape. -/
def toResult (r : Res S V C) (passInitial passGt : Bool) : S × Option S × Option S :=
  (r.final, if passInitial then r.initial else none, if passGt then r.gt else none)

/-! ### Errors and displacements -/

/-- `errors`, `/repo/menpofit/result.py:761-791`. -/
def errors {K : Type} (r : Res S V C) (compute : S → S → K) : Except PyErr (List K) :=
  match r.gt with
  | some g => .ok (r.shapes.map fun t => compute t g)
  | none => .error .valueError

/-- `final_error`, `/repo/menpofit/result.py:117-147`. -/
def finalError {K : Type} (r : Res S V C) (compute : S → S → K) : Except PyErr K :=
  match r.gt with
  | some g => .ok (compute r.final g)
  | none => .error .valueError

/-- `initial_error`, `/repo/menpofit/result.py:149-188`. -/
def initialError {K : Type} (r : Res S V C) (compute : S → S → K) : Except PyErr K :=
  match r.initial with
  | none => .error .valueError
  | some i => match r.gt with
    | none => .error .valueError
    | some g => .ok (compute i g)

/-- `displacements`, `/repo/menpofit/result.py:970-980`: shapes are lists of points of
equal length, `dist` the distance of two points. -/
def displacements {P K : Type} (dist : P → P → K) (r : Res (List P) V C) : List (List K) :=
  List.zipWith (fun s1 s2 => List.zipWith dist s1 s2) r.shapes r.shapes.tail

/-- `displacements_stats`, `/repo/menpofit/result.py:982-1012`. -/
def displacementsStats {P K : Type} [Field K] [LinearOrder K] (dist : P → P → K)
    (statType : String) (r : Res (List P) V C) : Except PyErr (List K) :=
  if statType = "mean" then .ok ((displacements dist r).map Stats.npMean)
  else if statType = "median" then .ok ((displacements dist r).map Stats.npMedian)
  else if statType = "max" then .ok ((displacements dist r).map Stats.npMax)
  else if statType = "min" then .ok ((displacements dist r).map Stats.npMin)
  else .error .valueError

/-! ### Labels of the visualised iterations -/

/-- The landmark groups made by `view_iterations`.  `iteration k` stands for
`'iteration {:0{}d}'.format(k, n_digits)`, an injective rendering of `k`. -/
inductive Label where
  | initial | reconstruction | final
  | iteration (k : Int)
  deriving DecidableEq, Repr

/-- The argument `iters`. See `/repo/menpofit/result.py:21-28` -/
inductive Iters where
  | all
  | one (j : Int)
  | list (l : List Int)
  | other

/-- `_parse_iters`, `/repo/menpofit/result.py:21-28`. -/
def parseIters (i : Iters) (nShapes : Nat) : Except PyErr (List Int) :=
  match i with
  | .all => .ok ((List.range nShapes).map fun (n : Nat) => (n : Int))
  | .one j => .ok [j]
  | .list l => .ok l
  | .other => .error .valueError

/-- Python indexing of a list. See `/repo/menpofit/result.py:1718-1730` -/
def pyGet {α : Type} (l : List α) (j : Int) : Except PyErr α :=
  let k := if j < 0 then j + l.length else j
  if k < 0 then .error .indexError
  else match l[k.toNat]? with
    | some x => .ok x
    | none => .error .indexError

/-- The last index of `ids` whose entry is at most `j`. See `/repo/menpofit/result.py:31-33` -/
def lastLe (j : Int) : List Int → Option Nat
  | [] => none
  | i :: is => match lastLe j is with
    | some k => some (k + 1)
    | none => if i ≤ j then some 0 else none

/-- `_get_scale_of_iter`, `/repo/menpofit/result.py:31-33`. -/
def scaleOfIter (j : Int) (ids : List Int) : Except PyErr Nat :=
  match lastLe j ids with
  | some k => .ok k
  | none => .error .indexError

/-- Body of the loop of `NonParametricIterativeResult.view_iterations` (inherited by the
multi-scale non-parametric result), `/repo/menpofit/result.py:1718-1730`. -/
def labelNon (r : Res S V C) (j : Int) : Except PyErr (Label × S) :=
  let offset : Int := if r.initial.isSome then 0 else 1
  match (if j = 0 then r.initial else none) with
  | some s => .ok (.initial, s)
  | none =>
    if j = r.shapes.length - 1 then .ok (.final, r.final)
    else do return (.iteration (j + offset), ← pyGet r.shapes j)

/-- Body of the loops of the parametric `view_iterations`,
`/repo/menpofit/result.py:2276-2289` and `:2933-2946`; `ids` are the reconstruction
indices. -/
def labelPar (ids : List Int) (offset : Int) (r : Res S V C) (j : Int) :
    Except PyErr (Label × S) :=
  match (if j = 0 then r.initial else none) with
  | some s => .ok (.initial, s)
  | none =>
    if j ∈ ids then do return (.reconstruction, ← pyGet r.shapes j)
    else if j = r.shapes.length - 1 then .ok (.final, r.final)
    else do
      let s ← scaleOfIter j ids
      return (.iteration (j - s + offset), ← pyGet r.shapes j)

/-- The assignments `image.landmarks[name] = shape` made by `view_iterations` of a
non-parametric result, in order. See `/repo/menpofit/result.py:1718-1730` -/
def viewNon (r : Res S V C) (iters : Iters) : Except PyErr (List (Label × S)) := do
  (← parseIters iters r.shapes.length).mapM (labelNon r)

/-- The same for a single-scale parametric result; offsets
`/repo/menpofit/result.py:2273-2275`. -/
def viewPar (r : Res S V C) (iters : Iters) : Except PyErr (List (Label × S)) := do
  (← parseIters iters r.shapes.length).mapM
    (labelPar (reconIndex r) (if r.initial.isSome then 1 else 0) r)

/-- The same for a multi-scale parametric result; offsets
`/repo/menpofit/result.py:2930-2932`. -/
def viewMulti (r : Res S V C) (iters : Iters) : Except PyErr (List (Label × S)) := do
  (← parseIters iters r.shapes.length).mapM
    (labelPar (reconIndices r) (if r.initial.isSome then -1 else -2) r)

/-- The landmark groups of the image that is shown: later assignments overwrite.
See `/repo/menpofit/result.py:1718-1730` -/
def shown (as : List (Label × S)) (l : Label) : Option S :=
  as.foldl (fun acc x => if x.1 = l then some x.2 else acc) none

/-! ### Cascaded regression -/

/-- The shapes after each regressor of a cascade.
See `/repo/menpofit/sdm/algorithm/base.py:640-651` -/
def cascade {R X : Type} (step : R → X → Except PyErr X) : X → List R → Except PyErr (List X)
  | _, [] => .ok []
  | x, r :: rs => do
    let x' ← step r x
    return x' :: (← cascade step x' rs)

/-- `fit_non_parametric_shape`, `/repo/menpofit/sdm/algorithm/base.py:603-656`; `step r s`
is the shape after predicting with regressor `r` at the shape `s`. -/
def fitNonParametric {R : Type} (step : R → S → Except PyErr S) (regs : List R) (init : S)
    (gt : Option S) : Except PyErr (Res S V C) := do
  let shapes ← cascade step init regs
  nonParam shapes (some init) gt none

/-- `fit_parametric_shape`, `/repo/menpofit/sdm/algorithm/base.py:541-600`: the list of shapes
does not contain the reconstruction of the initial shape, the list of parameters
does.  `project` is `set_target` followed by `as_vector`, `shape` the shape of
given parameters. -/
def fitParametric {R : Type} (project : S → V) (shape : V → S) (step : R → V → Except PyErr V)
    (regs : List R) (init : S) (gt : Option S) : Except PyErr (Res S V C) := do
  let p := project init
  let ps ← cascade step p regs
  param (ps.map shape) (p :: ps) (some init) gt none

/-- `SupervisedDescentAlgorithm.run` of the AAM, `/repo/menpofit/aam/algorithm/sd.py:109-163`. -/
def fitAamSd {R : Type} (project : S → V) (shape : V → S) (step : R → V → Except PyErr V)
    (regs : List R) (init : S) (gt : Option S) : Except PyErr (Res S V C) := do
  let p := project init
  let ps ← cascade step p regs
  param (shape p :: ps.map shape) (p :: ps) (some init) gt none

end Result
end Menpofit
