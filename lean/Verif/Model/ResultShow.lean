import Verif.Model.Result
/-!
# Model of what a result shows: `view`, `__str__`, the plots, and the lists that the
AAM, unified and APS results add

The renderers of menpo (`plot_curve`, `view_image_multiple_landmarks`) are not modelled:
the model stops at the arguments that determine what is drawn.  Options of appearance
(line width, fonts, axes) are passed on unchanged by the code and left out.
-/

namespace Menpofit
namespace ResultShow

open Result

variable {S V C K Col : Type}

/-- What `view` hands to `view_image_multiple_landmarks`: the landmark groups stored in the
image, the list of groups to draw, the three lists of colours and the dictionary of
titles, `/repo/menpofit/result.py:545-549`, `:572-597`. -/
structure Figure (S Col : Type) where
  landmarks : List (String × S)
  groups : List String
  faces : List Col
  edges : List Col
  lines : List Col
  titles : List (String × String)
  renderImage : Bool

/-- The colours of one shape: markers' faces, markers' edges, lines.
See `/repo/menpofit/result.py:551-556` -/
structure Colours (Col : Type) where
  face : Col
  edge : Col
  line : Col

/-- `d[k] = v` on a dictionary: an existing key keeps its place.
See `/repo/menpofit/result.py:551-556` -/
def put {α : Type} (d : List (String × α)) (k : String) (v : α) : List (String × α) :=
  match d with
  | [] => [(k, v)]
  | (k', v') :: rest => if k' = k then (k, v) :: rest else (k', v') :: put rest k v

/-- The six statements that add one shape, `/repo/menpofit/result.py:551-556` (and the same
for the initial shape `:558-563` and the ground truth `:565-570`). -/
def Figure.add (f : Figure S Col) (name : String) (s : S) (c : Colours Col) (title : String) :
    Figure S Col :=
  { f with landmarks := put f.landmarks name s
           groups := f.groups ++ [name]
           faces := f.faces ++ [c.face]
           edges := f.edges ++ [c.edge]
           lines := f.lines ++ [c.line]
           titles := put f.titles name title }

/-- The empty figure: without an image the blank one is not rendered,
`/repo/menpofit/result.py:539-549`. -/
def blank (hasImage renderImage : Bool) : Figure S Col :=
  { landmarks := [], groups := [], faces := [], edges := [], lines := [], titles := [],
    renderImage := if hasImage then renderImage else false }

/-- `Result.view`, `/repo/menpofit/result.py:190-255`, `:538-633`: `hasImage` says whether
`self.image` is set. -/
def view (r : Res S V C) (hasImage renderImage renderFinal renderInitial renderGt : Bool)
    (cFinal cInitial cGt : Colours Col) : Figure S Col :=
  let f := blank hasImage renderImage
  let f := if renderFinal then f.add "final" r.final cFinal "Final" else f
  let f := match r.initial with
    | some s => if renderInitial then f.add "initial" s cInitial "Initial" else f
    | none => f
  match r.gt with
    | some s => if renderGt then f.add "groundtruth" s cGt "Groundtruth" else f
    | none => f

/-! ### Curves -/

/-- What a plot hands to `plot_curve`. See `/repo/menpofit/result.py:933-968` -/
structure Curve (K : Type) where
  x : List Nat
  y : List (List K)
  title : String
  xLabel : String
  yLabel : String

/-- `plot_errors`, `/repo/menpofit/result.py:793-821`, `:933-968`. -/
def plotErrors (r : Res S V C) (compute : S → S → K) : Except PyErr (Curve K) := do
  let es ← errors r compute
  return { x := List.range es.length, y := [es], title := "Fitting Errors per Iteration",
           xLabel := "Iteration", yLabel := "Fitting Error" }

/-- The label of a statistic, `/repo/menpofit/result.py:1157-1167`. -/
def statName (statType : String) : Except PyErr String :=
  if statType = "max" then .ok "Maximum"
  else if statType = "min" then .ok "Minimum"
  else if statType = "mean" then .ok "Mean"
  else if statType = "median" then .ok "Median"
  else .error .valueError

/-- `plot_displacements`, `/repo/menpofit/result.py:1014-1042`, `:1155-1205`. -/
def plotDisplacements {P : Type} [Field K] [LinearOrder K] (dist : P → P → K)
    (r : Res (List P) V C) (statType : String) : Except PyErr (Curve K) := do
  let name ← statName statType
  let ds ← displacementsStats dist statType r
  return { x := List.range ds.length, y := [ds], title := name ++ " displacement per Iteration",
           xLabel := "Iteration", yLabel := name ++ " Displacement" }

/-- `plot_costs`, `/repo/menpofit/result.py:1217-1244`, `:1348-1389`; the copy in
`/repo/menpofit/aps/result.py:146-155`, `:259-283` is the same. -/
def plotCosts (r : Res S V C) : Except PyErr (Curve C) :=
  match r.costs with
  | some cs => .ok { x := List.range cs.length, y := [cs], title := "Cost per Iteration",
                     xLabel := "Iteration", yLabel := "Cost Function" }
  | none => .error .valueError

/-! ### The printed summary -/

/-- The classes of results as far as `__str__` can tell them apart: those that have
`reconstructed_initial_error`, and where it looks for the reconstruction.
See `/repo/menpofit/result.py:637-644` -/
inductive Kind where
  | nonParametric
  | parametric
  | multiScale
  deriving DecidableEq

/-- `reconstructed_initial_shape`, `/repo/menpofit/result.py:1886-1897`, and the first of
`reconstructed_initial_shapes`, `/repo/menpofit/result.py:2538-2547`. -/
def reconstructedShape (k : Kind) (r : Res S V C) : Except PyErr S :=
  match k with
  | .nonParametric => .error .attributeError
  | .parametric => if r.initial.isSome then pyGet r.shapes 1 else pyGet r.shapes 0
  | .multiScale => do
    let all ← (reconIndices r).mapM (pyGet r.shapes)
    pyGet all 0

/-- `reconstructed_initial_error`, `/repo/menpofit/result.py:1912-1943` and `:2569-2600`. -/
def reconstructedError (k : Kind) (r : Res S V C) (compute : S → S → K) : Except PyErr K :=
  match r.gt with
  | none => .error .valueError
  | some g => do return compute (← reconstructedShape k r) g

/-- The lines of `Result.__str__` after the first, `/repo/menpofit/result.py:637-644`: a
caption and the number printed after it.  `compute` is the default error. -/
def summary (k : Kind) (r : Res S V C) (compute : S → S → K) :
    Except PyErr (List (String × K)) :=
  if r.gt.isSome then do
    let first ←
      if r.initial.isSome then do
        let e ← initialError r compute
        if k = .nonParametric then pure [("Initial error", e)]
        else do
          let e' ← reconstructedError k r compute
          pure [("Initial error", e), ("Reconstructed initial error", e')]
      else pure []
    let e ← finalError r compute
    return first ++ [("Final error", e)]
  else return []

/-- `Result.__str__`, `/repo/menpofit/result.py:635-645`; `nPoints` is `n_points` of a
shape and `fmt` renders a number with `{:.4f}`. -/
def str (k : Kind) (r : Res S V C) (compute : S → S → K) (nPoints : S → Nat)
    (fmt : K → String) : Except PyErr String := do
  let ls ← summary k r compute
  return ls.foldl (fun out (l : String × K) => out ++ "\n" ++ l.1 ++ ": " ++ fmt l.2)
    ("Fitting result of " ++ toString (nPoints r.final) ++ " landmark points.")

/-! ### The lists added by the AAM, unified and APS results -/

/-- A single-scale result with the lists its class adds: `appearance_parameters` of
`AAMAlgorithmResult` (`/repo/menpofit/aam/result.py:40-57`) and
`UnifiedAAMCLMAlgorithmResult` (`/repo/menpofit/unified_aam_clm/result.py:41-58`);
`appearance_costs` and `deformation_costs` of `APSAlgorithmResult`
(`/repo/menpofit/aps/result.py:46-74`). -/
structure Extended (S V C A : Type) where
  res : Res S V C
  extra : Option (List A)
  extra₂ : Option (List A) := none

variable {A : Type}

/-- `AAMResult.__init__`, `/repo/menpofit/aam/result.py:91-112`, and
`UnifiedAAMCLMResult.__init__`, `/repo/menpofit/unified_aam_clm/result.py:92-113`. -/
def aamMulti (results : List (Extended S V C A)) (nScales : Nat) (affine scale : List (S → S))
    (gt : Option S) : Except PyErr (Extended S V C A) := do
  let r ← multiParam (results.map (·.res)) nScales affine scale gt
  match results with
  | [] => .error .indexError
  | r0 :: _ =>
    let app ← concatCosts r0.extra (results.map (·.extra))
    return { res := r, extra := app }

/-- `APSResult.__init__`, `/repo/menpofit/aps/result.py:108-144`. -/
def apsMulti (results : List (Extended S V C A)) (nScales : Nat) (affine scale : List (S → S))
    (gt : Option S) : Except PyErr (Extended S V C A) := do
  let r ← multiParam (results.map (·.res)) nScales affine scale gt
  match results with
  | [] => .error .indexError
  | r0 :: _ =>
    let app ← concatCosts r0.extra (results.map (·.extra))
    let deform ← concatCosts r0.extra₂ (results.map (·.extra₂))
    return { res := r, extra := app, extra₂ := deform }

end ResultShow
end Menpofit
