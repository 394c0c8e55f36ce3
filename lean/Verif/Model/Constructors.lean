import Verif.Model.Checks
/-!
# Options given to the constructors

Models the part of every constructor that checks the options and stores them, up to the call of
`_train`.  Arguments that are stored as they come (`transform`, `reference_shape`,
`cosine_mask`, `sample_offsets`, `use_procrustes`, ...) are left out here.
-/

namespace Menpofit
namespace Ctor
open Checks

/-- `len(x)`.  Not a function of menpofit: a value without a length raises `TypeError`.
See `/repo/menpofit/checks.py:110` -/
def pyLen (v : Py) : Except PyErr Nat :=
  match v.elems? with
  | some l => .ok l.length
  | none => .error .typeError

/-- Options of the holistic AAMs (and, with `maxSecond` unused, of the ATMs).
See `/repo/menpofit/aam/base.py:139-161` -/
structure Args where
  diagonal : Option Rat
  scales : Py
  holistic : Py
  shapeCls : Py
  maxShape : Py
  maxSecond : Py := .none

/-- What is stored of them. See `/repo/menpofit/aam/base.py:149-161` -/
structure Opts where
  scales : List Py
  holistic : List Py
  shapeCls : List Py
  maxShape : List Py
  maxSecond : List Py

/-- `AAM.__init__`, `/repo/menpofit/aam/base.py:139-161` (also of `LinearAAM`, which calls it with
the same options, 769-797). -/
def aam (a : Args) : Except PyErr Opts := do
  let _ ← checkDiagonal a.diagonal
  let scales ← checkScales a.scales
  let n := scales.length
  let holistic ← checkCallable a.holistic n
  let shapeCls ← checkCallable a.shapeCls n
  let maxShape ← checkMaxComponents a.maxShape n
  let maxSecond ← checkMaxComponents a.maxSecond n
  return ⟨scales, holistic, shapeCls, maxShape, maxSecond⟩

/-- `MaskedAAM.__init__`, `/repo/menpofit/aam/base.py:649-665`, and
`LinearMaskedAAM.__init__`, 959-975. -/
def maskedAam (a : Args) (patchShape : PatchArg) : Except PyErr (List PatchArg × Opts) := do
  let scales ← checkScales a.scales
  let p ← checkPatchShape patchShape scales.length
  let o ← aam a
  return (p, o)

/-- `PatchAAM.__init__`, `/repo/menpofit/aam/base.py:1146-1163`. -/
def patchAam (a : Args) (patchShape : PatchArg) (normalisation : Py) :
    Except PyErr (List PatchArg × List Py × Opts) := do
  let scales ← checkScales a.scales
  let p ← checkPatchShape patchShape scales.length
  let f ← checkCallable normalisation scales.length
  let o ← aam a
  return (p, f, o)

/-- `ATM.__init__`, `/repo/menpofit/atm/base.py:120-138`: the number of scales is the length of
the argument, taken before it is checked. -/
def atm (a : Args) : Except PyErr Opts := do
  let _ ← checkDiagonal a.diagonal
  let n ← pyLen a.scales
  let scales ← checkScales a.scales
  let holistic ← checkCallable a.holistic n
  let maxShape ← checkMaxComponents a.maxShape n
  let shapeCls ← checkCallable a.shapeCls n
  return ⟨scales, holistic, shapeCls, maxShape, []⟩

/-- `MaskedATM.__init__`, `/repo/menpofit/atm/base.py:539-554`, `LinearMaskedATM.__init__`,
823-838, and `PatchATM.__init__`, 988-1004 (whose `patch_normalisation` is stored unchecked). -/
def patchAtm (a : Args) (patchShape : PatchArg) : Except PyErr (List PatchArg × Opts) := do
  let n ← pyLen a.scales
  let p ← checkPatchShape patchShape n
  let o ← atm a
  return (p, o)

/-- Options of a CLM. See `/repo/menpofit/clm/base.py:128-144` -/
structure ClmArgs where
  diagonal : Option Rat
  scales : Py
  holistic : Py
  expertCls : Py
  shapeCls : Py
  maxShape : Py
  patchShape : PatchArg
  contextShape : PatchArg

/-- What is stored of them. See `/repo/menpofit/clm/base.py:128-144` -/
structure ClmOpts where
  scales : List Py
  holistic : List Py
  expertCls : List Py
  shapeCls : List Py
  maxShape : List Py
  patchShape : List PatchArg
  contextShape : List PatchArg

/-- `CLM.__init__`, `/repo/menpofit/clm/base.py:128-144`: the number of scales is the length of
the argument. -/
def clm (a : ClmArgs) : Except PyErr ClmOpts := do
  let scales ← checkScales a.scales
  let n ← pyLen a.scales
  let _ ← checkDiagonal a.diagonal
  let holistic ← checkCallable a.holistic n
  let expertCls ← checkCallable a.expertCls n
  let shapeCls ← checkCallable a.shapeCls n
  let maxShape ← checkMaxComponents a.maxShape n
  let patchShape ← checkPatchShape a.patchShape n
  let contextShape ← checkPatchShape a.contextShape n
  return ⟨scales, holistic, expertCls, shapeCls, maxShape, patchShape, contextShape⟩

/-- `UnifiedAAMCLM.__init__`, `/repo/menpofit/unified_aam_clm/base.py:151-175`; the limit of the
appearance model is returned beside the rest. -/
def unified (a : ClmArgs) (maxAppearance : Py) : Except PyErr (ClmOpts × List Py) := do
  let _ ← checkDiagonal a.diagonal
  let scales ← checkScales a.scales
  let n := scales.length
  let holistic ← checkCallable a.holistic n
  let shapeCls ← checkCallable a.shapeCls n
  let maxShape ← checkMaxComponents a.maxShape n
  let maxApp ← checkMaxComponents maxAppearance n
  let expertCls ← checkCallable a.expertCls n
  let patchShape ← checkPatchShape a.patchShape n
  let contextShape ← checkPatchShape a.contextShape n
  return (⟨scales, holistic, expertCls, shapeCls, maxShape, patchShape, contextShape⟩, maxApp)

/-- Options of an APS. See `/repo/menpofit/aps/base.py:155-191` -/
structure ApsArgs where
  diagonal : Option Rat
  scales : Py
  holistic : Py
  normalisation : Py
  maxShape : Py
  nAppearance : Py
  patchShape : PatchArg
  appearanceGraph : Py
  shapeGraph : Py
  deformationGraph : Py

/-- What is stored of them. See `/repo/menpofit/aps/base.py:155-191` -/
structure ApsOpts where
  scales : List Py
  holistic : List Py
  normalisation : List Py
  maxShape : List Py
  nAppearance : List Py
  patchShape : List PatchArg
  appearanceGraph : List Py
  shapeGraph : List Py
  deformationGraph : List Py

/-- `type(g) in graph_types` for graph classes given by their identities,
`/repo/menpofit/checks.py:502-513`. -/
def isGraph (types : List Nat) : Py → Bool
  | .obj ty _ => types.contains ty
  | _ => false

/-- `GenerativeAPS.__init__`, `/repo/menpofit/aps/base.py:155-191`.  `undirected`, `directed` and
`tree` are the identities of the graph classes. -/
def aps (undirected directed tree : Nat) (a : ApsArgs) : Except PyErr ApsOpts := do
  let _ ← checkDiagonal a.diagonal
  let scales ← checkScales a.scales
  let n := scales.length
  let holistic ← checkCallable a.holistic n
  let patchShape ← checkPatchShape a.patchShape n
  let normalisation ← checkCallable a.normalisation n
  let maxShape ← checkMaxComponents a.maxShape n
  let nAppearance ← checkMaxComponents a.nAppearance n
  let g ← checkGraph (isGraph [undirected]) a.appearanceGraph n
  let s ← checkGraph (isGraph [undirected]) a.shapeGraph n
  let d ← checkGraph (isGraph [directed, tree]) a.deformationGraph n
  return ⟨scales, holistic, normalisation, maxShape, nAppearance, patchShape, g, s, d⟩

/-- Options of a supervised descent fitter; `batchSize` is whether one was given.
See `/repo/menpofit/sdm/fitter.py:156-179` -/
structure SdmArgs where
  batchSize : Option Nat
  diagonal : Option Rat
  scales : Py
  patchFeatures : Py
  sdCls : Py
  holistic : Py
  patchShape : PatchArg
  nIterations : MaxIters

/-- What is stored of them. See `/repo/menpofit/sdm/fitter.py:156-179` -/
structure SdmOpts where
  scales : List Py
  patchFeatures : List Py
  sdCls : List Py
  holistic : List Py
  patchShape : List PatchArg
  nIterations : List Int

/-- `SupervisedDescentFitter.__init__`, `/repo/menpofit/sdm/fitter.py:156-179`. -/
def sdm (a : SdmArgs) : Except PyErr SdmOpts := do
  if a.batchSize.isSome then .error .notImplementedError
  let _ ← checkDiagonal a.diagonal
  let scales ← checkScales a.scales
  let n := scales.length
  let patchFeatures ← checkCallable a.patchFeatures n
  let sdCls ← checkCallable a.sdCls n
  let holistic ← checkCallable a.holistic n
  let patchShape ← checkPatchShape a.patchShape n
  let nIterations ← checkMaxIters a.nIterations n
  return ⟨scales, patchFeatures, sdCls, holistic, patchShape, nIterations⟩

/-- `LucasKanadeFitter.__init__`, `/repo/menpofit/lk/fitter.py:89-93`: the scales and the
features. -/
def lk (diagonal : Option Rat) (scales holistic : Py) : Except PyErr (List Py × List Py) := do
  let _ ← checkDiagonal diagonal
  let s ← checkScales scales
  let h ← checkCallable holistic s.length
  return (s, h)

/-- The options of `DlibERT` that are passed to dlib. See `/repo/menpofit/dlib/fitter.py:157-187` -/
structure DlibArgs where
  featurePadding : Py
  nPixelPairs : Py
  distancePrior : Py
  regularisation : Py
  nSplitTests : Py
  nTrees : Py
  nDlibPerturbations : Py
  nTreeLevels : Py

/-- One set of them, as stored for one scale. See `/repo/menpofit/dlib/fitter.py:231-259` -/
structure DlibLevel where
  featurePadding : Py
  nPixelPairs : Py
  distancePrior : Py
  regularisation : Py
  nSplitTests : Py
  nTrees : Py
  nDlibPerturbations : Py
  nTreeLevels : Py

/-- The options at index `j`: list indexing. See `/repo/menpofit/dlib/fitter.py:231-259` -/
def item (l : List Py) (j : Nat) : Except PyErr Py :=
  match l[j]? with
  | some x => .ok x
  | none => .error .indexError

/-- `DlibERT._setup_dlib_options`, `/repo/menpofit/dlib/fitter.py:216-259`. -/
def dlibOptions (n : Nat) (a : DlibArgs) : Except PyErr (List DlibLevel) := do
  let pad ← checkMultiScaleParam n Py.isInt a.featurePadding
  let pix ← checkMultiScaleParam n Py.isInt a.nPixelPairs
  let dist ← checkMultiScaleParam n Py.isFloat a.distancePrior
  let reg ← checkMultiScaleParam n Py.isFloat a.regularisation
  let split ← checkMultiScaleParam n Py.isInt a.nSplitTests
  let trees ← checkMultiScaleParam n Py.isInt a.nTrees
  let over ← checkMultiScaleParam n Py.isInt a.nDlibPerturbations
  let depth ← checkMultiScaleParam n Py.isInt a.nTreeLevels
  (List.range n).mapM fun j => do
    let a1 ← item pad j
    let a2 ← item pix j
    let a3 ← item dist j
    let a4 ← item reg j
    let a5 ← item split j
    let a6 ← item trees j
    let a7 ← item over j
    let a8 ← item depth j
    return ⟨a1, a2, a3, a4, a5, a6, a7, a8⟩

/-- `DlibERT.__init__`, `/repo/menpofit/dlib/fitter.py:157-187`: scales, cascades per scale and
options per scale. -/
def dlibErt (diagonal : Option Rat) (scales : Py) (nIterations : MaxIters) (a : DlibArgs) :
    Except PyErr (List Py × List Int × List DlibLevel) := do
  let _ ← checkDiagonal diagonal
  let s ← checkScales scales
  let its ← checkMaxIters nIterations s.length
  let levels ← dlibOptions s.length a
  return (s, its, levels)

end Ctor
end Menpofit
