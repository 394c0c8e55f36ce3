import Verif.Model.Py
import Mathlib.Analysis.Real.Sqrt
/-!
# Model: printing models, fitters and algorithms

Models the methods `__str__` of the trained models and of the fitters.  A text is the list of its lines.  How Python writes
numbers, tuples and lists is a parameter (`Fmt`), and so are the names that `menpo`'s `name_of_callable` gives to functions,
classes and objects: they are fields of what is printed.
-/

namespace Menpofit
namespace Print

/-- How numbers become text: `{}` of an integer, of a pair, of a scale, of the tuple of all scales; `{:.2f}`; `{:.1f}`.  See
`/repo/menpofit/aam/base.py:1260-1313`. -/
structure Fmt where
  num : Nat → String
  pair : Nat × Nat → String
  scale : ℚ → String
  scales : List ℚ → String
  two : ℝ → String
  one : ℝ → String

/-- A text, line by line (a text that ends with a newline has an empty last line).  See `/repo/menpofit/aam/base.py:1298-1313`. -/
abbrev Text := List String

/-- `a + b` for texts: the last line of the first goes on with the first line of the second.  See
`/repo/menpofit/aam/fitter.py:232`. -/
def addText : Text → Text → Text
  | [], t => t
  | [a], [] => [a]
  | [a], b :: t => (a ++ b) :: t
  | a :: b :: r, t => a :: addText (b :: r) t

/-- `l[k]` of a list.  See `/repo/menpofit/aam/base.py:1279-1285`. -/
def nth {α : Type} (l : List α) (k : Nat) : Except PyErr α :=
  match l[k]? with
  | some a => .ok a
  | none => .error .indexError

/-- A shape model as seen by printing: the name of its class, the numbers of all and of the active components and
`n_global_parameters`, which `PDM` does not have (`none`).  See `/repo/menpofit/modelinstance.py:283-345` and `454-461`. -/
structure ShapeModel where
  cls : String
  nComponents : Nat
  nActive : Nat
  nGlobal : Option Nat
  deriving DecidableEq

/-- `shape_model.n_global_parameters`, `/repo/menpofit/modelinstance.py:454-461`. -/
def ShapeModel.globals (m : ShapeModel) : Except PyErr Nat :=
  match m.nGlobal with
  | some k => .ok k
  | none => .error .attributeError

/-- An appearance model as seen by printing.  See `/repo/menpofit/aam/base.py:1281-1282` and
`/repo/menpofit/aam/fitter.py:223`. -/
structure AppearanceModel where
  cls : String
  nComponents : Nat
  nActive : Nat
  deriving DecidableEq

/-- The diagonal that is shown: the requested one, or that of the range of the reference shape.  See
`/repo/menpofit/aam/base.py:1261-1265` (the other classes have the same lines). -/
noncomputable def shownDiagonal (diagonal : Option ℝ) (range : ℝ × ℝ) : ℝ :=
  match diagonal with
  | some d => d
  | none =>
    let y := range.1
    let x := range.2
    Real.sqrt (x ^ 2 + y ^ 2)

/-- `for k, s in enumerate(self.scales): scales_info.append(...)`, `/repo/menpofit/aam/base.py:1276-1287` (the other classes
have the same loop). -/
def perScale (scales : List ℚ) (g : Nat → ℚ → Except PyErr Text) : Except PyErr (List Text) :=
  scales.zipIdx.mapM fun x => g x.2 x.1

/-- `if hasattr(aam, "patch_shape"): for k in range(len(scales_info)): scales_info[k] += ...`,
`/repo/menpofit/aam/base.py:1289-1291` and `/repo/menpofit/atm/base.py:1091-1094`. -/
def withPatches (f : Fmt) (patchShape : Option (List (Nat × Nat))) (info : List Text) : Except PyErr (List Text) :=
  match patchShape with
  | none => .ok info
  | some l => info.zipIdx.mapM fun x => do
      let p ← nth l x.2
      return x.1 ++ ["     - Patch shape: " ++ f.pair p]

/-- An active appearance model as seen by printing.  See `/repo/menpofit/aam/base.py:1260-1313`. -/
structure Aam where
  title : String
  diagonal : Option ℝ
  range : ℝ × ℝ
  scales : List ℚ
  features : List String
  appearance : List AppearanceModel
  shapes : List ShapeModel
  patchShape : Option (List (Nat × Nat))
  transform : Option String

/-- `transform_str`, `/repo/menpofit/aam/base.py:1294-1299` and `/repo/menpofit/unified_aam_clm/base.py:536-541`. -/
def transformLine : Option String → String
  | some t => "Images warped with " ++ t ++ " transform"
  | none => "No image warping performed"

/-- One block of `scales_info`, `/repo/menpofit/aam/base.py:1269-1287`. -/
def aamScale (f : Fmt) (a : Aam) (k : Nat) (s : ℚ) : Except PyErr Text := do
  let h ← nth a.features k
  let am ← nth a.appearance k
  let sm ← nth a.shapes k
  let g ← sm.globals
  return ["   - Scale " ++ f.scale s,
    "     - Holistic feature: " ++ h,
    "     - Appearance model class: " ++ am.cls,
    "       - " ++ f.num am.nComponents ++ " appearance components",
    "     - Shape model class: " ++ sm.cls,
    "       - " ++ f.num sm.nComponents ++ " shape components",
    "       - " ++ f.num g ++ " similarity transform parameters"]

/-- `_aam_str`, `/repo/menpofit/aam/base.py:1260-1313`. -/
noncomputable def aamStr (f : Fmt) (a : Aam) : Except PyErr Text := do
  let info ← perScale a.scales (aamScale f a)
  let info ← withPatches f a.patchShape info
  return [a.title,
    " - Images scaled to diagonal: " ++ f.two (shownDiagonal a.diagonal a.range),
    " - " ++ transformLine a.transform,
    " - Scales: " ++ f.scales a.scales] ++ info.flatten ++ [""]

/-- An active template model as seen by printing.  See `/repo/menpofit/atm/base.py:1065-1109`. -/
structure Atm where
  title : String
  diagonal : Option ℝ
  range : ℝ × ℝ
  scales : List ℚ
  features : List String
  templates : List (Nat × Nat)
  shapes : List ShapeModel
  patchShape : Option (List (Nat × Nat))
  transform : String

/-- One block of `scales_info`, `/repo/menpofit/atm/base.py:1074-1090`. -/
def atmScale (f : Fmt) (a : Atm) (k : Nat) (s : ℚ) : Except PyErr Text := do
  let h ← nth a.features k
  let t ← nth a.templates k
  let sm ← nth a.shapes k
  let g ← sm.globals
  return ["   - Scale " ++ f.scale s,
    "     - Holistic feature: " ++ h,
    "     - Template shape: " ++ f.pair t,
    "     - Shape model class: " ++ sm.cls,
    "       - " ++ f.num sm.nComponents ++ " shape components",
    "       - " ++ f.num g ++ " similarity transform parameters"]

/-- `_atm_str`, `/repo/menpofit/atm/base.py:1065-1109`. -/
noncomputable def atmStr (f : Fmt) (a : Atm) : Except PyErr Text := do
  let info ← perScale a.scales (atmScale f a)
  let info ← withPatches f a.patchShape info
  return [a.title,
    " - Images warped with " ++ a.transform ++ " transform",
    " - Images scaled to diagonal: " ++ f.two (shownDiagonal a.diagonal a.range),
    " - Scales: " ++ f.scales a.scales] ++ info.flatten ++ [""]

/-- An ensemble of experts as seen by printing.  See `/repo/menpofit/clm/expert/ensemble.py:279-303`. -/
structure Experts where
  nExperts : Nat
  filter : String
  patch : Nat × Nat
  normalisation : String
  context : Nat × Nat
  cosine : Bool
  deriving DecidableEq

/-- `True` or `False`.  See `/repo/menpofit/clm/base.py:423`. -/
def showBool (b : Bool) : String := if b then "True" else "False"

/-- The lines on the experts in `/repo/menpofit/clm/base.py:401-424` and `/repo/menpofit/unified_aam_clm/base.py:500-525`. -/
def expertLines (f : Fmt) (cls : String) (e : Experts) : Text :=
  ["     - Ensemble of experts class: " ++ cls,
    "       - " ++ f.num e.nExperts ++ " experts",
    "       - " ++ e.filter ++ " class",
    "       - Patch shape: " ++ f.num e.patch.1 ++ " x " ++ f.num e.patch.2,
    "       - Patch normalisation: " ++ e.normalisation,
    "       - Context shape: " ++ f.num e.context.1 ++ " x " ++ f.num e.context.2,
    "       - Cosine mask: " ++ showBool e.cosine]

/-- A constrained local model as seen by printing, `/repo/menpofit/clm/base.py:389-441`. -/
structure Clm where
  diagonal : Option ℝ
  range : ℝ × ℝ
  scales : List ℚ
  features : List String
  expertCls : List String
  experts : List Experts
  shapes : List ShapeModel

/-- One block of `scales_info`, `/repo/menpofit/clm/base.py:398-428`. -/
def clmScale (f : Fmt) (a : Clm) (k : Nat) (s : ℚ) : Except PyErr Text := do
  let h ← nth a.features k
  let c ← nth a.expertCls k
  let e ← nth a.experts k
  let sm ← nth a.shapes k
  let g ← sm.globals
  return ["   - Scale " ++ f.scale s, "     - Holistic feature: " ++ h] ++ expertLines f c e ++
    ["     - Shape model class: " ++ sm.cls,
    "       - " ++ f.num sm.nComponents ++ " shape components",
    "       - " ++ f.num g ++ " similarity transform parameters"]

/-- `CLM.__str__`, `/repo/menpofit/clm/base.py:389-441`. -/
noncomputable def clmStr (f : Fmt) (a : Clm) : Except PyErr Text := do
  let info ← perScale a.scales (clmScale f a)
  return ["Constrained Local Model",
    " - Images scaled to diagonal: " ++ f.two (shownDiagonal a.diagonal a.range),
    " - Scales: " ++ f.scales a.scales] ++ info.flatten ++ [""]

/-- A unified model as seen by printing, `/repo/menpofit/unified_aam_clm/base.py:489-555`. -/
structure Unified where
  diagonal : Option ℝ
  range : ℝ × ℝ
  scales : List ℚ
  features : List String
  expertCls : List String
  experts : List Experts
  appearance : List AppearanceModel
  shapes : List ShapeModel
  transform : Option String

/-- One block of `scales_info`, `/repo/menpofit/unified_aam_clm/base.py:498-532`. -/
def unifiedScale (f : Fmt) (a : Unified) (k : Nat) (s : ℚ) : Except PyErr Text := do
  let h ← nth a.features k
  let c ← nth a.expertCls k
  let e ← nth a.experts k
  let am ← nth a.appearance k
  let sm ← nth a.shapes k
  let g ← sm.globals
  return ["   - Scale " ++ f.scale s, "     - Holistic feature: " ++ h] ++ expertLines f c e ++
    ["     - Appearance model class: " ++ am.cls,
    "       - " ++ f.num am.nComponents ++ " appearance components",
    "     - Shape model class: " ++ sm.cls,
    "       - " ++ f.num sm.nComponents ++ " shape components",
    "       - " ++ f.num g ++ " similarity transform parameters"]

/-- `UnifiedAAMCLM.__str__`, `/repo/menpofit/unified_aam_clm/base.py:489-555`: the last line is four blanks. -/
noncomputable def unifiedStr (f : Fmt) (a : Unified) : Except PyErr Text := do
  let info ← perScale a.scales (unifiedScale f a)
  return ["Unified Holistic AAM and CLM",
    "  - Images scaled to diagonal: " ++ f.two (shownDiagonal a.diagonal a.range),
    "  - " ++ transformLine a.transform,
    "  - Scales: " ++ f.scales a.scales] ++ info.flatten ++ ["    "]

/-! ### Names of the algorithms -/

/-- The Lucas-Kanade algorithms for active appearance models, `/repo/menpofit/aam/algorithm/lk.py:891-1633`. -/
inductive AamAlg
  | projectOutForward | projectOutInverse | simultaneousForward | simultaneousInverse | alternatingForward
  | alternatingInverse | modifiedForward | modifiedInverse | wibergForward | wibergInverse
  deriving DecidableEq

/-- Their `__str__`, `/repo/menpofit/aam/algorithm/lk.py:917-918`, `953-954`, `1103-1104`, `1122-1123`, `1282-1283`,
`1301-1302`, `1445-1446`, `1464-1465`, `1613-1614`, `1632-1633`. -/
def AamAlg.name : AamAlg → String
  | .projectOutForward => "Project-Out Forward Compositional Algorithm"
  | .projectOutInverse => "Project-Out Inverse Compositional Algorithm"
  | .simultaneousForward => "Simultaneous Forward Compositional Algorithm"
  | .simultaneousInverse => "Project-Out Inverse Compositional Algorithm"
  | .alternatingForward => "Alternating Forward Compositional Algorithm"
  | .alternatingInverse => "Alternating Inverse Compositional Algorithm"
  | .modifiedForward => "Modified Alternating Forward Compositional Algorithm"
  | .modifiedInverse => "Modified Alternating Inverse Compositional Algorithm"
  | .wibergForward => "Wiberg Forward Compositional Algorithm"
  | .wibergInverse => "Wiberg Inverse Compositional Algorithm"

/-- The algorithms for active template models, `/repo/menpofit/atm/algorithm.py:319-378`. -/
inductive AtmAlg
  | forward | inverse
  deriving DecidableEq

/-- Their `__str__`, `/repo/menpofit/atm/algorithm.py:343-344` and `377-378`. -/
def AtmAlg.name : AtmAlg → String
  | .forward => "Forward Compositional Algorithm"
  | .inverse => "Inverse Compositional Algorithm"

/-- The algorithms for constrained local models, `/repo/menpofit/clm/algorithm/gd.py:61-348`. -/
inductive ClmAlg
  | activeShape | meanShift
  deriving DecidableEq

/-- Their `__str__`, `/repo/menpofit/clm/algorithm/gd.py:208-209` and `347-348`. -/
def ClmAlg.name : ClmAlg → String
  | .activeShape => "Active Shape Model Algorithm"
  | .meanShift => "Regularised Landmark Mean Shift Algorithm"

/-- The algorithms for active pictorial structures, `/repo/menpofit/aps/algorithm/gn.py:370-658`. -/
inductive ApsAlg
  | inverse | forward
  deriving DecidableEq

/-- Their `__str__`, `/repo/menpofit/aps/algorithm/gn.py:507-509` and `657-658`. -/
def ApsAlg.name : ApsAlg → String
  | .inverse => "Inverse Weighted Gauss-Newton Algorithm with fixed Jacobian and Hessian"
  | .forward => "Forward Gauss-Newton Algorithm"

/-- The algorithms for unified models, `/repo/menpofit/unified_aam_clm/algorithm.py:117-281`. -/
inductive UnifiedAlg
  | projectOut | alternating
  deriving DecidableEq

/-- `name_of_callable(self.algorithms[0])`: the name of the class, `/repo/menpofit/unified_aam_clm/fitter.py:205`. -/
def UnifiedAlg.name : UnifiedAlg → String
  | .projectOut => "ProjectOutRegularisedLandmarkMeanShift"
  | .alternating => "AlternatingRegularisedLandmarkMeanShift"

/-- The algorithms of Lucas-Kanade fitters without a model, `/repo/menpofit/lk/algorithm.py:68-416`. -/
inductive LkAlg
  | forwardAdditive | forwardCompositional | inverseCompositional
  deriving DecidableEq

/-- Their `__str__`, `/repo/menpofit/lk/algorithm.py:163-164`, `290-291`, `415-416`. -/
def LkAlg.name : LkAlg → String
  | .forwardAdditive => "Forward Additive Algorithm"
  | .forwardCompositional => "Forward Compositional Algorithm"
  | .inverseCompositional => "Inverse Compositional Algorithm"

/-- The residuals, `/repo/menpofit/lk/residual.py:147-1028`. -/
inductive Residual
  | ssd | fourierSsd | ecc | gradientImages | gradientCorrelation
  deriving DecidableEq

/-- Their `__str__`, `/repo/menpofit/lk/residual.py:304-305`, `473-474`, `651-652`, `819-820`, `1027-1028`. -/
def Residual.name : Residual → String
  | .ssd => "Sum of Squared Differences Residual"
  | .fourierSsd => "Fourier Sum of Squared Differences Residual"
  | .ecc => "Enhanced Correlation Coefficient Residual"
  | .gradientImages => "Gradient Image Residual"
  | .gradientCorrelation => "Gradient Correlation Residual"

/-! ### Fitters -/

/-- `LucasKanadeAAMFitter.__str__`, `/repo/menpofit/aam/fitter.py:211-232`.  `algs` are the algorithms of the scales. -/
noncomputable def aamFitterStr (f : Fmt) (a : Aam) (algs : List AamAlg) : Except PyErr Text := do
  let info ← perScale a.scales fun k s => do
    let sm ← nth a.shapes k
    let g ← sm.globals
    let am ← nth a.appearance k
    return ["   - Scale " ++ f.scale s,
      "     - " ++ f.num sm.nActive ++ " active shape components",
      "     - " ++ f.num g ++ " similarity transform components",
      "     - " ++ f.num am.nActive ++ " active appearance components"]
  let alg ← nth algs 0
  let t ← aamStr f a
  return addText t ([alg.name, " - Scales: " ++ f.scales a.scales] ++ info.flatten ++ ["    "])

/-- The blocks of `LucasKanadeATMFitter.__str__` and `GradientDescentCLMFitter.__str__`, `/repo/menpofit/atm/fitter.py:93-103`
and `/repo/menpofit/clm/fitter.py:90-100`. -/
def shapeBlocks (f : Fmt) (scales : List ℚ) (shapes : List ShapeModel) : Except PyErr (List Text) :=
  perScale scales fun k s => do
    let sm ← nth shapes k
    let g ← sm.globals
    return ["   - Scale " ++ f.scale s,
      "     - " ++ f.num sm.nActive ++ " active shape components",
      "     - " ++ f.num g ++ " similarity transform components"]

/-- `LucasKanadeATMFitter.__str__`, `/repo/menpofit/atm/fitter.py:92-111`. -/
noncomputable def atmFitterStr (f : Fmt) (a : Atm) (algs : List AtmAlg) : Except PyErr Text := do
  let info ← shapeBlocks f a.scales a.shapes
  let alg ← nth algs 0
  let t ← atmStr f a
  return addText t ([alg.name, " - Scales: " ++ f.scales a.scales] ++ info.flatten ++ ["    "])

/-- `GradientDescentCLMFitter.__str__`, `/repo/menpofit/clm/fitter.py:89-108`. -/
noncomputable def clmFitterStr (f : Fmt) (a : Clm) (algs : List ClmAlg) : Except PyErr Text := do
  let info ← shapeBlocks f a.scales a.shapes
  let alg ← nth algs 0
  let t ← clmStr f a
  return addText t ([alg.name, " - Scales: " ++ f.scales a.scales] ++ info.flatten ++ ["    "])

/-- `UnifiedAAMCLMFitter.__str__`, `/repo/menpofit/unified_aam_clm/fitter.py:187-208`. -/
noncomputable def unifiedFitterStr (f : Fmt) (a : Unified) (algs : List UnifiedAlg) : Except PyErr Text := do
  let info ← perScale a.scales fun k s => do
    let sm ← nth a.shapes k
    let g ← sm.globals
    let am ← nth a.appearance k
    return ["  - Scale " ++ f.scale s,
      "     - " ++ f.num sm.nActive ++ " active shape components",
      "     - " ++ f.num g ++ " similarity transform components",
      "     - " ++ f.num am.nActive ++ " active appearance components"]
  let alg ← nth algs 0
  let t ← unifiedStr f a
  return addText t ([alg.name, "  - Scales: " ++ f.scales a.scales] ++ info.flatten ++ ["    "])

/-- A Lucas-Kanade fitter without a model as seen by printing, `/repo/menpofit/lk/fitter.py:181-211`. -/
structure Lk where
  diagonal : Option ℝ
  range : ℝ × ℝ
  scales : List ℚ
  features : List String
  templates : List (Nat × Nat)
  algorithms : List (LkAlg × Residual)
  transform : String

/-- `LucasKanadeFitter.__str__`, `/repo/menpofit/lk/fitter.py:181-211`. -/
noncomputable def lkStr (f : Fmt) (a : Lk) : Except PyErr Text := do
  let info ← perScale a.scales fun k s => do
    let h ← nth a.features k
    let t ← nth a.templates k
    return ["   - Scale " ++ f.scale s, "     - Holistic feature: " ++ h, "     - Template shape: " ++ f.pair t]
  let alg ← nth a.algorithms 0
  return ["Lucas-Kanade " ++ alg.1.name,
    " - " ++ alg.2.name,
    " - Images warped with " ++ a.transform ++ " transform",
    " - Images scaled to diagonal: " ++ f.two (shownDiagonal a.diagonal a.range),
    " - Scales: " ++ f.scales a.scales] ++ info.flatten ++ [""]

/-- A supervised descent fitter as seen by printing, `/repo/menpofit/sdm/fitter.py:432-475`.  `algorithms` are the names of
`_sd_algorithm_cls` and of the regressor class of each scale; `custom` is the name of the perturbation function if it is not
the default one. -/
structure Sdm where
  diagonal : Option ℝ
  range : ℝ × ℝ
  scales : List ℚ
  iterations : List Nat
  patchShape : List (Nat × Nat)
  features : List String
  patchFeatures : List String
  algorithms : List (String × String)
  nPerturbations : Nat
  custom : Option String

/-- `is_custom_perturb_func`, `/repo/menpofit/sdm/fitter.py:438-442`. -/
def customLine : Option String → String
  | none => "False"
  | some n => n

/-- `SupervisedDescentFitter.__str__`, `/repo/menpofit/sdm/fitter.py:432-475`. -/
noncomputable def sdmStr (f : Fmt) (a : Sdm) : Except PyErr Text := do
  let alg ← nth a.algorithms 0
  let info ← perScale a.scales fun k s => do
    let i ← nth a.iterations k
    let p ← nth a.patchShape k
    let h ← nth a.features k
    let g ← nth a.patchFeatures k
    return ["   - Scale " ++ f.scale s,
      "     - " ++ f.num i ++ " iterations",
      "     - Patch shape: " ++ f.pair p,
      "     - Holistic feature: " ++ h,
      "     - Patch feature: " ++ g]
  return ["Supervised Descent Method",
    " - Regression performed using the " ++ alg.1 ++ " algorithm",
    "   - Regression class: " ++ alg.2,
    " - Perturbations generated per shape: " ++ f.num a.nPerturbations,
    " - Images scaled to diagonal: " ++ f.two (shownDiagonal a.diagonal a.range),
    " - Custom perturbation scheme used: " ++ customLine a.custom,
    " - Scales: " ++ f.scales a.scales] ++ info.flatten ++ [""]

end Print
end Menpofit
