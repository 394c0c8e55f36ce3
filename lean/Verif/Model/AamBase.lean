import Verif.Model.ModelInstance
import Verif.Model.Result
/-!
# Instances and reconstructions of an AAM

Models `/repo/menpofit/aam/base.py:426-497` and `:530-561` (`PatchAAM`: `:1223-1254`, the same
code).  Building the reference frame and warping is a parameter.
-/

namespace Menpofit
namespace AamBase

/-! ### Reconstructions -/

/-- `self.appearance_models[scale].instance(c)`; a missing model raises `IndexError`.
See `/repo/menpofit/aam/base.py:556-558` -/
def instanceAt {V I : Type} (models : List (V → Except PyErr I)) (scale : Nat) (c : V) :
    Except PyErr I :=
  match models[scale]? with
  | none => .error .indexError
  | some m => m c

/-- The loop of `appearance_reconstructions`, `/repo/menpofit/aam/base.py:554-561`, from scale
`scale` on; `previous` is overwritten after each scale (line 560). -/
def reconLoop {V I : Type} (models : List (V → Except PyErr I)) (params : List V) :
    Nat → Nat → List Nat → Except PyErr (List I)
  | _, _, [] => .ok []
  | scale, previous, n :: ns => do
    let own ← ((params.drop previous).take (n + 1)).mapM (instanceAt models scale)
    let rest ← reconLoop models params (scale + 1) (n + 1) ns
    return own ++ rest

/-- `appearance_reconstructions`, `/repo/menpofit/aam/base.py:530-561`. -/
def appearanceReconstructions {V I : Type} (models : List (V → Except PyErr I)) (params : List V)
    (nIters : List Nat) : Except PyErr (List I) :=
  reconLoop models params 0 0 nIters

/-! ### Instances -/

noncomputable section

/-- A PCA model with the eigenvalues of its active components; a model vector is a function.
See `/repo/menpofit/aam/base.py:450-460` -/
structure EigModel (ι : Type) where
  mean : ι → ℝ
  modes : List (ℝ × (ι → ℝ))

/-- `model.n_active_components`. See `/repo/menpofit/aam/base.py:480-482` -/
def EigModel.nActive {ι : Type} (m : EigModel ι) : Nat := m.modes.length

/-- menpo `PCAModel.instance(weights, normalized_weights=True)`: weights are in units of standard
deviations, missing ones are zero, too many raise `ValueError`.
See `/repo/menpofit/aam/base.py:457-460` -/
def EigModel.instance {ι : Type} (m : EigModel ι) (w : List ℝ) : Except PyErr (ι → ℝ) :=
  if m.modes.length < w.length then .error .valueError
  else .ok (m.mean + (List.zipWith (fun a c => (a * Real.sqrt c.1) • c.2) w m.modes).sum)

/-- Shape and appearance model of each scale; `warp` renders an instance.
See `/repo/menpofit/aam/base.py:450-460` -/
structure AamModels (ι κ I : Type) where
  shape : List (EigModel ι)
  appearance : List (EigModel κ)
  warp : Int → (ι → ℝ) → (κ → ℝ) → Except PyErr I

variable {ι κ I : Type}

/-- `AAM.instance`, `/repo/menpofit/aam/base.py:450-460`. -/
def instance_ (a : AamModels ι κ I) (shapeWeights appearanceWeights : Option (List ℝ))
    (scale : Int) : Except PyErr I := do
  let sw := shapeWeights.getD [0]
  let aw := appearanceWeights.getD [0]
  let sm ← Result.pyGet a.shape scale
  let am ← Result.pyGet a.appearance scale
  let s ← sm.instance sw
  let t ← am.instance aw
  a.warp scale s t

/-- `AAM.random_instance`, `/repo/menpofit/aam/base.py:476-485`; `draw k n` is the `k`-th call of
`np.random.randn(n)`.  Line 482 draws as many appearance weights as there are shape
components. -/
def randomInstance (a : AamModels ι κ I) (draw : Nat → Nat → List ℝ) (scale : Int) :
    Except PyErr I := do
  let sm ← Result.pyGet a.shape scale
  let am ← Result.pyGet a.appearance scale
  let sw := draw 0 sm.nActive
  let s ← sm.instance sw
  let aw := draw 1 sm.nActive
  let t ← am.instance aw
  a.warp scale s t

end
end AamBase
end Menpofit
