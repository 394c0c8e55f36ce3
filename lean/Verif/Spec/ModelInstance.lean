import Verif.Model.ModelInstance
import Mathlib.Analysis.SpecialFunctions.Trigonometric.Basic
import Mathlib.LinearAlgebra.Span.Basic
/-!
# Specifications for model instances and point distribution models
-/

namespace Menpofit
namespace Spec
open MI

/-- `q` is the image of `p` under scaling by `s`, in-plane rotation by `θ` and translation by
`(tx, ty)`. -/
def SimilarityImage {n : Nat} (p q : Pts n 2) : Prop :=
  ∃ s θ tx ty : ℝ, 0 ≤ s ∧
    (∀ i, q (i, 0) = s * (Real.cos θ * p (i, 0) - Real.sin θ * p (i, 1)) + tx) ∧
    (∀ i, q (i, 1) = s * (Real.sin θ * p (i, 0) + Real.cos θ * p (i, 1)) + ty)

/-- `t` is the mean plus the components weighted by `w` (missing weights are zero). -/
def Generates {n d : Nat} (mean : Pts n d) (cs : List (Pts n d)) (w : List ℝ) (t : Pts n d) :
    Prop :=
  w.length ≤ cs.length ∧
    ∀ x, t x = mean x + ∑ k : Fin cs.length, w.getD k 0 * cs[k] x

/-- Squared distance between two point sets. -/
noncomputable def sqDist {n d : Nat} (p q : Pts n d) : ℝ := ∑ x, (p x - q x) ^ 2

/-- Unit length and mutually orthogonal. -/
def OrthonormalList {n d : Nat} (cs : List (Pts n d)) : Prop :=
  (∀ c ∈ cs, ∑ x, c x * c x = 1) ∧ cs.Pairwise fun a b => ∑ x, a x * b x = 0

/-- All points coincide. -/
def Collapsed {n : Nat} (p : Pts n 2) : Prop := ∀ i j, p (i, 0) = p (j, 0) ∧ p (i, 1) = p (j, 1)

/-- What is assumed of menpo's `orthonormalize_against_inplace`: the two families together are
orthonormal, and the similarity components keep their number and span. -/
def OrthoSpec {n : Nat} (ortho : Ortho n) (a b : List (Pts n 2)) : Prop :=
  (ortho a b).1.length = a.length ∧
  OrthonormalList ((ortho a b).1 ++ (ortho a b).2) ∧
  Submodule.span ℝ {c | c ∈ (ortho a b).1} = Submodule.span ℝ {c | c ∈ a}

/-- Operations a user performs on a PDM; `increment m` stands for an increment after which the
`PCAModel` has become `m`. -/
inductive PdmOp (n d : Nat) where
  | target (c : Cloud)
  | vector (v : List ℝ)
  | active (k : Int)
  | increment (m : Pca n d)

/-- The object after the operation (also when it raises). -/
noncomputable def pdmStep {n d : Nat} (p : Pdm n d) : PdmOp n d → Pdm n d
  | .target c => (setTarget p c).1
  | .vector v => match fromVector p v with
    | .ok q => q
    | .error _ => p
  | .active k => (setActive p k).1
  | .increment m => (incrementPdm p m).1

noncomputable def gpdmStep {T : Type} {n d : Nat} (tr : Transforms T n d) (p : GPdm T n d) :
    PdmOp n d → GPdm T n d
  | .target c => (gSetTarget tr p c).1
  | .vector v => match gFromVector tr p v with
    | .ok q => q
    | .error _ => p
  | .active k => (gSetActive tr p k).1
  | .increment m => (gIncrement tr p m).1

noncomputable def opdmStep {n : Nat} (ortho : Ortho n) (p : OPdm n) : PdmOp n 2 → OPdm n
  | .target c => (oSetTarget p c).1
  | .vector v => match oFromVector p v with
    | .ok q => q
    | .error _ => p
  | .active k => (oSetActive p k).1
  | .increment m => (oIncrement ortho p m).1

/-- Operations that do not replace the statistical model. -/
def NoIncrement {n d : Nat} : PdmOp n d → Prop
  | .increment _ => False
  | _ => True

/-- `set_target` and `from_vector` on a `GlobalSimilarityModel`. -/
inductive SimOp where
  | target (c : Cloud)
  | vector (v : List ℝ)

noncomputable def gsimStep {T : Type} {n d : Nat} (tr : Transforms T n d) (p : GSim T n d) :
    SimOp → GSim T n d
  | .target c => (simSetTarget tr p c).1
  | .vector v => match simFromVector tr p v with
    | .ok q => q
    | .error _ => p

/-- Reading the parameters of a transform and writing them back changes nothing. -/
def VectorRoundTrip {T : Type} {n d : Nat} (tr : Transforms T n d) : Prop :=
  ∀ g, (tr.toVec g).length = tr.nParams ∧ tr.ofVec g (tr.toVec g) = .ok g

end Spec
end Menpofit
