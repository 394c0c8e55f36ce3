import Verif.Spec.Turned
import Verif.Spec.Reorder
import Verif.Spec.SdmReorder
import Verif.Spec.ModelInstance
/-!
# Specification: the same statistical model with the signs of its components chosen differently

A principal component is determined only up to its sign: which of the two an eigenvalue routine returns depends on the
linear algebra library.  `ε i` is `1` if component `i` keeps its sign and `-1` if not.
-/

namespace Menpofit
namespace Spec
open MI Matrix Place

/-- A choice of signs. -/
def Signs {ι : Type} (ε : ι → ℝ) : Prop := ∀ i, ε i = 1 ∨ ε i = -1

variable {n d : Nat}

/-- Components with other signs. -/
noncomputable def flipComps (ε : Nat → ℝ) (cs : List (Pts n d)) : List (Pts n d) := cs.mapIdx fun i c => ε i • c

/-- Weights of components whose signs changed. -/
noncomputable def flipWeights (ε : Nat → ℝ) (w : List ℝ) : List ℝ := w.mapIdx fun i x => ε i * x

/-- A statistical model with other signs. -/
noncomputable def flipPca (ε : Nat → ℝ) (m : Pca n d) : Pca n d := ⟨m.mean, flipComps ε m.comps, m.nActive⟩

/-- A shape model in the same state with other signs: the weights of the components change sign with them; the
similarity components have fixed signs. -/
noncomputable def flipPdm (ε : Nat → ℝ) (p : OPdm n) : OPdm n :=
  { p with model := flipPca ε p.model, weights := flipWeights ε p.weights }

/-- A parameter vector of such a model: four similarity parameters, then the weights. -/
noncomputable def flipVector (ε : Nat → ℝ) (v : List ℝ) : List ℝ := v.take 4 ++ flipWeights ε (v.drop 4)

/-- Orthonormalisation of components with other signs gives the same components with signs of its own choice. -/
def SignBlind (ortho : Ortho n) : Prop :=
  ∀ ε, Signs ε → ∀ a b, ∃ ε', Signs ε' ∧ ortho a (flipComps ε b) = ((ortho a b).1, flipComps ε' (ortho a b).2)

/-- The same thing done to a shape model and to one with other signs: the targets and the number of components are the
same, and a model is incremented with the same statistics, whose components have any signs.  (Parameter vectors are left
out: their signs depend on what was done before.) -/
inductive SameUpToSigns : PdmOp n 2 → PdmOp n 2 → Prop
  | target (c : Cloud) : SameUpToSigns (.target c) (.target c)
  | active (k : Int) : SameUpToSigns (.active k) (.active k)
  | increment (m : Pca n 2) (ε : Nat → ℝ) (h : Signs ε) : SameUpToSigns (.increment m) (.increment (flipPca ε m))

/-- The sign of parameter `i` of a model with four similarity parameters. -/
noncomputable def paramSign (ε : Nat → ℝ) (i : Nat) : ℝ := if i < 4 then 1 else ε (i - 4)

/-- What a fit returned, with the signs of the parameters changed. -/
noncomputable def flipTrace {S C : Type} {k k' : Nat} (ε : Nat → ℝ) (h : k' = k) (r : Optim.Trace S (Fin k → ℝ) C) :
    Optim.Trace S (Fin k' → ℝ) C :=
  ⟨r.shapes, r.params.map fun p i => paramSign ε i * p (Fin.cast h i), r.costs⟩

/-- The same with the signs of the appearance parameters changed by `δ`. -/
noncomputable def flipTraceA {S C : Type} {k k' a : Nat} (ε : Nat → ℝ) (δ : Fin a → ℝ) (h : k' = k)
    (r : Optim.Trace S ((Fin k → ℝ) × (Fin a → ℝ)) C) : Optim.Trace S ((Fin k' → ℝ) × (Fin a → ℝ)) C :=
  ⟨r.shapes, r.params.map fun p => (fun i => paramSign ε i * p.1 (Fin.cast h i), fun j => δ j * p.2 j), r.costs⟩

/-- Columns of a matrix with one column per parameter, with other signs. -/
noncomputable def flipCols {m k k' : Nat} (ε : Nat → ℝ) (h : k' = k) (J : Matrix (Fin m) (Fin k) ℝ) :
    Matrix (Fin m) (Fin k') ℝ := of fun r i => paramSign ε i * J r (Fin.cast h i)

/-- The appearance side of a model whose appearance components have the signs `δ` and whose shape model has the signs
`ε`. -/
structure FlippedAppearance {k k' a m : Nat} {W : Type} (ε : Nat → ℝ) (δ : Fin a → ℝ) (h : k' = k)
    (z : Appearance k a m W) (z' : Appearance k' a m W) : Prop where
  mask : ∀ w, z'.mask w = z.mask w
  jacI : ∀ w, z'.jacI w = flipCols ε h (z.jacI w)
  jacA : ∀ c, z'.jacA (fun j => δ j * c j) = flipCols ε h (z.jacA c)
  aBar : z'.aBar = z.aBar
  A : ∀ r j, z'.A r j = δ j * z.A r j
  pinvA : ∀ j r, z'.pinvA j r = δ j * z.pinvA j r
  priorA : z'.priorA = z.priorA

end Spec
end Menpofit
