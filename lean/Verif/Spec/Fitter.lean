import Mathlib.Logic.Equiv.Defs
import Mathlib.Algebra.Group.End
/-!
# Specification vocabulary for multi-scale fitting (C10–C13)
-/

namespace Menpofit.Spec

/-- A shape of scale `i` seen in the original image: first undo the rescaling of
the scale, then the geometric effect of the features. -/
def toImage {S : Type} (affine scale : Equiv.Perm S) (s : S) : S := affine (scale s)

/-- The `i`-th of a list of per-scale shapes, seen in the original image (`none` if one
of the lists has no entry `i`). -/
def inImage {S : Type} (affine scale : List (Equiv.Perm S)) (shapes : List S) (i : Nat) :
    Option S :=
  affine[i]?.bind fun a => scale[i]?.bind fun t => shapes[i]?.map fun s => toImage a t s

/-- The ground truth of scale `i`, if ground truths were given. -/
def gtOf {S : Type} (gts : Option (List S)) (i : Nat) : Option S := gts.bind (·[i]?)

/-- A feature is only repeated (used at two consecutive scales) if it is the
feature of the first scale. -/
def RepeatsOnlyFirst {F : Type} (features : List F) : Prop :=
  ∀ (i : Nat) (f : F), features[i]? = some f → features[i + 1]? = some f → features[0]? = some f

/-- Carrying a shape from one scale to the next, written out by cases on whether
the features and scales of the two levels agree. -/
def HandedOver {S F : Type} (f f' : F) (sc sc' : Rat) (a a' t t' : Equiv.Perm S)
    (s s' : S) : Prop :=
  (f ≠ f' → s' = t'.symm (a'.symm (t (a s)))) ∧
  (f = f' → sc ≠ sc' → s' = t'.symm (t s)) ∧
  (f = f' → sc = sc' → s' = s)

end Menpofit.Spec
