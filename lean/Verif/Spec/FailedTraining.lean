import Verif.Spec.Training
/-!
# Specification: what a failed increment leaves behind
-/

namespace Menpofit
namespace Spec
open Training

/-- Of a list of models, one per scale, those of the scales `a, ..., b - 1` have been replaced, each by one that
`R` allows, and all others are what they were. -/
structure Replaced {M : Type} (R : Nat → M → M → Prop) (a b : Nat) (old new : List M) : Prop where
  same_length : new.length = old.length
  inside : ∀ i, a ≤ i → i < b → ∃ m m', old[i]? = some m ∧ new[i]? = some m' ∧ R i m m'
  outside : ∀ i, (i < a ∨ b ≤ i) → new[i]? = old[i]?

variable {Im Sh F W SM AM : Type}

/-- The model of scale `i` has been incremented with the data of all images of the batch `b`. -/
def IncrementedWith {M D : Type} (levels : List (Level F)) (inc : Level F → M → List D → Except PyErr M)
    (data : Nat → Level F → Im → Except PyErr D) (b : List Im) (i : Nat) (m m' : M) : Prop :=
  ∃ l d, levels[i]? = some l ∧ b.mapM (data i l) = .ok d ∧ inc l m d = .ok m'

/-- A batch `b` that was given up at scale `j`: at the scales before `j` both models have been incremented with the
batch, the scales after `j` have not been touched; at scale `j` the second model has not been touched, the shape
model may have been incremented. -/
structure GivenUpAt [DecidableEq F] (o : ImageOps Im Sh F) (L : Learners Im Sh W SM AM)
    (levels : List (Level F)) (r : Sh) (b : List Im) (j : Nat) (before after : St Sh SM AM) : Prop where
  reference : after.ref = before.ref
  second : Replaced (IncrementedWith levels (fun l => L.second.inc l.maxSecond) (warpedAt o L.warp r) b) 0 j
    before.second after.second
  shape : ∃ k, (k = j ∨ k = j + 1) ∧
    Replaced (IncrementedWith levels (fun l => L.shape.inc l.maxShape) (fun _ => shapeAt o r) b) 0 k
      before.shapeModels after.shapeModels

end Spec
end Menpofit
