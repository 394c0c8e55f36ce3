import Verif.Model.Training
/-!
# Specification of batched training, one scale at a time
-/

namespace Menpofit
namespace Spec
open Training

section
variable {B D M : Type}

/-- `m'` is `m` incremented with the data of the batches `bs`, one after the other. -/
inductive Continued (inc : M → List D → Except PyErr M) (data : B → Except PyErr (List D)) :
    M → List B → M → Prop
  | done (m : M) : Continued inc data m [] m
  | next {m m' m'' : M} {b : B} {bs : List B} {d : List D} :
      data b = .ok d → inc m d = .ok m' → Continued inc data m' bs m'' →
      Continued inc data m (b :: bs) m''

/-- `m` is built from the data of the first batch and incremented with all later ones. -/
def Trained (new : List D → Except PyErr M) (inc : M → List D → Except PyErr M)
    (data : B → Except PyErr (List D)) (bs : List B) (m : M) : Prop :=
  ∃ b rest d m0, bs = b :: rest ∧ data b = .ok d ∧ new d = .ok m0 ∧ Continued inc data m0 rest m

end

section
variable {Im Sh F W SM AM : Type}

/-- One training image at one scale: brought to the size of the reference shape, features taken,
scaled (a scale within NumPy's tolerance of 1 leaves the image alone). -/
def imageAt (o : ImageOps Im Sh F) (ref : Sh) (l : Level F) (i : Im) : Except PyErr Im := do
  let i ← o.rescale ref i
  let i ← o.feature l.feature i
  if |l.scale - 1| ≤ 1 / 10 ^ 8 + 1 / 10 ^ 5 then .ok i else o.rescaleBy l.scale i

/-- The landmarks of an image at a scale. -/
def shapeAt (o : ImageOps Im Sh F) (ref : Sh) (l : Level F) (i : Im) : Except PyErr Sh := do
  o.shapeOf (← imageAt o ref l i)

/-- The warped version of an image at a scale. -/
def warpedAt (o : ImageOps Im Sh F) (warp : Sh → Nat → Im → Sh → Except PyErr W) (ref : Sh)
    (j : Nat) (l : Level F) (i : Im) : Except PyErr W := do
  let x ← imageAt o ref l i
  let s ← o.shapeOf x
  warp (o.scaleShape l.scale ref) j x s

/-- The reference shape is the given one, else computed from the first batch. -/
def ReferenceFrom (o : ImageOps Im Sh F) (given : Option Sh) (bs : List (List Im)) (ref : Sh) :
    Prop :=
  match given with
  | some r => ref = r
  | none => ∃ b rest shapes, bs = b :: rest ∧ b.mapM o.shapeOf = .ok shapes ∧
      o.reference shapes = .ok ref

end

end Spec
end Menpofit
