import Verif.Model.SdmState
/-!
# Specification of supervised descent algorithm objects
-/

namespace Menpofit
namespace Spec
open Sdm SdmState

variable {σ A V W Row Reg I : Type} [AddCommGroup W]

/-- In the states `Inv`, which its methods do not leave, the object always gives the parameters
`co.proj v` for a target `v` and the shape `co.inst w` for parameters `w`, whatever happened to it
before. -/
structure Behaves (ops : ModelOps σ V W) (Inv : σ → Prop) (co : Coord V W) : Prop where
  keepSet : ∀ s v, Inv s → Inv (ops.setTarget s v)
  keepVec : ∀ s w, Inv s → Inv (ops.fromVector s w)
  proj : ∀ s v, Inv s → ops.asVector (ops.setTarget s v) = co.proj v
  shown : ∀ s v, Inv s → ops.target (ops.setTarget s v) = co.inst (co.proj v)
  vec : ∀ s w, Inv s → ops.asVector (ops.fromVector s w) = w
  inst : ∀ s w, Inv s → ops.target (ops.fromVector s w) = co.inst w

/-- Shapes are described by `co`: their vectors, or the parameters of the shape model of the
object, which is in the states `Inv`, or of the one built from the training shapes if it has none. -/
def DescribedBy (cls : Cls σ A V W Row Reg I) (a : Alg σ A Reg) (gts : List V) (Inv : σ → Prop)
    (co : Coord V W) : Prop :=
  match cls.coords with
  | .direct c => c = co
  | .model ops build => Behaves ops Inv co ∧
    match a.shapeModel with
    | some s => Inv s
    | none => ∃ s, build gts = .ok s ∧ Inv s

/-- The features of a shape in an image are `f`: those of its patches; those relative to the
appearance model of the object, or to the one built from the training images if it has none; or
those of the warped image, which only depend on the target of the transform. -/
def FeaturesAre (cls : Cls σ A V W Row Reg I) (a : Alg σ A Reg) (ims : List I) (gts : List V)
    (Inv : σ → Prop) (f : I → V → Row) : Prop :=
  match cls.feat with
  | .patches patch => patch = f
  | .appearance patch build param =>
    ∃ m, (match a.appearanceModel with
        | some m' => m' = m
        | none => build ((gts.zip ims).map fun p => patch p.2 p.1) = .ok m) ∧
      (fun im v => param m (patch im v)) = f
  | .warped set row => (∃ ops build, cls.coords = .model ops build) ∧
    ∀ s, Inv s → ∀ im v, Inv (set s v) ∧ row (set s v) im = f im v

/-- The object holds a shape model in one of the states `Inv`, if the class uses one. -/
def HoldsModel (cls : Cls σ A V W Row Reg I) (a : Alg σ A Reg) (Inv : σ → Prop) : Prop :=
  match cls.coords with
  | .direct _ => True
  | .model _ _ => ∃ s, a.shapeModel = some s ∧ Inv s

/-- The object can be used: it holds the models its class needs, in one of the states `Inv`; shapes
are described by `co` and features given by `f`. -/
def Usable (cls : Cls σ A V W Row Reg I) (Inv : σ → Prop) (co : Coord V W) (f : I → V → Row)
    (a : Alg σ A Reg) : Prop :=
  (match cls.coords with
    | .direct c => c = co
    | .model ops _ => Behaves ops Inv co ∧ ∃ s, a.shapeModel = some s ∧ Inv s) ∧
  (match cls.feat with
    | .patches patch => patch = f
    | .appearance patch _ param =>
      ∃ m, a.appearanceModel = some m ∧ (fun im v => param m (patch im v)) = f
    | .warped set row => (∃ ops build, cls.coords = .model ops build) ∧
      ∀ s, Inv s → ∀ im v, Inv (set s v) ∧ row (set s v) im = f im v)

end Spec
end Menpofit
