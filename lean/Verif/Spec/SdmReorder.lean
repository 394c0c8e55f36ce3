import Verif.Model.SdmRegression
/-!
# Specification: supervised descent with coordinates and features in another order
-/

namespace Menpofit
namespace Spec
open Sdm Matrix

/-- A vector whose entry `i` is entry `ρ i` of the original one. -/
def reorder {K : Type} {q : Nat} (ρ : Equiv.Perm (Fin q)) (v : Fin q → K) : Fin q → K := fun i => v (ρ i)

/-- Training, incrementing and predicting can be done before or after the features are translated by
`τ`, the regressed quantities by `ω` and the regressors by `κ`. -/
structure Translates {Row W R : Type} (ops : RegOps Row W R) (τ : Row → Row) (ω : W → W) (κ : R → R) : Prop where
  train : ∀ xs ys, ops.train (xs.map τ) (ys.map ω) = (ops.train xs ys).map κ
  increment : ∀ r xs ys, ops.increment (κ r) (xs.map τ) (ys.map ω) = (ops.increment r xs ys).map κ
  predict : ∀ r xs, ops.predict (κ r) (xs.map τ) = (ops.predict r xs).map ω

/-- What a supervised descent algorithm is trained or incremented with: images, their ground truth
shapes and their perturbed shapes. -/
structure Batch (I V : Type) where
  ims : List I
  gts : List V
  cur : List (List V)

/-- The same batch with every shape translated. -/
def Batch.translate {I V : Type} (ν : V → V) (b : Batch I V) : Batch I V :=
  ⟨b.ims, b.gts.map ν, b.cur.map (List.map ν)⟩

/-- The regressors after training on a batch and incrementing with further ones. -/
def afterTraining {V W Row R I : Type} [AddCommGroup W] (ops : RegOps Row W R) (co : Coord V W) (feat : I → V → Row)
    (junk : Nat → W) (n : Nat) (first : Batch I V) (more : List (Batch I V)) : Except PyErr (List R) := do
  let r ← Sdm.train ops co feat junk n false [] first.ims first.gts first.cur
  more.foldlM (fun regs b => (Sdm.train ops co feat junk n true regs b.ims b.gts b.cur).map Prod.fst) r.1

/-- Training, incrementing, and then fitting shapes that are regressed directly. -/
def trainAndFit {V Row R I : Type} [AddCommGroup V] (ops : RegOps Row V R) (feat : I → V → Row) (junk : Nat → V) (n : Nat)
    (first : Batch I V) (more : List (Batch I V)) : Except PyErr (I → V → Except PyErr (List V)) :=
  (afterTraining ops (plain V) feat junk n first more).map fun regs im s => fitShapes ops feat im regs s

/-- Training, incrementing, and then fitting shapes whose parameters are regressed. -/
def trainAndFitParameters {V W Row R I : Type} [AddCommGroup W] (ops : RegOps Row W R) (co : Coord V W)
    (feat : I → V → Row) (junk : Nat → W) (n : Nat) (first : Batch I V) (more : List (Batch I V)) :
    Except PyErr (I → V → Except PyErr (List V)) :=
  (afterTraining ops co feat junk n first more).map fun regs im s => fitParamShapes ops co feat im regs s

/-- `fit'`, given reordered shapes, returns the reordered shapes of `fit`, or raises what `fit` raises. -/
def SameFits {V I : Type} (ν : V → V) (fit fit' : Except PyErr (I → V → Except PyErr (List V))) : Prop :=
  fit'.map (fun f im s => f im (ν s)) = fit.map fun f im s => (f im s).map (List.map ν)

end Spec
end Menpofit
