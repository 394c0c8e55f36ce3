import Verif.Spec.Sdm
import Mathlib.Algebra.BigOperators.Fin
import Mathlib.Algebra.Order.Ring.Defs
/-!
# Specification: how far the training shapes are from the ground truth
-/

namespace Menpofit
namespace Spec
open Sdm

/-- Squared distance of two vectors. -/
def sqOffset {K : Type} [Field K] {q : Nat} (a b : Fin q → K) : K := ∑ k, (a k - b k) ^ 2

/-- The squared distances of all shapes from the ground truth of their images, added up.  `proj` gives the
coordinates in which they are measured. -/
def totalError {K V : Type} [Field K] {q : Nat} (proj : V → Fin q → K) (gts : List V) (cur : List (List V)) : K :=
  (perShape (fun g s => sqOffset (proj g) (proj s)) gts cur).sum

/-- The sum of all offsets from the shapes to the ground truth of their images. -/
def totalOffset {K V : Type} [Field K] {q : Nat} (proj : V → Fin q → K) (gts : List V) (cur : List (List V)) :
    Fin q → K :=
  (perShape (fun g s => proj g - proj s) gts cur).sum

/-- Regressors of this class predict their own training data at least as well as the constant zero does. -/
def BeatsZero {K Row R : Type} [Field K] [LinearOrder K] {q : Nat} (ops : RegOps Row (Fin q → K) R) : Prop :=
  ∀ xs ys r, ops.train xs ys = .ok r →
    (List.zipWith sqOffset ys (ops.predict r xs)).sum ≤ (ys.map fun y => sqOffset y 0).sum

end Spec
end Menpofit
