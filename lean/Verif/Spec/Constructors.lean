import Verif.Model.Checks
import Verif.Spec.Checks
/-!
# Specification vocabulary for constructor options

Written from the documentation of the constructors.
-/

namespace Menpofit
namespace Spec
open Checks

/-- Documented `scales`: a number, or a non-empty list or tuple of numbers; `s` are the scales. -/
inductive ScalesGiven : Py → List Py → Prop
  | number {v : Py} (h : v.isNumber = true) : ScalesGiven v [v]
  | list {l : List Py} (hne : l ≠ []) (h : ∀ x ∈ l, x.isNumber = true) : ScalesGiven (.list l) l
  | tuple {l : List Py} (hne : l ≠ []) (h : ∀ x ∈ l, x.isNumber = true) :
      ScalesGiven (.tuple l) l

/-- A documented per-scale option: one value for all `n` scales, or a list or tuple with one value
for all scales or one per scale.  `out` has the value of every scale. -/
inductive Given (P : Py → Prop) (n : Nat) : Py → List Py → Prop
  | single {v : Py} (h : P v) : Given P n v (List.replicate n v)
  | list1 {x : Py} (h : P x) : Given P n (.list [x]) (List.replicate n x)
  | tuple1 {x : Py} (h : P x) : Given P n (.tuple [x]) (List.replicate n x)
  | list {l : List Py} (hl : l.length = n) (h : ∀ x ∈ l, P x) : Given P n (.list l) l
  | tuple {l : List Py} (hl : l.length = n) (h : ∀ x ∈ l, P x) : Given P n (.tuple l) l

/-- A documented graph option: no graph, one graph, or a list of those. -/
inductive GraphsGiven (P : Py → Prop) (n : Nat) : Py → List Py → Prop
  | none : GraphsGiven P n .none (List.replicate n .none)
  | single {v : Py} (h : P v) : GraphsGiven P n v (List.replicate n v)
  | list1 {x : Py} (h : x = .none ∨ P x) : GraphsGiven P n (.list [x]) (List.replicate n x)
  | list {l : List Py} (hl : l.length = n) (h : ∀ x ∈ l, x = .none ∨ P x) :
      GraphsGiven P n (.list l) l

/-- A documented patch shape: one pair for all scales, or a list with a pair for every scale. -/
inductive PatchesGiven (n : Nat) : PatchArg → List PatchArg → Prop
  | single (h w : Int) :
      PatchesGiven n (.seq [.int h, .int w]) (List.replicate n (.seq [.int h, .int w]))
  | list (l : List (Int × Int)) (hl : l.length = n) :
      PatchesGiven n (.seq (l.map fun p => .seq [.int p.1, .int p.2]))
        (l.map fun p => .seq [.int p.1, .int p.2])

/-- A documented number of iterations: a total that is divided evenly (and rounded), or a list
with one number per scale. -/
inductive IterationsGiven (n : Nat) : MaxIters → List Int → Prop
  | total (m k : Int) (h : NearestEven ((m : Rat) / n) k) :
      IterationsGiven n (.int m) (List.replicate n k)
  | list (l : List Int) (hl : l.length = n) :
      IterationsGiven n (.seq (l.map fun (i : Int) => (i : Rat))) l

/-- A documented `diagonal`: none, or at least 20. -/
def DiagonalGiven (d : Option Rat) : Prop := ∀ x, d = some x → 20 ≤ x

/-- Being an object of one of these classes. -/
def OfType (types : List Nat) (v : Py) : Prop := ∃ ty ∈ types, ∃ i, v = .obj ty i

end Spec
end Menpofit
