import Verif.Model.Py
import Mathlib.Algebra.Ring.Defs
/-!
# Sampling masks and steepest descent images

Models `LucasKanadeBaseInterface._build_sampling_mask` and `steepest_descent_images` of
`/repo/menpofit/aam/algorithm/lk.py` (also used by the ATM and APS interfaces) and the
patch-based versions of both.  Arrays are stored in row-major (C) order.
-/

namespace Menpofit
namespace Sampling

/-- The `sampling` of one scale: `None`, a step (`np.int64`), an array of indices or an
array of booleans. See `/repo/menpofit/aam/algorithm/lk.py:57-64` -/
inductive Spec where
  | all
  | step (k : Int)
  | index (l : List Int)
  | flags (l : List Bool)

/-- `sampling_mask[i] = 1` for one integer index. See `/repo/menpofit/aam/algorithm/lk.py:57-64` -/
def setFlag (mask : List Bool) (i : Int) : Except PyErr (List Bool) :=
  if 0 ≤ i ∧ i < mask.length then .ok (mask.set i.toNat true)
  else if -(mask.length : Int) ≤ i ∧ i < 0 then .ok (mask.set (i + mask.length).toNat true)
  else .error .indexError

/-- `sampling_mask[list] = 1`.  NumPy checks all indices first; the partially filled mask of
the model's error case is discarded. See `/repo/menpofit/aam/algorithm/lk.py:57-64` -/
def setFlags (mask : List Bool) : List Int → Except PyErr (List Bool)
  | [] => .ok mask
  | i :: l => do
    let m ← setFlag mask i
    setFlags m l

/-- `range(0, n, k)`; a zero step raises `ValueError`.
See `/repo/menpofit/aam/algorithm/lk.py:57-64` -/
def pyRange (n : Nat) (k : Int) : Except PyErr (List Int) :=
  if k = 0 then .error .valueError
  else if 0 < k then
    .ok ((List.range ((n + k.toNat - 1) / k.toNat)).map fun (i : Nat) => (i : Int) * k)
  else .ok []

/-- `/repo/menpofit/aam/algorithm/lk.py:57-64`: the boolean mask over the true pixels of the
template. -/
def pixelMask (n : Nat) (s : Spec) : Except PyErr (List Bool) :=
  let mask := List.replicate n false
  match s with
  | .all => do
    let r ← pyRange n 1
    setFlags mask r
  | .step k => do
    let r ← pyRange n k
    setFlags mask r
  | .index l => setFlags mask l
  | .flags l =>
    if l.length = n then .ok (List.zipWith (fun a b => a || b) mask l) else .error .indexError

/-- `np.nonzero(a)[0]` of a one-dimensional boolean array.
See `/repo/menpofit/aam/algorithm/lk.py:66-67` -/
def nonzero (l : List Bool) : List Nat := (List.range l.length).filter fun i => l.getD i false

/-- `i_mask`, `/repo/menpofit/aam/algorithm/lk.py:66-67`: the mask tiled over the channels,
flattened.  The patch-based version (`:478-481`) is the same with one row per part,
offset and channel and the mask over the pixels of a patch. -/
def iMask (rows : Nat) (mask : List Bool) : List Nat :=
  nonzero ((List.replicate rows mask).flatten)

section
variable {K : Type} [Ring K]

/-- `nabla[self.nabla_mask]`, `/repo/menpofit/aam/algorithm/lk.py:70-71` and `:191`: the masked
entries of a `2 × C × n` array. -/
def maskedGradient (C : Nat) (mask : List Bool) (nabla : Nat → Nat → Nat → K) : List K :=
  (List.range 2).flatMap fun d => (List.range C).flatMap fun c =>
    (nonzero mask).map fun j => nabla d c j

/-- `dW_dp[self.dW_dp_mask]`, `/repo/menpofit/aam/algorithm/lk.py:68-69` and `:108-110`: the
masked entries of a `2 × n × P` array. -/
def maskedJacobian (P : Nat) (mask : List Bool) (dW : Nat → Nat → Nat → K) : List K :=
  (List.range 2).flatMap fun d => (nonzero mask).flatMap fun j =>
    (List.range P).map fun p => dW d j p

/-- Entry of `flat.reshape((a, b, w))`. See `/repo/menpofit/aam/algorithm/lk.py:172-202` -/
def entry3 (flat : List K) (b w i j k : Nat) : K := flat.getD ((i * b + j) * w + k) 0

/-- `steepest_descent_images`, `/repo/menpofit/aam/algorithm/lk.py:172-202`: both masked arrays
are reshaped with an inferred dimension, multiplied and summed over the two image
axes; one row per channel and pixel, one column per parameter. -/
def steepestDescent (C P : Nat) (mask : List Bool) (nabla dW : Nat → Nat → Nat → K) :
    List (List K) :=
  let fn := maskedGradient C mask nabla
  let wn := fn.length / (2 * C)
  let fw := maskedJacobian P mask dW
  let ww := fw.length / (2 * P)
  (List.range C).flatMap fun c => (List.range wn).map fun k => (List.range P).map fun p =>
    0 + entry3 fn C wn 0 c k * entry3 fw ww P 0 k p + entry3 fn C wn 1 c k * entry3 fw ww P 1 k p

/-- The patch-based `steepest_descent_images`, `/repo/menpofit/aam/algorithm/lk.py:570-601`:
`rows` per part (offsets times channels), the Jacobian of the part's point. -/
def patchSteepestDescent (parts rows P : Nat) (mask : List Bool) (nabla dW : Nat → Nat → Nat → K) :
    List (List K) :=
  let fn := maskedGradient (parts * rows) mask nabla
  let wn := fn.length / (2 * (parts * rows))
  (List.range (parts * rows)).flatMap fun c => (List.range wn).map fun k =>
    (List.range P).map fun p =>
      0 + entry3 fn (parts * rows) wn 0 c k * dW 0 (c / rows) p +
        entry3 fn (parts * rows) wn 1 c k * dW 1 (c / rows) p

end

end Sampling
end Menpofit
