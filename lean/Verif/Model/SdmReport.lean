import Verif.Model.Stats
import Verif.Model.Error
/-!
# What supervised descent training prints

Models the numbers printed by `/repo/menpofit/sdm/algorithm/base.py:327-413` during verbose training (the text around
them is not modelled).
-/

namespace Menpofit
namespace SdmReport
open Stats

noncomputable section

variable {V W S : Type}

/-- The loop that collects the errors, /repo/menpofit/sdm/algorithm/base.py:356-361 (`inst` is
`template_shape.from_vector`) and :399-407 (`inst` is the target of the shape model after `_from_vector_inplace`).
`n` is `n_perturbations`; it is positive whenever there is a row, :82. -/
def printErrors (err : S → S → V → Except PyErr ℝ) (inst : W → Except PyErr S) (gts : List V) (n : Nat)
    (delta est : List W) : Except PyErr (List ℝ) :=
  (delta.zip est).zipIdx.mapM fun r => do
    let s1 ← inst r.1.1
    let s2 ← inst r.1.2
    match gts[r.2 / n]? with
    | some g => err s1 s2 g
    | none => .error .indexError

/-- The printed mean, standard deviation and median. /repo/menpofit/sdm/algorithm/base.py:362-367 and :408-413 -/
def printInfo (err : S → S → V → Except PyErr ℝ) (inst : W → Except PyErr S) (gts : List V) (n : Nat)
    (delta est : List W) : Except PyErr (ℝ × ℝ × ℝ) := do
  let errors ← printErrors err inst gts n delta est
  return (npMean errors, npStd errors, npMedian errors)

/-- `euclidean_bb_normalised_error` and `root_mean_square_bb_normalised_error` as they are called,
`compute_error_f(s1, s2, gt_s)`: the third argument is `norm_shape`, `norm_type` has its default
(/repo/menpofit/sdm/algorithm/base.py:361, 407 and /repo/menpofit/error/base.py:336, 469). -/
def asCalled {n d : Nat} (e : Error.Shape n d → Error.Shape n d → ℝ) (s1 s2 gt : Error.Shape n d) : Except PyErr ℝ :=
  Error.bbNormalisedError e s1 s2 (some gt) "avg_edge_length"

end
end SdmReport
end Menpofit
