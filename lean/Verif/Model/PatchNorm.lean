import Verif.Model.Py
import Mathlib.Analysis.SpecialFunctions.Sqrt
/-!
# How ensembles of experts stack and normalise patches

Models `_extract_patch` and `_extract_patches` of `/repo/menpofit/clm/expert/ensemble.py` with the default
`patch_normalisation`.  The pixels of one channel of one patch are a list; menpo's extraction is a parameter that
gives, for one landmark, the channels at each sample offset.
-/

namespace Menpofit
namespace PatchNorm

noncomputable section

/-- The average of the pixels. See `/repo/menpofit/clm/expert/ensemble.py:18-20` -/
def avg (v : List ℝ) : ℝ := v.sum / v.length

/-- Subtract the mean. See `/repo/menpofit/clm/expert/ensemble.py:18-20` -/
def centred (v : List ℝ) : List ℝ := v.map (· - avg v)

/-- Euclidean length. See `/repo/menpofit/clm/expert/ensemble.py:18-20` -/
def len (v : List ℝ) : ℝ := Real.sqrt (v.map (· ^ 2)).sum

/-- menpo `normalize_norm` along the first axis for one entry of it: subtract the mean and divide by the norm, or by
one if the norm is zero (`error_on_divide_by_zero=False`).
See `/repo/menpofit/clm/expert/ensemble.py:18-20` -/
def normed (v : List ℝ) : List ℝ :=
  let c := centred v
  c.map (· / if len c = 0 then 1 else len c)

/-- `channel_normalize_norm`, /repo/menpofit/clm/expert/ensemble.py:18-20, on a three-dimensional array: menpo takes the
first axis for the channels. -/
def normalise3 (patch : List (List ℝ)) : List (List ℝ) := patch.map normed

/-- Cut a list into pieces of the given lengths.
See `/repo/menpofit/clm/expert/ensemble.py:18-20` -/
def split : List Nat → List ℝ → List (List ℝ)
  | [], _ => []
  | n :: ns, v => v.take n :: split ns (v.drop n)

/-- `channel_normalize_norm` on a four-dimensional array: the first axis, here the landmarks, is again taken for the
channels, so everything belonging to one landmark is normalised together.
See `/repo/menpofit/clm/expert/ensemble.py:199-212` -/
def normalise4 (patches : List (List (List ℝ))) : List (List (List ℝ)) :=
  patches.map fun p => split (p.map List.length) (normed p.flatten)

/-- `_extract_patch`, /repo/menpofit/clm/expert/ensemble.py:185-197: the patch of one landmark, `(offsets x channels)`
planes.  (`CorrelationFilterExpertEnsemble` uses its context shape and may multiply by a mask, `:314-330`.) -/
def extractPatch {L : Type} (extract : L → List (List (List ℝ))) (l : L) : List (List ℝ) :=
  normalise3 (List.flatten [(extract l).flatten])

/-- `_extract_patches`, /repo/menpofit/clm/expert/ensemble.py:199-212: the patches of all landmarks. -/
def extractPatches {L : Type} (extract : L → List (List (List ℝ))) (shape : List L) : List (List (List ℝ)) :=
  normalise4 (shape.map fun l => (extract l).flatten)

end
end PatchNorm
end Menpofit
