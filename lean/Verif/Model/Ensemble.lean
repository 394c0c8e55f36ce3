import Verif.Model.Base
import Verif.Model.Convolution
import Mathlib.Analysis.SpecialFunctions.Trigonometric.Basic
import Mathlib.Analysis.SpecialFunctions.Log.Basic
/-!
# Ensembles of correlation filters: masks, desired responses, filter images, normalisation

Models parts of `/repo/menpofit/clm/expert/ensemble.py`.  Exact arithmetic; patches have at least two rows and
columns where the density is evaluated (SciPy drops axes of length one).
-/

namespace Menpofit
namespace Ens
open Base Fft Dft Conv

noncomputable section

/-- `np.hanning(M)[n]`: 1 for a window of length one, otherwise
`0.5 + 0.5 * cos(pi * (1 - M + 2 n) / (M - 1))`.
See `/repo/menpofit/clm/expert/ensemble.py:461-463` -/
def hanning (M n : Nat) : ℝ :=
  if M = 1 then 1 else 1 / 2 + 1 / 2 * Real.cos (Real.pi * (1 - M + 2 * n) / (M - 1))

/-- `generate_cosine_mask`, /repo/menpofit/clm/expert/ensemble.py:461-463. -/
def cosineMask (h w : Nat) : Plane ℝ :=
  ⟨h, w, List.ofFn fun i : Fin h => List.ofFn fun j : Fin w => hanning h i * hanning w j⟩

/-- `self._cosine_mask * patch` for one channel of the same shape,
/repo/menpofit/clm/expert/ensemble.py:327-329. -/
def masked (cosine : Bool) (p : Plane ℝ) : Plane ℝ :=
  if cosine then ⟨p.h, p.w, List.zipWith (List.zipWith (· * ·)) (cosineMask p.h p.w).rows p.rows⟩ else p

/-- SciPy's density of a normal distribution with mean zero and covariance `cov` times the identity.
See `/repo/menpofit/clm/expert/ensemble.py:442-444` -/
def density (cov : ℝ) (y x : Int) : ℝ :=
  Real.exp (-(1 / 2) * (2 * Real.log (2 * Real.pi) + Real.log (cov * cov) + ((y : ℝ) ^ 2 + (x : ℝ) ^ 2) / cov))

/-- `generate_gaussian_response`, /repo/menpofit/clm/expert/ensemble.py:442-444.  SciPy refuses negative and
singular covariances. -/
def gaussianResponse (h w : Nat) (cov : ℝ) : Except PyErr (Plane ℝ) :=
  if cov < 0 then .error .valueError
  else if cov = 0 then .error .linAlgError
  else .ok ⟨h, w, (buildGrid (h, w)).map fun row => row.map fun yx => density cov yx.1 yx.2⟩

/-- `n_sample_offsets`, /repo/menpofit/clm/expert/ensemble.py:106-116.  `sample_offsets` is `None` or an array with
two columns, given by its rows.  The truth value of an array with more than one element raises `ValueError`; an
empty array is false. -/
def nSampleOffsets : Option (List (ℝ × ℝ)) → Except PyErr Nat
  | none => .ok 1
  | some rows => if 2 * rows.length = 0 then .ok 1 else .error .valueError

/-- One channel of an element of `spatial_filter_images`, /repo/menpofit/clm/expert/ensemble.py:163-168: real part
of the inverse transform, cropped, with both axes reversed. -/
def filterImage (ph pw : Nat) {eh ew : Nat} (c : Pos eh ew → ℂ) : Plane ℝ :=
  let s : Plane ℝ := ⟨eh, ew, List.ofFn fun i => List.ofFn fun j => (ifft2 c (i, j)).re⟩
  let s := crop s (ph, pw)
  ⟨s.h, s.w, (s.rows.map List.reverse).reverse⟩

end
end Ens
end Menpofit
