import Verif.Model.FftUtils
import Verif.Model.Dft
/-!
# Convolution in the Fourier domain

Models the values computed by `/repo/menpofit/math/fft_utils.py:96-246` (`Verif.Model.FftUtils` models the
extents, with the product as a parameter) and by `predict_response` of
`/repo/menpofit/clm/expert/ensemble.py:214-238`.  Pixels are real, the transforms are exact.
-/

namespace Menpofit
namespace Conv
open Fft Dft

noncomputable section

/-- The values of an `h × w` array. See `/repo/menpofit/math/fft_utils.py:97-164` -/
def values (h w : Nat) (p : Plane ℝ) : Pos h w → ℂ := fun ij =>
  (((p.rows.getD ij.1 []).getD ij.2 0 : ℝ) : ℂ)

/-- `ifftshift(x, axes=(-2, -1))`: both axes are rolled by `-(n // 2)`.
See `/repo/menpofit/math/fft_utils.py:153` -/
def ifftshift {α : Type} {h w : Nat} (x : Pos h w → α) : Pos h w → α := fun ij =>
  x (⟨(ij.1 + h / 2) % h, Nat.mod_lt _ (Nat.lt_of_le_of_lt (Nat.zero_le _) ij.1.2)⟩,
    ⟨(ij.2 + w / 2) % w, Nat.mod_lt _ (Nat.lt_of_le_of_lt (Nat.zero_le _) ij.2.2)⟩)

/-- `np.real(ifftshift(ifft2(fft_ext_c), axes=(-2, -1)))`, `/repo/menpofit/math/fft_utils.py:153` and
`:235`. -/
def spatial {h w : Nat} (c : Pos h w → ℂ) : Plane ℝ :=
  ⟨h, w, List.ofFn fun i => List.ofFn fun j => (ifftshift (ifft2 c) (i, j)).re⟩

/-- `/repo/menpofit/math/fft_utils.py:146-153`, for two extended arrays of the same shape. -/
def product (x f : Plane ℝ) : Plane ℝ :=
  spatial (h := x.h) (w := x.w) (fft2 (values _ _ f) * fft2 (values _ _ x))

/-- `fft_convolve2d` of one channel with one filter in the image domain,
`/repo/menpofit/math/fft_utils.py:97-164`. -/
def convolve (x f : Plane ℝ) (mode : Mode) (b : Boundary) : Except PyErr (Plane ℝ) :=
  fftConvolve2d 0 product x f mode b

/-- `fft_convolve2d_sum` with filters in the Fourier domain, `/repo/menpofit/math/fft_utils.py:202-215`
and `:231-246`: the channels of the image (`h × w` each) with their filters (`eh × ew` each), summed over the
axis of the channels. -/
def convolveSumFourier (h w eh ew : Nat) (channels : List (Plane ℝ × (Pos eh ew → ℂ))) (mode : Mode)
    (b : Boundary) : Except PyErr (Plane ℝ) := do
  let fShape : Int × Int := (((eh + 1) * 2 / 3 : Nat), ((ew + 1) * 2 / 3 : Nat))
  let half : Int × Int := (fShape.1 / 2, fShape.2 / 2)
  let extX ← channels.mapM fun c => pad 0 b c.1 (eh, ew)
  let fftExtC := (List.zipWith (fun x c => c.2 * fft2 (values eh ew x)) extX channels).sum
  finish mode (spatial fftExtC) (h, w) half

/-- `padded_size` along one axis, `/repo/menpofit/clm/expert/ensemble.py:125`:
`floor(1.5 * p - 1)`. -/
def paddedSize (p : Nat) : Int := (3 * p : Int) / 2 - 1

/-- `fft_padded_filter` of one channel, `/repo/menpofit/clm/expert/ensemble.py:391-394`; the extent is that of
`pad`. -/
def paddedFilter (ph pw : Nat) (f : Plane ℝ) :
    Except PyErr (Pos (paddedSize ph).toNat (paddedSize pw).toNat → ℂ) := do
  let p ← pad 0 .constant f (paddedSize ph, paddedSize pw)
  return fft2 (values _ _ p)

/-- The response of one expert, `/repo/menpofit/clm/expert/ensemble.py:214-238` with `:391-394`: patch and filter
of each channel, both of the patch shape `ph × pw`. -/
def response (ph pw : Nat) (channels : List (Plane ℝ × Plane ℝ)) : Except PyErr (Plane ℝ) := do
  let filters ← channels.mapM fun c => paddedFilter ph pw c.2
  convolveSumFourier ph pw _ _ ((channels.map Prod.fst).zip filters) .same .constant

end
end Conv
end Menpofit
