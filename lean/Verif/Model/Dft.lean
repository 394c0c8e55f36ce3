import Mathlib.Analysis.SpecialFunctions.Complex.Circle
import Mathlib.LinearAlgebra.Matrix.ConjTranspose
/-!
# The discrete Fourier transform of a plane of pixels

NumPy's transforms, used in `/repo/menpofit/lk/residual.py` (`fftn`, `ifftn`, `fft2`) and in
`/repo/menpofit/math/fft_utils.py`, in exact complex arithmetic.
-/

namespace Menpofit
namespace Dft
open Matrix

noncomputable section

/-- The positions of an `h × w` plane. See `/repo/menpofit/math/fft_utils.py:97-164` -/
abbrev Pos (h w : Nat) := Fin h × Fin w

/-- The matrix of `np.fft.fft` along an axis of length `n`: `exp(-2πi k j / n)`.
See `/repo/menpofit/lk/residual.py:4` -/
def dft (n : Nat) : Matrix (Fin n) (Fin n) ℂ := fun k j =>
  Complex.exp (-(2 * Real.pi * Complex.I) * ((k : ℕ) * (j : ℕ) : ℕ) / n)

/-- The matrix of the transform along both spatial axes (`fft2`, and `fftn` with two axes).
See `/repo/menpofit/math/fft_utils.py:132` -/
def dft2 (h w : Nat) : Matrix (Pos h w) (Pos h w) ℂ := fun k j => dft h k.1 j.1 * dft w k.2 j.2

/-- `fft2` of a plane. See `/repo/menpofit/math/fft_utils.py:132` -/
def fft2 {h w : Nat} (x : Pos h w → ℂ) : Pos h w → ℂ := dft2 h w *ᵥ x

/-- `ifft2` of a plane: the conjugate transform divided by the number of pixels.
See `/repo/menpofit/math/fft_utils.py:153` -/
def ifft2 {h w : Nat} (x : Pos h w → ℂ) : Pos h w → ℂ :=
  (((h * w : ℕ) : ℂ))⁻¹ • ((dft2 h w)ᴴ *ᵥ x)

end
end Dft
end Menpofit
