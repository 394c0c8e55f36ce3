import Verif.Model.Convolution
/-!
# Convolution of images and arrays

Models the decorator `ndconvolution` of `/repo/menpofit/math/fft_utils.py:75-93`.
-/

namespace Menpofit
namespace NdConv
open Fft

/-- What can be passed as image or filter: an array, or a menpo image with its pixels and what else belongs to
it (landmarks, mask).  One channel. See `/repo/menpofit/math/fft_utils.py:78-93` -/
inductive Arg (D : Type)
  | array (pixels : Plane ℝ)
  | image (pixels : Plane ℝ) (data : D)

/-- The pixels of an image or array. See `/repo/menpofit/math/fft_utils.py:78-93` -/
def Arg.pixels {D : Type} : Arg D → Plane ℝ
  | .array p => p
  | .image p _ => p

/-- `ndconvolution(wrapped)`, `/repo/menpofit/math/fft_utils.py:75-93`.  `rebuild` is what menpo's
`rebuild_feature_image` makes of the landmarks and mask of an image when its pixels are replaced by others.
An array with a menpo image as filter is passed on as it is (line 89), and `np.pad` of a menpo image raises a
`ValueError`. -/
def ndconvolution {D : Type} (rebuild : D → Plane ℝ → Plane ℝ → D)
    (wrapped : Plane ℝ → Plane ℝ → Except PyErr (Plane ℝ)) : Arg D → Arg D → Except PyErr (Arg D)
  | .image x d, .image f _ => (wrapped x f).map fun c => .image c (rebuild d x c)
  | .image x d, .array f => (wrapped x f).map fun c => .image c (rebuild d x c)
  | .array _, .image _ _ => .error .valueError
  | .array x, .array f => (wrapped x f).map .array

end NdConv
end Menpofit
