import Verif.Model.Py
/-!
# Padding, cropping and Fourier-domain convolution

Models `/repo/menpofit/math/fft_utils.py`.  An array is modelled by its last two axes (every
function here acts on each channel plane separately); the Fourier transforms are a
parameter.
-/

namespace Menpofit
namespace Fft

/-- A plane of pixels with its shape. See `/repo/menpofit/math/fft_utils.py:32-54` -/
structure Plane (α : Type) where
  h : Nat
  w : Nat
  rows : List (List α)
deriving DecidableEq

/-- The modes of `np.pad` used in menpofit. See `/repo/menpofit/math/fft_utils.py:32-54` -/
inductive Boundary | constant | symmetric
deriving DecidableEq

/-- `k` values continuing `l` to the right with `np.pad(mode='symmetric')`: the array is reflected
at its border again and again. See `/repo/menpofit/math/fft_utils.py:54` -/
def symmetricAfter {α : Type} : Nat → List α → List α
  | k, l => ((List.replicate k (l.reverse ++ l)).flatten).take k

/-- The `k` values `np.pad` puts after `l`; `z` is the zero of 'constant'.
See `/repo/menpofit/math/fft_utils.py:54` -/
def after {α : Type} (b : Boundary) (z : α) (k : Nat) (l : List α) : List α :=
  match b with
  | .constant => List.replicate k z
  | .symmetric => symmetricAfter k l

/-- The `k` values `np.pad` puts before `l`. See `/repo/menpofit/math/fft_utils.py:54` -/
def before {α : Type} (b : Boundary) (z : α) (k : Nat) (l : List α) : List α :=
  (after b z k l.reverse).reverse

/-- /repo/menpofit/math/fft_utils.py:37-46: margins before and after along one axis. -/
def margins (n ext : Int) : Int × Int :=
  let margin := Int.fdiv (ext - n) 2
  (if n + 2 * margin < ext then margin + 1 else margin, margin)

/-- `np.lib.pad` along one axis; negative widths raise `ValueError`, and so does an empty axis in
a mode that needs values. See `/repo/menpofit/math/fft_utils.py:54` -/
def npPad {α : Type} (b : Boundary) (z : α) (m : Int × Int) (l : List α) :
    Except PyErr (List α) :=
  if m.1 < 0 ∨ m.2 < 0 then .error .valueError
  else if b = .symmetric ∧ l = [] ∧ (0 < m.1 ∨ 0 < m.2) then .error .valueError
  else .ok (before b z m.1.toNat l ++ l ++ after b z m.2.toNat l)

/-- /repo/menpofit/math/fft_utils.py:32-54 `pad`. -/
def pad {α : Type} (zero : α) (b : Boundary) (p : Plane α) (ext : Int × Int) :
    Except PyErr (Plane α) := do
  let mh := margins p.h ext.1
  let mw := margins p.w ext.2
  let rows ← p.rows.mapM (npPad b zero mw)
  let w := (p.w : Int) + mw.1 + mw.2
  let rows ← npPad b (List.replicate w.toNat zero) mh rows
  if mw.1 < 0 ∨ mw.2 < 0 then .error .valueError
  else .ok ⟨((p.h : Int) + mh.1 + mh.2).toNat, w.toNat, rows⟩

/-- Normalisation of a Python slice bound. See `/repo/menpofit/math/fft_utils.py:58-71` -/
def bound (n : Nat) (i : Int) : Nat :=
  if i < 0 then (i + n).toNat else min i.toNat n

/-- `l[start:stop]`. See `/repo/menpofit/math/fft_utils.py:58-71` -/
def slice {α : Type} (start stop : Int) (l : List α) : List α :=
  (l.take (bound l.length stop)).drop (bound l.length start)

/-- Length of `l[start:stop]` for a list of length `n`.
See `/repo/menpofit/math/fft_utils.py:58-71` -/
def sliceLen (n : Nat) (start stop : Int) : Nat := bound n stop - bound n start

/-- /repo/menpofit/math/fft_utils.py:63-71: start and stop of the crop along one axis. -/
def cropBounds (n size : Int) : Int × Int :=
  let margin := Int.fdiv (n - size) 2
  let corrector : Int := if Int.fmod (n - size) 2 ≠ 0 then 1 else 0
  (margin + corrector, -margin)

/-- /repo/menpofit/math/fft_utils.py:58-71 `crop`. -/
def crop {α : Type} (p : Plane α) (shape : Int × Int) : Plane α :=
  let bh := cropBounds p.h shape.1
  let bw := cropBounds p.w shape.2
  ⟨sliceLen p.h bh.1 bh.2, sliceLen p.w bw.1 bw.2,
    (slice bh.1 bh.2 p.rows).map (slice bw.1 bw.2)⟩

/-- The argument `mode` of the convolutions. See `/repo/menpofit/math/fft_utils.py:155-164` -/
inductive Mode | full | same | valid | other
deriving DecidableEq

/-- /repo/menpofit/math/fft_utils.py:155-164 (also 237-246): the last step. -/
def finish {α : Type} (mode : Mode) (c : Plane α) (xShape half : Int × Int) :
    Except PyErr (Plane α) :=
  match mode with
  | .full => .ok c
  | .same => .ok (crop c xShape)
  | .valid => .ok (crop c (xShape.1 - half.1 + 1, xShape.2 - half.2 + 1))
  | .other => .error .valueError

/-- /repo/menpofit/math/fft_utils.py:96-164 `fft_convolve2d` with an image-domain filter.
`conv` is multiplication in the Fourier domain of the two extended planes
(lines 146-153). -/
def fftConvolve2d {α : Type} (zero : α) (conv : Plane α → Plane α → Plane α) (x f : Plane α)
    (mode : Mode) (b : Boundary) : Except PyErr (Plane α) := do
  let half : Int × Int := (f.h / 2, f.w / 2)
  let ext : Int × Int := (x.h + half.1 - 1, x.w + half.2 - 1)
  let extX ← pad zero b x ext
  let extF ← pad zero .constant f ext
  finish mode (conv extX extF) (x.h, x.w) half

/-- /repo/menpofit/math/fft_utils.py:124-133 and 149-164: `fft_convolve2d` with a filter already in
the Fourier domain (`fftShape` is its shape, `conv` the product with it).  The
name `x_shape` is not bound on this path: modes 'same' and 'valid' raise
`UnboundLocalError`, a subclass of `NameError`. -/
def fftConvolve2dFourier {α : Type} (zero : α) (conv : Plane α → Plane α) (x : Plane α)
    (fftShape : Int × Int) (mode : Mode) (b : Boundary) : Except PyErr (Plane α) := do
  let extX ← pad zero b x fftShape
  match mode with
  | .full => .ok (conv extX)
  | .same => .error .nameError
  | .valid => .error .nameError
  | .other => .error .valueError

/-- /repo/menpofit/math/fft_utils.py:202-215 and 231-246: `fft_convolve2d_sum` with a filter already
in the Fourier domain; line 207 recovers the filter size `int((ext + 1) / 1.5)`.
`conv` includes the sum over the channels (shapes of single planes only). -/
def fftConvolve2dSumFourier {α : Type} (zero : α) (conv : Plane α → Plane α) (x : Plane α)
    (fftShape : Nat × Nat) (mode : Mode) (b : Boundary) : Except PyErr (Plane α) := do
  let fShape : Int × Int := (((fftShape.1 + 1) * 2 / 3 : Nat), ((fftShape.2 + 1) * 2 / 3 : Nat))
  let half : Int × Int := (fShape.1 / 2, fShape.2 / 2)
  let extX ← pad zero b x (fftShape.1, fftShape.2)
  finish mode (conv extX) (x.h, x.w) half

end Fft
end Menpofit
