import Verif.Spec.FftUtils
import Mathlib.Data.Real.Basic
import Mathlib.Algebra.BigOperators.Fin
/-!
# Specification: convolution of an image with a filter (C95)
-/

namespace Menpofit.Spec
open Fft

noncomputable section

/-- The pixel at a position; zero outside the image. -/
def pixel (p : Plane ℝ) (i j : ℤ) : ℝ :=
  if 0 ≤ i ∧ 0 ≤ j then (p.rows.getD i.toNat []).getD j.toNat 0 else 0

/-- Every pixel of the image contributes the filter, placed so that the filter's element `(ch, cw)` is at that
pixel. -/
def convolution (x f : Plane ℝ) (ch cw : ℤ) (i j : ℤ) : ℝ :=
  ∑ a : Fin x.h, ∑ b : Fin x.w, pixel x a b * pixel f (i - a + ch) (j - b + cw)

/-- The element of a filter of the given length that is put on a pixel of an image of the given length: the
middle one, except that for a filter of even length it is one less if the extended image has odd length. -/
def filterCentre (image filter : Nat) : ℤ :=
  if filter % 2 = 0 ∧ (image + filter / 2 - 1) % 2 = 1 then filter / 2 - 1 else filter / 2

/-- The plane that is 1 at `(a, b)` and 0 elsewhere. -/
def impulse (h w a b : Nat) : Plane ℝ :=
  ⟨h, w, List.ofFn fun i : Fin h => List.ofFn fun j : Fin w => if (i : ℕ) = a ∧ (j : ℕ) = b then 1 else 0⟩

/-- The filter is zero in its first and last row. -/
def ZeroRows (f : Plane ℝ) : Prop := ∀ j, pixel f 0 j = 0 ∧ pixel f (f.h - 1) j = 0

/-- The filter is zero in its first and last column. -/
def ZeroColumns (f : Plane ℝ) : Prop := ∀ i, pixel f i 0 = 0 ∧ pixel f i (f.w - 1) = 0

/-- The position inside an image, or strictly inside unless the filter is zero along its border. -/
def Unaffected (f : Plane ℝ) (h w i j : Nat) : Prop :=
  i < h ∧ j < w ∧ ((0 < i ∧ i + 1 < h) ∨ ZeroRows f) ∧ ((0 < j ∧ j + 1 < w) ∨ ZeroColumns f)

end
end Menpofit.Spec
