import Verif.Spec.Convolution
import Verif.Model.Ensemble
/-!
# What masks, responses and filter images should be (C108)
-/

namespace Menpofit.Spec
open Fft

/-- A position on the border of an `h × w` array. -/
def OnBorder (h w i j : Nat) : Prop :=
  (1 < h ∧ (i = 0 ∨ i + 1 = h)) ∨ (1 < w ∧ (j = 0 ∨ j + 1 = w))

/-- A position at the exact middle of an `h × w` array. -/
def AtMiddle (h w i j : Nat) : Prop := 2 * i + 1 = h ∧ 2 * j + 1 = w

/-- Squared distance from the pixel `(h / 2, w / 2)`. -/
def offCentre (h w i j : Nat) : Int := ((i : Int) - (h / 2 : Nat)) ^ 2 + ((j : Int) - (w / 2 : Nat)) ^ 2

/-- The plane turned by half a turn. -/
def IsHalfTurn (p q : Plane ℝ) : Prop :=
  Rectangular q ∧ q.h = p.h ∧ q.w = p.w ∧
    ∀ i j : Nat, i < p.h → j < p.w → pixel q i j = pixel p ((p.h : ℤ) - 1 - i) ((p.w : ℤ) - 1 - j)

end Menpofit.Spec
