import Verif.Model.FftUtils
/-!
# Specification vocabulary for padding and cropping (C40, C73)
-/

namespace Menpofit.Spec
open Fft

/-- A plane whose rows agree with its declared shape. -/
def Rectangular {α : Type} (p : Plane α) : Prop :=
  p.rows.length = p.h ∧ ∀ r ∈ p.rows, r.length = p.w

/-- The value at row `i` and column `j`. -/
def pixelAt {α : Type} (p : Plane α) (i j : Nat) : Option α := (p.rows[i]?).bind (·[j]?)

/-- The index among `0 .. n-1` that position `i` shows when the axis is reflected at its borders
again and again: `.. 1 0 | 0 1 .. n-1 | n-1 n-2 ..`. -/
def reflect (n : Nat) (i : Int) : Nat :=
  let m := (i % (2 * n : Nat)).toNat
  if m < n then m else 2 * n - 1 - m

end Menpofit.Spec
