import Mathlib.Data.List.Basic
/-!
# Specification of the face mark-ups (C34)

Landmarks are identified by their index in the 68-point mark-up.
-/

namespace Menpofit.Spec

/-- The landmarks of the 51-point mark-up: the 68 points without the jaw (0–16). -/
def landmarks51 : List Nat := (List.range 68).filter fun i => 17 ≤ i

/-- The landmarks of the 66-point mark-up: the 68 points without the inner mouth corners
(60 and 64). -/
def landmarks66 : List Nat := (List.range 68).filter fun i => i ≠ 60 && i ≠ 64

/-- The landmarks of the 49-point mark-up: neither jaw nor inner mouth corners. -/
def landmarks49 : List Nat := (List.range 68).filter fun i => 17 ≤ i && i ≠ 60 && i ≠ 64

/-- The part of a 68-point face that belongs to a mark-up. -/
def part {P : Type} (markup : List Nat) (face : Fin 68 → P) : List P :=
  markup.filterMap fun i => if h : i < 68 then some (face ⟨i, h⟩) else none

/-- The face in the four mark-ups. -/
def full {P : Type} (face : Fin 68 → P) : List P := List.ofFn face

end Menpofit.Spec
