import Verif.Model.FftUtils
import Mathlib.Data.Real.Basic
/-!
# Specification: blends of planes of pixels
-/

namespace Menpofit
namespace Spec
open Fft

/-- The plane with `g` applied to every pixel. -/
def mapPlane {α β : Type} (g : α → β) (p : Plane α) : Plane β := ⟨p.h, p.w, p.rows.map (List.map g)⟩

/-- Of two planes of the same size, given as one plane of pairs: the first. -/
def firstOf (p : Plane (ℝ × ℝ)) : Plane ℝ := mapPlane Prod.fst p

/-- Of two planes of the same size, given as one plane of pairs: the second. -/
def secondOf (p : Plane (ℝ × ℝ)) : Plane ℝ := mapPlane Prod.snd p

/-- `a` times the first plus `b` times the second, pixel by pixel. -/
noncomputable def blend (a b : ℝ) (p : Plane (ℝ × ℝ)) : Plane ℝ := mapPlane (fun v => a * v.1 + b * v.2) p

/-- `F` is linear: of two planes of the same size and any blend of them it either raises the same exception, or
gives two planes of the same size and the same blend of them. -/
def LinearlyOn {Φ : Type} (F : Φ → Except PyErr (Plane ℝ)) (first second : Φ) (mix : ℝ → ℝ → Φ) : Prop :=
  (∃ e, F first = .error e ∧ F second = .error e ∧ ∀ a b, F (mix a b) = .error e) ∨
  ∃ q : Plane (ℝ × ℝ), F first = .ok (firstOf q) ∧ F second = .ok (secondOf q) ∧
    ∀ a b, F (mix a b) = .ok (blend a b q)

end Spec
end Menpofit
