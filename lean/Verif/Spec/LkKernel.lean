import Mathlib.Analysis.SpecialFunctions.Complex.Circle
/-!
# Specification: filtered errors (C130)
-/

namespace Menpofit
namespace Spec

variable {c h w : Nat}

/-- The amplitude of the wave with `f.1` periods along the rows and `f.2` along the columns of a plane. -/
noncomputable def amplitude (x : Fin h × Fin w → ℝ) (f : Fin h × Fin w) : ℂ :=
  ∑ p : Fin h × Fin w, Complex.exp (-(2 * Real.pi * Complex.I) *
    (((f.1 : ℕ) * (p.1 : ℕ) : ℕ) / h + ((f.2 : ℕ) * (p.2 : ℕ) : ℕ) / w)) * (x p : ℂ)

/-- The energy of a picture of `c` channels, its waves weighted by the kernel. -/
noncomputable def filteredEnergy (k : Fin h × Fin w → ℝ) (x : Fin c → Fin h × Fin w → ℝ) : ℝ :=
  ∑ i, ∑ f, k f * ‖amplitude (x i) f‖ ^ 2

/-- The kernel treats a wave and its mirror image alike, as the transform of every symmetric filter does. -/
def EvenKernel [NeZero h] [NeZero w] (k : Fin h × Fin w → ℝ) : Prop := ∀ a b, k (-a, -b) = k (a, b)

end Spec
end Menpofit
