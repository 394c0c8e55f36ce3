import Verif.Model.TpsLandmarks
/-!
# What thin plate splines and their derivatives should do (C107)
-/

namespace Menpofit.Spec
open Matrix Warp TpsDl

variable {m : Nat}

/-- A singular value decomposition of a square matrix, largest value first. -/
structure IsFactors (A : Matrix (Ix m) (Ix m) ℝ) (f : Factors m) : Prop where
  product : A = f.u * diagonal f.s * f.v
  left : f.uᵀ * f.u = 1
  right : f.v * f.vᵀ = 1
  nonneg : ∀ r, 0 ≤ f.s r
  sorted : ∀ i j, i ≤ j → f.s j ≤ f.s i

/-- No singular value lies strictly between zero and the threshold. -/
def SingularGap (minSv : ℝ) (f : Factors m) : Prop := 0 < minSv ∧ ∀ r, f.s r = 0 ∨ minSv ≤ f.s r

/-- Weights and an affine part that cancel at every source point, with weights that sum to zero and have
zero first moments, have no affine part.  Holds if the interpolation problem has one solution; coincident
points do no harm, points on one line do. -/
def AffineDetermined (s : Fin m → P 2) : Prop :=
  ∀ (w : Fin m → ℝ) (a : Fin 3 → ℝ),
    (∀ i, (∑ j, w j * r2LogR2 (s j) (s i)) + a 0 + a 1 * s i 0 + a 2 * s i 1 = 0) →
    (∑ j, w j = 0) → (∑ j, w j * s j 0 = 0) → (∑ j, w j * s j 1 = 0) → a = 0

/-- A thin plate spline with the given centres: weights with zero sum and zero first moments, sending each
centre to its target. -/
def Interpolates (T : Tps m) (target : Fin m → P 2) : Prop :=
  (∀ j, ∑ i, T.w i j = 0) ∧ (∀ j, ∑ i, T.w i j • T.centres i = 0) ∧
    ∀ i j, T.apply j (T.centres i) = target i j

/-- For every target the spline is unique. -/
def UniqueSpline (s : Fin m → P 2) : Prop :=
  ∀ T T' : Tps m, T.centres = s → T'.centres = s → ∀ t, Interpolates T t → Interpolates T' t → T = T'

end Menpofit.Spec
