import Verif.Model.Warps
import Mathlib.Analysis.Calculus.Gradient.Basic
import Mathlib.Analysis.InnerProductSpace.Calculus
import Mathlib.Analysis.SpecialFunctions.Log.Deriv
import Mathlib.Analysis.SpecialFunctions.Log.NegMulLog
/-!
# Lemmas about basis functions and warps
-/

namespace Menpofit
namespace Warp
open scoped InnerProductSpace

variable {d : Nat}

theorem log_sq (r : ℝ) : Real.log (r ^ 2) = 2 * Real.log r := by
  rw [Real.log_pow]; norm_num

theorem r2LogR2_eq (c x : P d) : r2LogR2 c x = 2 * r2LogR c x := by
  unfold r2LogR2 r2LogR
  split
  · simp
  · rw [log_sq]; ring

theorem r2LogR_eq (c x : P d) : r2LogR c x = ‖x - c‖ * (‖x - c‖ * Real.log ‖x - c‖) := by
  unfold r2LogR
  rw [dist_eq_norm]
  split
  · rename_i h; simp [h]
  · ring

/-- Gradient of `r² log r`. -/
theorem grad_r2LogR (c x : P d) :
    HasGradientAt (r2LogR c) ((1 + 2 * Real.log (if dist x c = 0 then 1 else dist x c)) • (x - c)) x := by
  have hf : r2LogR c = fun y => ‖y - c‖ * (‖y - c‖ * Real.log ‖y - c‖) := funext (r2LogR_eq c)
  by_cases hx : x = c
  · subst hx
    simp only [sub_self, smul_zero]
    rw [hasGradientAt_iff_isLittleO]
    simp only [hf, inner_zero_left, sub_zero, sub_self, norm_zero, zero_mul]
    have h0 : Filter.Tendsto (fun y : P d => ‖y - x‖ * Real.log ‖y - x‖) (nhds x) (nhds 0) := by
      have hc : Continuous fun y : P d => ‖y - x‖ * Real.log ‖y - x‖ :=
        Real.continuous_mul_log.comp (by fun_prop : Continuous fun y : P d => ‖y - x‖)
      have := hc.tendsto x
      simpa using this
    have h1 := (Asymptotics.isLittleO_one_iff ℝ).2 h0
    have h2 := (Asymptotics.isBigO_refl (fun y : P d => ‖y - x‖) (nhds x)).mul_isLittleO h1
    simp only [mul_one] at h2
    exact h2.of_norm_right
  · have hne : x - c ≠ 0 := sub_ne_zero.2 hx
    have hd : dist x c ≠ 0 := dist_ne_zero.2 hx
    have hs : HasFDerivAt (fun y : P d => ‖y - c‖ ^ 2) ((2 : ℝ) • innerSL ℝ (x - c)) x := by
      have h1 := (hasStrictFDerivAt_norm_sq (x - c)).hasFDerivAt
      have h2 := (hasFDerivAt_id (𝕜 := ℝ) x).sub_const c
      simpa [Function.comp_def, two_smul] using h1.comp x h2
    have hpos : ‖x - c‖ ^ 2 ≠ 0 := pow_ne_zero _ (norm_ne_zero_iff.2 hne)
    have hl := hs.log hpos
    have hm := (hs.mul hl).const_mul (1 / 2 : ℝ)
    rw [hasGradientAt_iff_hasFDerivAt]
    have hf2 : r2LogR c = fun y => 1 / 2 * (‖y - c‖ ^ 2 * Real.log (‖y - c‖ ^ 2)) := by
      rw [hf]; funext y; rw [log_sq]; ring
    rw [hf2]
    refine hm.congr_fderiv ?_
    ext v
    rw [if_neg hd, dist_eq_norm]
    simp only [log_sq]
    simp
    field_simp

theorem grad_smul {f : P d → ℝ} {v x : P d} (a : ℝ) (h : HasGradientAt f v x) :
    HasGradientAt (fun y => a * f y) (a • v) x := by
  rw [hasGradientAt_iff_hasFDerivAt] at *
  have := h.const_mul a
  simpa using this

theorem grad_add {f g : P d → ℝ} {u v x : P d} (h : HasGradientAt f u x) (k : HasGradientAt g v x) :
    HasGradientAt (fun y => f y + g y) (u + v) x := by
  rw [hasGradientAt_iff_hasFDerivAt] at *
  have := h.add k
  rw [map_add]; exact this

theorem grad_sum {ι : Type} (s : Finset ι) {f : ι → P d → ℝ} {v : ι → P d} {x : P d}
    (h : ∀ i, HasGradientAt (f i) (v i) x) :
    HasGradientAt (fun y => ∑ i ∈ s, f i y) (∑ i ∈ s, v i) x := by
  classical
  induction s using Finset.induction_on with
  | empty => simpa using hasGradientAt_const x (0 : ℝ)
  | insert a s ha ih => simp only [Finset.sum_insert ha]; exact grad_add (h a) ih

theorem grad_coord (r : Fin 2) (x : P 2) :
    HasGradientAt (fun y : P 2 => y r) (WithLp.toLp 2 fun c => pwaDdx r c) x := by
  rw [hasGradientAt_iff_hasFDerivAt]
  have h : HasFDerivAt (fun y : P 2 => y r) (EuclideanSpace.proj r : P 2 →L[ℝ] ℝ) x :=
    (EuclideanSpace.proj r : P 2 →L[ℝ] ℝ).hasFDerivAt
  refine h.congr_fderiv ?_
  ext v
  rw [InnerProductSpace.toDual_apply_apply]
  simp [PiLp.inner_apply, pwaDdx]

theorem grad_r2LogR2 {np nc : Nat} (c : Fin nc → P d) (x : Fin np → P d) (i : Fin np) (k : Fin nc) :
    HasGradientAt (r2LogR2 (c k)) (r2LogR2Ddl c x i k) (x i) := by
  have h := grad_smul 2 (grad_r2LogR (c k) (x i))
  have e : r2LogR2 (c k) = fun y => 2 * r2LogR (c k) y := funext (r2LogR2_eq (c k))
  rw [e]
  convert h using 1
  simp only [r2LogR2Ddl]
  module

theorem ddl_sum {nv : Nat} {E : Type} [AddCommGroup E] [Module ℝ E] (l : Located nv) (hij : l.i ≠ l.j)
    (hjk : l.j ≠ l.k) (hik : l.i ≠ l.k) (f : Fin nv → E) (r : Fin 2) :
    ∑ v, pwaDdl l v r • f v =
      (1 - l.alpha - l.beta) • f l.i + l.alpha • f l.j + l.beta • f l.k := by
  have e : ∀ v, pwaDdl l v r • f v = (if v = l.i then (1 - l.alpha - l.beta) • f l.i else 0) +
      (if v = l.j then l.alpha • f l.j else 0) + (if v = l.k then l.beta • f l.k else 0) := by
    intro v
    simp only [pwaDdl, Function.update_apply]
    by_cases h1 : v = l.k
    · subst h1; simp [hik.symm, hjk.symm]
    · by_cases h2 : v = l.j
      · subst h2; simp [h1, hij.symm]
      · by_cases h3 : v = l.i
        · subst h3; simp [h1, h2]
        · simp [h1, h2, h3]
  simp only [e, Finset.sum_add_distrib, Finset.sum_ite_eq', Finset.mem_univ, if_true]

/-- The true gradient of a thin plate spline. -/
theorem tps_grad {m : Nat} (t : Tps m) (j : Fin 2) (x : P 2) :
    HasGradientAt (t.apply j)
      ((∑ i, t.w i j • r2LogR2Ddl (np := 1) t.centres (fun _ => x) 0 i) +
        t.aff 1 j • (WithLp.toLp 2 fun c => pwaDdx 0 c) +
        t.aff 2 j • (WithLp.toLp 2 fun c => pwaDdx 1 c)) x := by
  unfold Tps.apply
  have h1 := grad_sum Finset.univ fun i =>
    grad_smul (t.w i j) (grad_r2LogR2 (np := 1) t.centres (fun _ => x) 0 i)
  have h2 := grad_add h1 (hasGradientAt_const x (t.aff 0 j))
  have h3 := grad_add h2 (grad_smul (t.aff 1 j) (grad_coord 0 x))
  have h4 := grad_add h3 (grad_smul (t.aff 2 j) (grad_coord 1 x))
  simpa using h4

/-- Four corners of a square with alternating weights: a spline with the usual side conditions. -/
def square : Tps 4 where
  centres := ![0, !₂[1, 0], !₂[1, 1], !₂[0, 1]]
  w := fun i j => if j = 0 then ![1, -1, 1, -1] i else 0
  aff := fun _ _ => 0

theorem dist_square :
    dist (0 : P 2) (!₂[1, 0]) = 1 ∧ dist (0 : P 2) (!₂[1, 1]) = Real.sqrt 2 ∧
      dist (0 : P 2) (!₂[0, 1]) = 1 := by
  refine ⟨?_, ?_, ?_⟩ <;> rw [EuclideanSpace.dist_eq] <;> norm_num [Fin.sum_univ_two, Real.dist_eq]

/-- What `d_dx` reports at the first corner. -/
theorem square_code : (∑ i, square.w i 0 * (r2LogR2Ddl square.centres square.centres i 0) 0) =
    2 * Real.log 2 := by
  obtain ⟨h1, h2, h3⟩ := dist_square
  simp only [Fin.sum_univ_four, r2LogR2Ddl, square, Matrix.cons_val_zero, Matrix.cons_val_one,
    Matrix.cons_val, if_true]
  simp only [dist_comm _ (0 : P 2), h1, h2, h3]
  simp [Real.log_sqrt]
  ring

/-- The true value. -/
theorem square_true :
    (∑ i, square.w i 0 * (r2LogR2Ddl (np := 1) square.centres (fun _ => square.centres 0) 0 i) 0) =
    -(2 * Real.log 2) := by
  obtain ⟨h1, h2, h3⟩ := dist_square
  simp only [Fin.sum_univ_four, r2LogR2Ddl, square, Matrix.cons_val_zero, Matrix.cons_val_one,
    Matrix.cons_val, if_true]
  simp only [h1, h2, h3]
  simp [Real.log_sqrt]
  ring

end Warp
end Menpofit
