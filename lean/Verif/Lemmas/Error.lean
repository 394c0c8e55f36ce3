import Verif.Model.Error
import Verif.Lemmas.Stats
import Verif.Lemmas.Result
import Mathlib.Analysis.InnerProductSpace.PiL2
/-!
# Helper lemmas for the error functions
-/
set_option linter.unusedSectionVars false

namespace Menpofit
open Error Stats

noncomputable section

/-- The root of a sum of squared differences is a distance. -/
theorem sqrt_sum_sq_eq_dist {ι : Type} [Fintype ι] (a b : ι → ℝ) :
    Real.sqrt (∑ j, (a j - b j) ^ 2) = dist (WithLp.toLp 2 a : EuclideanSpace ℝ ι) (WithLp.toLp 2 b) := by
  rw [EuclideanSpace.dist_eq]
  congr 1
  apply Finset.sum_congr rfl
  intro j _
  rw [Real.dist_eq, sq_abs]

theorem sqrt_sum_sq_triangle {ι : Type} [Fintype ι] (a b c : ι → ℝ) :
    Real.sqrt (∑ j, (a j - c j) ^ 2) ≤
      Real.sqrt (∑ j, (a j - b j) ^ 2) + Real.sqrt (∑ j, (b j - c j) ^ 2) := by
  rw [sqrt_sum_sq_eq_dist, sqrt_sum_sq_eq_dist, sqrt_sum_sq_eq_dist]
  exact dist_triangle _ _ _

theorem sqrt_sum_sq_zero {ι : Type} [Fintype ι] (a b : ι → ℝ) :
    Real.sqrt (∑ j, (a j - b j) ^ 2) = 0 ↔ a = b := by
  rw [sqrt_sum_sq_eq_dist, dist_eq_zero]
  constructor
  · intro h; exact congrArg (WithLp.ofLp) h
  · rintro rfl; rfl

theorem sqrt_sum_sq_scale {ι : Type} [Fintype ι] (a b : ι → ℝ) (s : ℝ) :
    Real.sqrt (∑ j, (s * a j - s * b j) ^ 2) = |s| * Real.sqrt (∑ j, (a j - b j) ^ 2) := by
  have : ∑ j, (s * a j - s * b j) ^ 2 = s ^ 2 * ∑ j, (a j - b j) ^ 2 := by
    rw [Finset.mul_sum]; apply Finset.sum_congr rfl; intro j _; ring
  rw [this, Real.sqrt_mul (sq_nonneg s), Real.sqrt_sq_eq_abs]

/-- The root mean square error as one sum over all coordinates. -/
theorem rms_flat {n d : Nat} (a b : Shape n d) :
    rootMeanSquareError a b =
      Real.sqrt (∑ p : Fin n × Fin d, (a p.1 p.2 - b p.1 p.2) ^ 2) / Real.sqrt (n * d : Nat) := by
  unfold rootMeanSquareError
  rw [Real.sqrt_div' _ (Nat.cast_nonneg _), Fintype.sum_prod_type]

theorem npMax_map {α : Type} (f : α → ℝ) (g : ℝ → ℝ) (hg : Monotone g) (l : List α) (hl : l ≠ []) :
    npMax (l.map fun x => g (f x)) = g (npMax (l.map f)) := by
  have hm := npMax_mem (l := l.map f) (by simpa using hl)
  obtain ⟨x, hx, he⟩ := List.mem_map.mp hm
  apply npMax_unique
  · rw [← he]; exact List.mem_map.mpr ⟨x, hx, rfl⟩
  · intro y hy
    obtain ⟨z, hz, rfl⟩ := List.mem_map.mp hy
    exact hg (npMax_ge (List.mem_map.mpr ⟨z, hz, rfl⟩))

theorem npMin_map {α : Type} (f : α → ℝ) (g : ℝ → ℝ) (hg : Monotone g) (l : List α) (hl : l ≠ []) :
    npMin (l.map fun x => g (f x)) = g (npMin (l.map f)) := by
  have hm := npMin_mem (l := l.map f) (by simpa using hl)
  obtain ⟨x, hx, he⟩ := List.mem_map.mp hm
  apply npMin_unique
  · rw [← he]; exact List.mem_map.mpr ⟨x, hx, rfl⟩
  · intro y hy
    obtain ⟨z, hz, rfl⟩ := List.mem_map.mp hy
    exact hg (npMin_le (List.mem_map.mpr ⟨z, hz, rfl⟩))

variable {n d : Nat}

theorem extent_similar (hn : n ≠ 0) (s : Shape n d) (c : ℝ) (hc : 0 < c) (t : Fin d → ℝ) (j : Fin d) :
    extent (fun i k => c * s i k + t k) j = c * extent s j := by
  unfold extent
  have hne : List.finRange n ≠ [] := by simpa [List.finRange_eq_nil_iff] using hn
  have hmono : Monotone fun x : ℝ => c * x + t j := fun a b h => by
    have := mul_le_mul_of_nonneg_left h hc.le
    simpa using this
  have h1 := npMax_map (fun i => s i j) (fun x => c * x + t j) hmono (List.finRange n) hne
  have h2 := npMin_map (fun i => s i j) (fun x => c * x + t j) hmono (List.finRange n) hne
  rw [List.ofFn_eq_map, List.ofFn_eq_map, h1, h2]
  ring

theorem extent_nonneg (hn : n ≠ 0) (s : Shape n d) (j : Fin d) : 0 ≤ extent s j := by
  have : (⟨0, by omega⟩ : Fin n) ∈ List.finRange n := List.mem_finRange _
  have hm : s ⟨0, by omega⟩ j ∈ List.ofFn fun i => s i j := by
    rw [List.ofFn_eq_map]; exact List.mem_map.mpr ⟨_, this, rfl⟩
  have h1 := npMax_ge hm
  have h2 := npMin_le hm
  unfold extent
  linarith

theorem bbSides_ok {s : Shape n d} {v : ℝ × ℝ} (h : bbSides s = .ok v) :
    n ≠ 0 ∧ ∃ hd : d = 2, v = (extent s ⟨0, by omega⟩, extent s ⟨1, by omega⟩) := by
  unfold bbSides at h
  by_cases hn : n = 0
  · rw [if_pos hn] at h; cases h
  · rw [if_neg hn] at h
    by_cases hd : d = 2
    · rw [dif_pos hd] at h
      injection h with h
      exact ⟨hn, hd, h.symm⟩
    · rw [dif_neg hd] at h; cases h

/-- The sides of the bounding box scale and are translation invariant. -/
theorem bbSides_similar (s : Shape n d) (c : ℝ) (hc : 0 < c) (t : Fin d → ℝ) :
    bbSides (fun i k => c * s i k + t k) = (bbSides s).map fun v => (c * v.1, c * v.2) := by
  unfold bbSides
  by_cases hn : n = 0
  · rw [if_pos hn, if_pos hn]; rfl
  · rw [if_neg hn, if_neg hn]
    by_cases hd : d = 2
    · rw [dif_pos hd, dif_pos hd, extent_similar hn s c hc t, extent_similar hn s c hc t]; rfl
    · rw [dif_neg hd, dif_neg hd]; rfl

theorem euclid_similar (a b : Shape n d) (c : ℝ) (hc : 0 < c) (t : Fin d → ℝ) :
    euclideanError (fun i k => c * a i k + t k) (fun i k => c * b i k + t k) =
      c * euclideanError a b := by
  unfold euclideanError
  rw [mul_div_assoc', Finset.mul_sum]
  congr 1
  apply Finset.sum_congr rfl
  intro i _
  have : ∀ j, (c * a i j + t j - (c * b i j + t j)) = c * a i j - c * b i j := fun j => by ring
  simp only [this]
  rw [sqrt_sum_sq_scale, abs_of_pos hc]

theorem rms_similar (a b : Shape n d) (c : ℝ) (hc : 0 < c) (t : Fin d → ℝ) :
    rootMeanSquareError (fun i k => c * a i k + t k) (fun i k => c * b i k + t k) =
      c * rootMeanSquareError a b := by
  rw [rms_flat, rms_flat, mul_div_assoc']
  congr 1
  have : ∀ p : Fin n × Fin d, (c * a p.1 p.2 + t p.2 - (c * b p.1 p.2 + t p.2)) =
      c * a p.1 p.2 - c * b p.1 p.2 := fun j => by ring
  simp only [this]
  have h := sqrt_sum_sq_scale (fun p : Fin n × Fin d => a p.1 p.2)
    (fun p : Fin n × Fin d => b p.1 p.2) c
  rw [h, abs_of_pos hc]

end
end Menpofit
