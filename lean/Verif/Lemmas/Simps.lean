import Verif.Lemmas.Stats
import Mathlib.Algebra.Order.Floor.Ring
import Mathlib.Tactic.NormNum
/-!
# Helper lemmas: the axis of the cumulative error distribution and Simpson's rule
-/
set_option linter.unusedSectionVars false

namespace Menpofit
open Stats

section
variable {K : Type} [Field K] [LinearOrder K] [IsStrictOrderedRing K]

/-- `N` sample points from index `s` on a grid of width `h`. -/
def gridPts (a h : K) (f : Nat → K) (s N : Nat) : List (K × K) :=
  (List.range' s N).map fun (i : Nat) => (a + i * h, f i)

theorem gridPts_succ (a h : K) (f : Nat → K) (s N : Nat) :
    gridPts a h f s (N + 1) = (a + s * h, f s) :: gridPts a h f (s + 1) N := by
  simp [gridPts, List.range'_succ]

theorem gridPts_length (a h : K) (f : Nat → K) (s N : Nat) : (gridPts a h f s N).length = N := by
  simp [gridPts]

theorem simpsPanel_uniform (x h y0 y1 y2 : K) (hh : h ≠ 0) :
    simpsPanel x y0 (x + h) y1 (x + h + h) y2 = h / 3 * (y0 + 4 * y1 + y2) := by
  unfold simpsPanel
  have e1 : x + h - x = h := by ring
  have e2 : x + h + h - (x + h) = h := by ring
  simp only [e1, e2]
  field_simp
  ring

theorem basicSimps_grid (a h : K) (f : Nat → K) (s N : Nat) (hh : h ≠ 0) :
    basicSimps (gridPts a h f s (N + 3)) =
      h / 3 * (f s + 4 * f (s + 1) + f (s + 2)) + basicSimps (gridPts a h f (s + 2) (N + 1)) := by
  rw [gridPts_succ, gridPts_succ, gridPts_succ, basicSimps, ← gridPts_succ]
  congr 1
  rw [← simpsPanel_uniform (a + s * h) h _ _ _ hh]
  congr 1 <;> push_cast <;> ring

theorem basicSimps_grid_one (a h : K) (f : Nat → K) (s : Nat) :
    basicSimps (gridPts a h f s 1) = 0 ∧ basicSimps (gridPts a h f s 2) = 0 ∧
    basicSimps (gridPts a h f s 0) = 0 := by
  refine ⟨?_, ?_, ?_⟩ <;> simp [gridPts, List.range'_succ, basicSimps]

theorem basicSimps_mono (a h : K) (hh : 0 < h) (f g : Nat → K) (N : Nat) :
    ∀ s, (∀ i, f i ≤ g i) → basicSimps (gridPts a h f s N) ≤ basicSimps (gridPts a h g s N) := by
  induction N using Nat.strongRecOn with
  | ind N ih =>
    intro s hfg
    match N with
    | 0 => rw [(basicSimps_grid_one a h f s).2.2, (basicSimps_grid_one a h g s).2.2]
    | 1 => rw [(basicSimps_grid_one a h f s).1, (basicSimps_grid_one a h g s).1]
    | 2 => rw [(basicSimps_grid_one a h f s).2.1, (basicSimps_grid_one a h g s).2.1]
    | N + 3 =>
      rw [basicSimps_grid _ _ _ _ _ hh.ne', basicSimps_grid _ _ _ _ _ hh.ne']
      have h1 := ih (N + 1) (by omega) (s + 2) hfg
      have h2 : h / 3 * (f s + 4 * f (s + 1) + f (s + 2)) ≤
          h / 3 * (g s + 4 * g (s + 1) + g (s + 2)) := by
        apply mul_le_mul_of_nonneg_left _ (by positivity)
        linarith [hfg s, hfg (s + 1), hfg (s + 2)]
      linarith

theorem basicSimps_const (a h : K) (hh : h ≠ 0) (c : K) (N : Nat) :
    ∀ s, basicSimps (gridPts a h (fun _ => c) s (2 * N + 1)) = c * (2 * N * h) := by
  induction N with
  | zero => intro s; rw [(basicSimps_grid_one a h _ s).1]; simp
  | succ N ih =>
    intro s
    have e : 2 * (N + 1) + 1 = 2 * N + 3 := by ring
    rw [e, basicSimps_grid _ _ _ _ _ hh, ih]
    push_cast; ring

theorem gridPts_dropLast (a h : K) (f : Nat → K) (s N : Nat) :
    (gridPts a h f s (N + 1)).dropLast = gridPts a h f s N := by
  unfold gridPts
  rw [List.range'_concat, List.map_append]
  simp

theorem gridPts_tail (a h : K) (f : Nat → K) (s N : Nat) :
    (gridPts a h f s (N + 1)).tail = gridPts a h f (s + 1) N := by
  rw [gridPts_succ]; rfl

theorem gridPts_drop (a h : K) (f : Nat → K) (s N k : Nat) :
    (gridPts a h f s N).drop k = gridPts a h f (s + k) (N - k) := by
  unfold gridPts
  rw [← List.map_drop, List.drop_range']
  simp

theorem trapFirst_grid (a h : K) (f : Nat → K) (s N : Nat) :
    trapFirst (gridPts a h f s (N + 2)) = h * (f s + f (s + 1)) / 2 := by
  rw [gridPts_succ, gridPts_succ, trapFirst]
  push_cast; ring

/-- Simpson's rule on a grid with an even number of points. -/
theorem simps_even (a h : K) (f : Nat → K) (N : Nat) :
    simps (gridPts a h f 0 (2 * N + 2)) =
      (basicSimps (gridPts a h f 0 (2 * N + 1)) + basicSimps (gridPts a h f 1 (2 * N + 1))) / 2 +
      (h * (f (2 * N) + f (2 * N + 1)) / 2 + h * (f 0 + f 1) / 2) / 2 := by
  have hodd : ¬ (2 * N + 2) % 2 = 1 := by omega
  unfold simps
  rw [gridPts_length, if_neg hodd, gridPts_dropLast, gridPts_tail, gridPts_drop]
  have e : 2 * N + 2 - (2 * N + 2 - 2) = 0 + 2 := by omega
  have e' : 0 + (2 * N + 2 - 2) = 2 * N := by omega
  rw [e, e', trapFirst_grid, trapFirst_grid]

theorem simps_odd (a h : K) (f : Nat → K) (N : Nat) :
    simps (gridPts a h f 0 (2 * N + 1)) = basicSimps (gridPts a h f 0 (2 * N + 1)) := by
  unfold simps
  rw [gridPts_length, if_pos (by omega)]

theorem simps_mono (a h : K) (hh : 0 < h) (f g : Nat → K) (N : Nat) (hfg : ∀ i, f i ≤ g i) :
    simps (gridPts a h f 0 (N + 1)) ≤ simps (gridPts a h g 0 (N + 1)) := by
  rcases Nat.even_or_odd' N with ⟨k, rfl | rfl⟩
  · rw [simps_odd, simps_odd]
    exact basicSimps_mono a h hh f g _ 0 hfg
  · rw [simps_even, simps_even]
    have h1 := basicSimps_mono a h hh f g (2 * k + 1) 0 hfg
    have h2 := basicSimps_mono a h hh f g (2 * k + 1) 1 hfg
    have h3 : h * (f (2 * k) + f (2 * k + 1)) ≤ h * (g (2 * k) + g (2 * k + 1)) :=
      mul_le_mul_of_nonneg_left (by linarith [hfg (2 * k), hfg (2 * k + 1)]) hh.le
    have h4 : h * (f 0 + f 1) ≤ h * (g 0 + g 1) :=
      mul_le_mul_of_nonneg_left (by linarith [hfg 0, hfg 1]) hh.le
    linarith

theorem simps_const (a h : K) (hh : h ≠ 0) (c : K) (N : Nat) :
    simps (gridPts a h (fun _ => c) 0 (N + 1)) = c * (N * h) := by
  rcases Nat.even_or_odd' N with ⟨k, rfl | rfl⟩
  · rw [simps_odd, basicSimps_const a h hh]; push_cast; ring
  · rw [simps_even, basicSimps_const a h hh, basicSimps_const a h hh]; push_cast; ring

variable [FloorRing K]

/-- The axis of the distribution: `N + 1` bins from `min`, the last one the first grid
point that is not below `max`. -/
theorem arange_axis (lo hi step : K) (hs : 0 < step) (h : lo ≤ hi) :
    ∃ N : Nat, arange lo (hi + step) step =
        .ok ((List.range (N + 1)).map fun (i : Nat) => lo + i * step) ∧
      hi ≤ lo + N * step ∧ lo + N * step < hi + step := by
  have hq : 0 ≤ (hi - lo) / step := div_nonneg (by linarith) hs.le
  have hc : 0 ≤ ⌈(hi - lo) / step⌉ := Int.ceil_nonneg hq
  refine ⟨⌈(hi - lo) / step⌉.toNat, ?_, ?_, ?_⟩
  · unfold arange
    rw [if_neg hs.ne']
    have e : (hi + step - lo) / step = (hi - lo) / step + 1 := by field_simp; ring
    rw [e, Int.ceil_add_one]
    congr 3
    omega
  · have h1 : (hi - lo) / step ≤ ⌈(hi - lo) / step⌉ := Int.le_ceil _
    have h2 : (⌈(hi - lo) / step⌉ : K) = (⌈(hi - lo) / step⌉.toNat : K) := by
      have := Int.toNat_of_nonneg hc
      exact_mod_cast congrArg (Int.cast (R := K)) this.symm
    rw [h2, div_le_iff₀ hs] at h1
    linarith
  · have h1 : (⌈(hi - lo) / step⌉ : K) < (hi - lo) / step + 1 := Int.ceil_lt_add_one _
    have h2 : (⌈(hi - lo) / step⌉ : K) = (⌈(hi - lo) / step⌉.toNat : K) := by
      have := Int.toNat_of_nonneg hc
      exact_mod_cast congrArg (Int.cast (R := K)) this.symm
    rw [h2] at h1
    have : ((⌈(hi - lo) / step⌉.toNat : K)) * step < ((hi - lo) / step + 1) * step :=
      mul_lt_mul_of_pos_right h1 hs
    rw [add_mul, div_mul_cancel₀ _ hs.ne'] at this
    linarith

/-- If the step divides the range, the last bin is `max`. -/
theorem axis_end (lo hi step : K) (hs : 0 < step) (k N : Nat) (hk : hi - lo = k * step)
    (h1 : hi ≤ lo + N * step) (h2 : lo + N * step < hi + step) : lo + N * step = hi := by
  have e : hi = lo + k * step := by linarith
  rw [e] at h1 h2
  have h3 : (k : K) * step ≤ N * step := by linarith
  have h4 : (N : K) * step < (k + 1) * step := by linarith
  have h5 : (k : K) ≤ N := le_of_mul_le_mul_right h3 hs
  have h6 : (N : K) < k + 1 := lt_of_mul_lt_mul_right h4 hs.le
  have h5' : k ≤ N := by exact_mod_cast h5
  have h6' : N < k + 1 := by exact_mod_cast h6
  have : N = k := by omega
  rw [this, e]

/-- The value of `area_under_curve_and_failure_rate` on a grid with `N + 1` bins. -/
theorem aucAndFailureRate_eq (errors : List K) (hne : errors ≠ []) (lo hi step : K) (N : Nat)
    (hax : arange lo (hi + step) step =
      .ok ((List.range (N + 1)).map fun (i : Nat) => lo + i * step)) :
    aucAndFailureRate errors step hi lo = .ok
      (simps (gridPts lo step (fun i => (countLe errors (lo + i * step) : K) / errors.length)
        0 (N + 1)) / hi,
       1 - (countLe errors (lo + N * step) : K) / errors.length) := by
  unfold aucAndFailureRate
  rw [hax]
  have hced : computeCumulativeError errors ((List.range (N + 1)).map fun (i : Nat) => lo + i * step)
      = .ok ((List.range (N + 1)).map fun (i : Nat) =>
          (countLe errors (lo + i * step) : K) / errors.length) := by
    cases errors with
    | nil => exact absurd rfl hne
    | cons e es =>
      rw [List.range_succ_eq_map, List.map_cons, computeCumulativeError]
      · simp [Function.comp_def]
      · simp
      · simp
  simp only [bind, Except.bind, hced]
  have hlast : ((List.range (N + 1)).map fun (i : Nat) =>
      (countLe errors (lo + i * step) : K) / errors.length).getLast? =
      some ((countLe errors (lo + N * step) : K) / errors.length) := by
    rw [List.range_succ, List.map_append]; simp
  rw [hlast]
  simp only [pure, Except.pure]
  congr 3
  rw [List.zip_map', gridPts, List.range_eq_range']

end
end Menpofit
