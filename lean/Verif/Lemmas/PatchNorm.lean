import Verif.Spec.PatchNorm
import Mathlib.Tactic.Linarith
import Mathlib.Tactic.FieldSimp
/-!
# Lemmas for C109
-/

namespace Menpofit
open PatchNorm Spec

theorem centred_sum (v : List ℝ) : (centred v).sum = 0 := by
  have h : ∀ (l : List ℝ) (c : ℝ), (l.map (· - c)).sum = l.sum - l.length * c := by
    intro l c
    induction l with
    | nil => simp
    | cons a l ih => simp only [List.map_cons, List.sum_cons, ih, List.length_cons]; push_cast; ring
  unfold centred
  rw [h]
  by_cases h0 : v = []
  · subst h0; simp
  · have : (v.length : ℝ) ≠ 0 := by
      exact_mod_cast fun h => h0 (List.length_eq_zero_iff.1 h)
    unfold avg
    field_simp
    ring

theorem len_zero {v : List ℝ} : len v = 0 ↔ ∀ x ∈ v, x = 0 := by
  have hnn : ∀ l : List ℝ, 0 ≤ (l.map (· ^ 2)).sum := fun l => List.sum_nonneg (by simp; intro a _; positivity)
  unfold len
  rw [Real.sqrt_eq_zero (hnn v)]
  induction v with
  | nil => simp
  | cons a l ih =>
    simp only [List.map_cons, List.sum_cons, List.mem_cons, forall_eq_or_imp]
    have := hnn l
    have h2 := sq_nonneg a
    constructor
    · intro h
      exact ⟨pow_eq_zero_iff two_ne_zero |>.1 (by linarith), ih.1 (by linarith)⟩
    · rintro ⟨h, h'⟩; rw [h, ih.2 h']; simp

theorem sum_div (v : List ℝ) (k : ℝ) : (v.map (· / k)).sum = v.sum / k := by
  induction v with
  | nil => simp
  | cons a l ih => simp only [List.map_cons, List.sum_cons, ih]; ring

theorem sum_sq_div (v : List ℝ) (k : ℝ) : ((v.map (· / k)).map (· ^ 2)).sum = (v.map (· ^ 2)).sum / k ^ 2 := by
  induction v with
  | nil => simp
  | cons a l ih => simp only [List.map_cons, List.sum_cons, ih]; ring

theorem normed_standard (v : List ℝ) : Standard (normed v) := by
  unfold normed Standard
  simp only
  refine ⟨by rw [sum_div, centred_sum, zero_div], ?_⟩
  by_cases h : len (centred v) = 0
  · right
    rw [if_pos h]
    intro x hx
    simp only [div_one, List.map_id'] at hx
    exact len_zero.1 h x hx
  · left
    rw [if_neg h, sum_sq_div]
    have hnn : 0 ≤ ((centred v).map (· ^ 2)).sum := List.sum_nonneg (by simp; intro a _; positivity)
    have : len (centred v) ^ 2 = ((centred v).map (· ^ 2)).sum := Real.sq_sqrt hnn
    rw [this]
    refine div_self fun h0 => h ?_
    unfold len
    rw [h0, Real.sqrt_zero]

theorem centred_relit (g b : ℝ) (v : List ℝ) : centred (relit g b v) = (centred v).map (g * ·) := by
  by_cases h0 : v = []
  · subst h0; rfl
  have hl : (v.length : ℝ) ≠ 0 := by exact_mod_cast fun h => h0 (List.length_eq_zero_iff.1 h)
  have hs : ∀ l : List ℝ, (relit g b l).sum = g * l.sum + l.length * b := by
    intro l
    induction l with
    | nil => simp [relit]
    | cons a l ih =>
      simp only [relit, List.map_cons, List.sum_cons, List.length_cons] at ih ⊢
      rw [ih]; push_cast; ring
  have ha : avg (relit g b v) = g * avg v + b := by
    unfold avg
    rw [hs, show (relit g b v).length = v.length from List.length_map ..]
    field_simp
  unfold centred
  rw [ha]
  unfold relit
  rw [List.map_map, List.map_map]
  refine List.map_congr_left fun x _ => ?_
  simp only [Function.comp]
  ring

theorem len_scale {g : ℝ} (hg : 0 < g) (v : List ℝ) : len (v.map (g * ·)) = g * len v := by
  have : ((v.map (g * ·)).map (· ^ 2)).sum = g ^ 2 * (v.map (· ^ 2)).sum := by
    induction v with
    | nil => simp
    | cons a l ih => simp only [List.map_cons, List.sum_cons, ih]; ring
  unfold len
  rw [this, Real.sqrt_mul (by positivity), Real.sqrt_sq hg.le]

theorem normed_relit {g : ℝ} (hg : 0 < g) (b : ℝ) (v : List ℝ) : normed (relit g b v) = normed v := by
  unfold normed
  simp only
  rw [centred_relit, len_scale hg, List.map_map]
  refine List.map_congr_left fun x _ => ?_
  simp only [Function.comp]
  by_cases h : len (centred v) = 0
  · have hx : x = 0 := len_zero.1 h x (by assumption)
    simp [h, hx]
  · rw [if_neg h, if_neg (mul_ne_zero hg.ne' h)]
    field_simp

theorem flatten_relit (g b : ℝ) (p : List (List ℝ)) : (p.map (relit g b)).flatten = relit g b p.flatten := by
  unfold relit
  rw [List.map_flatten]

end Menpofit
