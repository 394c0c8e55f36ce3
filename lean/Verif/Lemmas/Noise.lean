import Verif.Model.Noise
import Verif.Spec.Noise
import Verif.Lemmas.ModelInstance
import Verif.Lemmas.Error
/-!
# Lemmas about noisy alignments
-/

namespace Menpofit
open MI Noise Spec Stats Matrix

variable {n : Nat}

theorem after_apply (f g : Sim) (p : Pts n 2) : (after f g).apply p = f.apply (g.apply p) := by
  funext ⟨i, j⟩
  match j with
  | 0 => simp [after, Sim.apply]; ring
  | 1 => simp [after, Sim.apply]; ring

theorem noise_apply (target : Pts n 2) (s r x y : ℝ) {m : Nat} (p : Pts m 2) :
    (after (translation x y) (after (scaleAboutCentre target s)
      (rotateAboutCentre target r))).apply p =
      turned (centroid target) s (r * (Real.pi / 180)) ![x, y] p := by
  funext ⟨i, j⟩
  match j with
  | 0 =>
    simp [after, Sim.apply, translation, scaleAboutCentre, rotateAboutCentre, aboutCentre, turned]
    ring
  | 1 =>
    simp [after, Sim.apply, translation, scaleAboutCentre, rotateAboutCentre, aboutCentre, turned]
    ring

theorem noisy_zero (target : Pts n 2) :
    after (translation 0 0) (after (scaleAboutCentre target (1 + 0)) (rotateAboutCentre target 0)) =
      ⟨1, 0, 0, 0⟩ := by
  simp [after, translation, scaleAboutCentre, rotateAboutCentre, aboutCentre]

theorem after_id (f : Sim) : after f ⟨1, 0, 0, 0⟩ = f := by
  simp [after]

theorem spread_eq (p : Pts n 2) : spread p = centred p ⬝ᵥ centred p := by
  rw [dot2]
  unfold spread
  apply Finset.sum_congr rfl
  intro i _
  simp only [centred]; ring

theorem spread_apply (hn : 0 < n) (s : Sim) (p : Pts n 2) :
    spread (s.apply p) = (s.a ^ 2 + s.b ^ 2) * spread p := by
  rw [spread_eq, spread_eq, centred_apply hn]
  simp only [add_dotProduct, dotProduct_add, smul_dotProduct, dotProduct_smul, rotated_dot,
    rotated_self, rotated_rotated, smul_eq_mul, dotProduct_neg]
  ring

theorem alignSim_centroid (hn : 0 < n) (rot : Bool) (source target : Pts n 2) (j : Fin 2) :
    centroid ((alignSim rot source target).apply source) j = centroid target j := by
  obtain ⟨h0, h1⟩ := centroid_apply hn (alignSim rot source target) source
  cases rot
  · match j with
    | 0 => rw [h0]; simp [alignSim]
    | 1 => rw [h1]; simp [alignSim]
  · match j with
    | 0 => rw [h0]; simp [alignSim, procrustes]
    | 1 => rw [h1]; simp [alignSim, procrustes]

theorem axis_bounds (hn : n ≠ 0) (p : Pts n 2) : IsBoundingBox p (axisMin p) (axisMax p) := by
  intro j
  have hne : List.ofFn (fun i => p (i, j)) ≠ [] := by simpa [List.ofFn_eq_nil_iff] using hn
  have hmem : ∀ i, p (i, j) ∈ List.ofFn (fun i => p (i, j)) := fun i => List.mem_ofFn.mpr ⟨i, rfl⟩
  have hmax := npMax_mem hne
  have hmin := npMin_mem hne
  rw [List.mem_ofFn] at hmax hmin
  exact ⟨fun i => ⟨npMin_le (hmem i), npMax_ge (hmem i)⟩, hmin, hmax⟩

theorem bounds_unique {p : Pts n 2} {lo hi lo' hi' : Fin 2 → ℝ} (h : IsBoundingBox p lo hi)
    (h' : IsBoundingBox p lo' hi') : lo = lo' ∧ hi = hi' := by
  constructor
  · funext j
    obtain ⟨h1, ⟨i, hi⟩, -⟩ := h j
    obtain ⟨h2, ⟨k, hk⟩, -⟩ := h' j
    exact le_antisymm (hk ▸ (h1 k).1) (hi ▸ (h2 i).1)
  · funext j
    obtain ⟨h1, -, ⟨i, hi⟩⟩ := h j
    obtain ⟨h2, -, ⟨k, hk⟩⟩ := h' j
    exact le_antisymm (hi ▸ (h2 i).2) (hk ▸ (h1 k).2)

theorem box_corners (lo hi : Fin 2 → ℝ) : box lo hi = corners lo hi := by
  funext ⟨i, j⟩
  fin_cases i <;> fin_cases j <;> simp [box, corners]

theorem boundingBox_of (hn : n ≠ 0) {p : Pts n 2} {lo hi : Fin 2 → ℝ} (h : IsBoundingBox p lo hi) :
    boundingBox p = .ok (corners lo hi) := by
  obtain ⟨e1, e2⟩ := bounds_unique h (axis_bounds hn p)
  unfold boundingBox
  rw [if_neg hn, box_corners, ← e1, ← e2]

theorem centroid_corners (lo hi : Fin 2 → ℝ) (j : Fin 2) :
    centroid (corners lo hi) j = (lo j + hi j) / 2 := by
  fin_cases j <;> simp [centroid, corners, Fin.sum_univ_four] <;> ring

theorem corners_dot (lo hi lo' hi' : Fin 2 → ℝ) :
    centred (corners lo hi) ⬝ᵥ centred (corners lo' hi') =
      (hi 0 - lo 0) * (hi' 0 - lo' 0) + (hi 1 - lo 1) * (hi' 1 - lo' 1) := by
  rw [dot2]
  simp only [centred, centroid_corners, Fin.sum_univ_four]
  simp [corners]
  ring

theorem corners_rot (lo hi lo' hi' : Fin 2 → ℝ) :
    rotatedCcw (centred (corners lo hi)) ⬝ᵥ centred (corners lo' hi') = 0 := by
  rw [dot2]
  simp only [centred, rotatedCcw, centroid_corners, Fin.sum_univ_four]
  simp [corners]
  ring

/-- Aligning two axis-aligned boxes is a scaling by the ratio of the diagonals. -/
theorem procrustes_corners (lo hi lo' hi' : Fin 2 → ℝ)
    (h : 0 < (hi 0 - lo 0) * (hi' 0 - lo' 0) + (hi 1 - lo 1) * (hi' 1 - lo' 1)) :
    procrustes (corners lo hi) (corners lo' hi') =
      let c := Real.sqrt ((hi' 0 - lo' 0) ^ 2 + (hi' 1 - lo' 1) ^ 2) /
        Real.sqrt ((hi 0 - lo 0) ^ 2 + (hi 1 - lo 1) ^ 2)
      ⟨c, 0, (lo' 0 + hi' 0) / 2 - c * ((lo 0 + hi 0) / 2),
        (lo' 1 + hi' 1) / 2 - c * ((lo 1 + hi 1) / 2)⟩ := by
  have e : ∀ x y : ℝ, x * x + y * y = x ^ 2 + y ^ 2 := fun x y => by ring
  simp only [procrustes, corners_dot, corners_rot, centroid_corners]
  rw [zero_pow two_ne_zero, add_zero, Real.sqrt_sq h.le, div_self h.ne', e, e]
  simp

end Menpofit
