import Verif.Spec.ClmRest
import Verif.Model.ClmRuns
import Verif.Lemmas.Clm
import Verif.Lemmas.FixedPoint
/-!
# Helper lemmas: constrained local models at rest
-/

namespace Menpofit
namespace Clm
open Base

theorem intRange_turn (a : Nat) :
    (intRange (-(a : Int)) (a + 1)).reverse = (intRange (-(a : Int)) (a + 1)).map fun x => -x := by
  unfold intRange
  apply List.ext_getElem
  · simp
  · intro i h1 h2
    simp only [List.length_reverse, List.length_map, List.length_range] at h1
    simp only [List.getElem_reverse, List.getElem_map, List.getElem_range, List.length_map,
      List.length_range]
    omega

theorem offsets_turn {h w : Nat} (hh : h % 2 = 1) (hw : w % 2 = 1) :
    (offsets h w).reverse = (offsets h w).map fun g => (-g.1, -g.2) := by
  unfold offsets buildGrid
  simp only [hh, hw, Nat.cast_one]
  rw [List.reverse_flatten, List.map_flatten]
  congr 1
  rw [List.map_map, ← List.map_reverse, intRange_turn]
  simp only [List.map_map]
  apply List.map_congr_left
  intro y _
  simp only [Function.comp]
  rw [← List.map_reverse, intRange_turn, List.map_map, List.map_map]
  rfl

theorem zip_turn {α : Type} (f : ℝ → α → ℝ) (k : List ℝ) (l : List α) (hl : k.length = l.length)
    (hk : k.reverse = k) : (List.zipWith f k l).sum = (List.zipWith f k l.reverse).sum := by
  rw [← List.sum_reverse, List.reverse_zipWith hl, hk]

theorem weightedMean_turn {h w : Nat} (hh : h % 2 = 1) (hw : w % 2 = 1) (pt : ℝ × ℝ) (ws : List ℝ)
    (hl : ws.length = h * w) (ht : ws.reverse = ws) (hs : ws.sum ≠ 0) :
    weightedMean ws (candidates h w pt) = pt := by
  obtain ⟨k, hk⟩ : ∃ k, k = ws.map (· / ws.sum) := ⟨_, rfl⟩
  have hkl : k.length = (offsets h w).length := by rw [hk, offsets_length]; simpa using hl
  have hkt : k.reverse = k := by rw [hk, ← List.map_reverse, ht]
  have hks : k.sum = 1 := by
    have : ws.map (· / ws.sum) = ws.map (· * (ws.sum)⁻¹) := by simp only [div_eq_mul_inv]
    rw [hk, this, List.sum_map_mul_right, List.map_id', mul_inv_cancel₀ hs]
  have key : ∀ (f : Int × Int → ℝ) (b : ℝ), (∀ g, f (-g.1, -g.2) = -f g) →
      (List.zipWith (fun v (c : Int × Int) => v * (b + f c)) k (offsets h w)).sum = b := by
    intro f b hf
    have lin : ∀ (l : List (Int × Int)) (ks : List ℝ), ks.length = l.length →
        (List.zipWith (fun v (c : Int × Int) => v * (b + f c)) ks l).sum =
          b * ks.sum + (List.zipWith (fun v (c : Int × Int) => v * f c) ks l).sum := by
      intro l
      induction l with
      | nil => intro ks h; simp only [List.length_nil, List.length_eq_zero_iff] at h; simp [h]
      | cons g l ih =>
        intro ks h
        cases ks with
        | nil => simp at h
        | cons v ks =>
          simp only [List.zipWith_cons_cons, List.sum_cons, ih ks (by simpa using h)]
          ring
    have neg : (List.zipWith (fun v (c : Int × Int) => v * f c) k (offsets h w)).sum =
        -(List.zipWith (fun v (c : Int × Int) => v * f c) k (offsets h w)).sum := by
      conv_lhs => rw [zip_turn _ _ _ hkl hkt, offsets_turn hh hw, List.zipWith_map_right]
      simp only [hf]
      have : ∀ (l : List (Int × Int)) (ks : List ℝ),
          (List.zipWith (fun v (c : Int × Int) => v * -f c) ks l).sum =
            -(List.zipWith (fun v (c : Int × Int) => v * f c) ks l).sum := by
        intro l
        induction l with
        | nil => intro ks; simp
        | cons g l ih =>
          intro ks
          cases ks with
          | nil => simp
          | cons v ks =>
            simp only [List.zipWith_cons_cons, List.sum_cons, ih]
            ring
      exact this _ _
    rw [lin _ _ hkl, hks]
    linarith
  unfold weightedMean candidates
  simp only [List.zipWith_map_right, ← hk]
  ext
  · exact key (fun g => (g.1 : ℝ)) pt.1 (fun g => by push_cast; rfl)
  · exact key (fun g => (g.2 : ℝ)) pt.2 (fun g => by push_cast; rfl)

/-- A symmetric response does not move its landmark. -/
theorem rlmsTarget_turn {h w : Nat} (hh : h % 2 = 1) (hw : w % 2 = 1) {c : ℝ} (hc : 0 < c) (pt : ℝ × ℝ)
    (response : List ℝ) (hl : response.length = h * w) (ht : response.reverse = response)
    (h0 : ∀ v ∈ response, 0 ≤ v) (hp : ∃ v ∈ response, 0 < v) :
    rlmsTarget h w c pt response = pt := by
  unfold rlmsTarget
  have hkt : ((offsets h w).map fun g => gauss c ((g.1 : ℝ), (g.2 : ℝ))).reverse =
      (offsets h w).map fun g => gauss c ((g.1 : ℝ), (g.2 : ℝ)) := by
    rw [← List.map_reverse, offsets_turn hh hw, List.map_map]
    apply List.map_congr_left
    intro g _
    simp [gauss]
  apply weightedMean_turn hh hw
  · simp [hl, offsets_length]
  · rw [List.reverse_zipWith (by simp [hl, offsets_length]), ht, hkt]
  · apply ne_of_gt
    obtain ⟨v, hv, hpos⟩ := hp
    obtain ⟨k, hk, rfl⟩ := List.mem_iff_getElem.1 hv
    have hk2 : k < (List.zipWith (· * ·) response
        ((offsets h w).map fun g => gauss c ((g.1 : ℝ), (g.2 : ℝ)))).length := by
      simp [offsets_length, hl]; omega
    refine list_sum_pos ?_ (List.getElem_mem hk2) ?_
    · intro v hv
      rw [List.mem_iff_getElem] at hv
      obtain ⟨k, hk, rfl⟩ := hv
      rw [List.getElem_zipWith, List.getElem_map]
      exact mul_nonneg (h0 _ (List.getElem_mem _)) (gauss_pos hc _).le
    · rw [List.getElem_zipWith, List.getElem_map]
      exact mul_pos hpos (gauss_pos hc _)

theorem peak_not_flat {h w a b : Nat} (hhw : 1 < h * w) {m : List ℝ} (hp : Spec.PeaksAt h w m a b) :
    ¬ Spec.IsFlat m := by
  obtain ⟨ha, hb, hl, hk⟩ := hp
  intro hf
  have : ∃ k, k < h * w ∧ k ≠ a * w + b := by
    by_cases h0 : a * w + b = 0
    · exact ⟨1, hhw, by omega⟩
    · exact ⟨0, by omega, by omega⟩
  obtain ⟨k, hkl, hne⟩ := this
  obtain ⟨u, hu, hlt⟩ := hk k _ (List.getElem?_eq_getElem (by omega)) hne
  exact absurd (hf _ (List.getElem_mem _) _ (List.mem_of_getElem? hu)) hlt.ne

end Clm
end Menpofit
