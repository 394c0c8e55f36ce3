import Verif.Lemmas.Ensemble
import Verif.Props.Base
import Verif.Props.FftUtils
/-!
# C108: masks, desired responses and filters of correlation filter experts
-/

namespace Menpofit
open Fft Dft Conv Ens Spec Base

/-- C108: the cosine mask has the shape of the patch and values between 0 and 1; it does not change when turned
upside down or mirrored; it is 0 exactly on the border, and 1 exactly at the middle (if there is a middle
pixel). -/
theorem C108_mask (h w i j : Nat) (hi : i < h) (hj : j < w) :
    Rectangular (cosineMask h w) ∧ (cosineMask h w).h = h ∧ (cosineMask h w).w = w ∧
    0 ≤ pixel (cosineMask h w) i j ∧ pixel (cosineMask h w) i j ≤ 1 ∧
    pixel (cosineMask h w) ((h : ℤ) - 1 - i) j = pixel (cosineMask h w) i j ∧
    pixel (cosineMask h w) i ((w : ℤ) - 1 - j) = pixel (cosineMask h w) i j ∧
    (pixel (cosineMask h w) i j = 0 ↔ OnBorder h w i j) ∧
    (pixel (cosineMask h w) i j = 1 ↔ AtMiddle h w i j) := by
  have e1 : ((h : ℤ) - 1 - i) = ((h - 1 - i : Nat) : ℤ) := by omega
  have e2 : ((w : ℤ) - 1 - j) = ((w - 1 - j : Nat) : ℤ) := by omega
  have a := hanning_range h i
  have b := hanning_range w j
  refine ⟨ofFn_rect _, rfl, rfl, ?_, ?_, ?_, ?_, ?_, ?_⟩
  · rw [mask_pixel hi hj]; exact mul_nonneg a.1 b.1
  · rw [mask_pixel hi hj]; exact mul_le_one₀ a.2 b.1 b.2
  · rw [e1, mask_pixel (by omega) hj, mask_pixel hi hj, hanning_symm hi]
  · rw [e2, mask_pixel hi (by omega), mask_pixel hi hj, hanning_symm hj]
  · rw [mask_pixel hi hj, mul_eq_zero, hanning_zero hi, hanning_zero hj]; rfl
  · rw [mask_pixel hi hj, AtMiddle, ← hanning_one hi, ← hanning_one hj]
    constructor
    · intro e
      constructor <;> nlinarith
    · rintro ⟨e1, e2⟩; rw [e1, e2, one_mul]

/-- C108: a masked training patch is zero along its border, and at the middle it is the patch. -/
theorem C108_masked (p : Plane ℝ) (hp : Rectangular p) (i j : Nat) (hi : i < p.h) (hj : j < p.w) :
    (OnBorder p.h p.w i j → pixel (masked true p) i j = 0) ∧
    (AtMiddle p.h p.w i j → pixel (masked true p) i j = pixel p i j) ∧
    |pixel (masked true p) i j| ≤ |pixel p i j| ∧ masked false p = p := by
  obtain ⟨-, -, -, h1, h2, -, -, h3, h4⟩ := C108_mask p.h p.w i j hi hj
  rw [masked_pixel hp hi hj]
  refine ⟨fun hb => by rw [h3.2 hb, zero_mul], fun hm => by rw [h4.2 hm, one_mul], ?_, rfl⟩
  rw [abs_mul, abs_of_nonneg h1]
  exact mul_le_of_le_one_left (abs_nonneg _) h2

/-- C108: nothing of a patch survives the mask exactly if a side of the patch is two pixels long. -/
theorem C108_mask_empty (h w : Nat) (hh : 0 < h) (hw : 0 < w) :
    (∀ i j, i < h → j < w → pixel (cosineMask h w) i j = 0) ↔ h = 2 ∨ w = 2 := by
  constructor
  · intro H
    by_contra hc
    push Not at hc
    have := (C108_mask h w (h / 2) (w / 2) (by omega) (by omega)).2.2.2.2.2.2.2.1.1 (H _ _ (by omega) (by omega))
    rcases this with ⟨h1, h2⟩ | ⟨h1, h2⟩ <;> omega
  · intro H i j hi hj
    refine (C108_mask h w i j hi hj).2.2.2.2.2.2.2.1.2 ?_
    unfold OnBorder
    omega

/-- C108: the desired response is positive, has the shape of the patch, and is larger exactly at pixels nearer to
the pixel `(h / 2, w / 2)`. -/
theorem C108_response (h w : Nat) (cov : ℝ) (hc : 0 < cov) :
    ∃ r, gaussianResponse h w cov = .ok r ∧ Rectangular r ∧ r.h = h ∧ r.w = w ∧
      ∀ i j i' j' : Nat, i < h → j < w → i' < h → j' < w →
        0 < pixel r i j ∧ (pixel r i j < pixel r i' j' ↔ offCentre h w i' j' < offCentre h w i j) := by
  obtain ⟨g1, g2⟩ := C08_build_grid_entries h w
  refine ⟨_, by rw [gaussianResponse, if_neg (not_lt.2 hc.le), if_neg hc.ne'], ⟨by simpa using g1, fun r hr => ?_⟩, rfl,
    rfl, fun i j i' j' hi hj hi' hj' => ?_⟩
  · simp only [List.mem_map] at hr
    obtain ⟨row, hrow, rfl⟩ := hr
    obtain ⟨k, hk, rfl⟩ := List.getElem_of_mem hrow
    simpa using (g2 k hk).1
  · have key : ∀ i j : Nat, i < h → j < w →
        pixel ⟨h, w, (buildGrid (h, w)).map fun row => row.map fun yx => density cov yx.1 yx.2⟩ i j =
          density cov ((i : Int) - (h / 2 : Nat)) ((j : Int) - (w / 2 : Nat)) := by
      intro i j hi hj
      have l : i < (buildGrid (h, w)).length := by rw [g1]; exact hi
      have k : j < ((buildGrid (h, w))[i]).length := by rw [(g2 i l).1]; exact hj
      rw [pixel_getElem _ i j (by simpa using l) (by simpa using k)]
      simp only [List.getElem_map, (g2 i l).2 j k]
    rw [key i j hi hj, key i' j' hi' hj', density_lt hc]
    exact ⟨Real.exp_pos _, Iff.rfl⟩

/-- C108: hence its only peak is the middle, where the landmark is; covariances that are not positive are
refused. -/
theorem C108_peak (h w : Nat) (cov : ℝ) :
    (∀ r, gaussianResponse h w cov = .ok r → ∀ i j : Nat, i < h → j < w → (i, j) ≠ (h / 2, w / 2) →
      pixel r i j < pixel r (h / 2 : Nat) (w / 2 : Nat)) ∧
    ((∃ r, gaussianResponse h w cov = .ok r) ↔ 0 < cov) := by
  have hr : ∀ r, gaussianResponse h w cov = .ok r → 0 < cov := by
    intro r hr
    unfold gaussianResponse at hr
    split_ifs at hr with h1 h2
    exact lt_of_le_of_ne (not_lt.1 h1) (Ne.symm h2)
  refine ⟨fun r h1 i j hi hj hne => ?_, fun ⟨r, h⟩ => hr r h, fun hc => ?_⟩
  · obtain ⟨r', h2, -, -, -, h3⟩ := C108_response h w cov (hr r h1)
    rw [h1] at h2
    cases h2
    refine (h3 i j (h / 2) (w / 2) hi hj (by omega) (by omega)).2.2 ?_
    simp only [offCentre, sub_self]
    have : (i : Int) - (h / 2 : Nat) ≠ 0 ∨ (j : Int) - (w / 2 : Nat) ≠ 0 := by
      by_contra hc
      push Not at hc
      exact hne (Prod.ext (by omega) (by omega))
    rcases this with hz | hz
    · have := pow_pos (abs_pos.2 hz) 2
      rw [sq_abs] at this
      nlinarith [sq_nonneg ((j : Int) - (w / 2 : Nat))]
    · have := pow_pos (abs_pos.2 hz) 2
      rw [sq_abs] at this
      nlinarith [sq_nonneg ((i : Int) - (h / 2 : Nat))]
  · obtain ⟨r, h1, -⟩ := C108_response h w cov hc
    exact ⟨r, h1⟩

/-- C108: the image of a filter is the trained filter turned by half a turn.  Missing: patches with a side of
fewer than six pixels (`C108_filters_violated`). -/
theorem C108_filters_partial (f : Plane ℝ) (hf : Rectangular f) (hh : 6 ≤ f.h) (hw : 6 ≤ f.w) :
    ∃ c, paddedFilter f.h f.w f = .ok c ∧ IsHalfTurn f (filterImage f.h f.w c) := by
  have e1 : paddedSize f.h = ((paddedSize f.h).toNat : Int) := by unfold paddedSize; omega
  have e2 : paddedSize f.w = ((paddedSize f.w).toNat : Int) := by unfold paddedSize; omega
  have b1 : f.h + 2 ≤ (paddedSize f.h).toNat := by unfold paddedSize; omega
  have b2 : f.w + 2 ≤ (paddedSize f.w).toNat := by unfold paddedSize; omega
  obtain ⟨p', hp', hcrop⟩ := C40_crop_pad_partial (0 : ℝ) .constant f hf _ _ b1 b2 (by simp)
  obtain ⟨q, hq, hqr, hqh, hqw⟩ := C40_pad_extent (0 : ℝ) .constant f hf _ _ (le_trans (by omega) b1) (le_trans (by omega) b2)
    (by simp)
  rw [hp'] at hq
  cases hq
  refine ⟨fft2 (values _ _ p'), ?_, ?_⟩
  · rw [← e1, ← e2] at hp'
    simp only [paddedFilter, hp', bind, Except.bind, pure, Except.pure]
  · have : filterImage f.h f.w (fft2 (values (paddedSize f.h).toNat (paddedSize f.w).toNat p')) =
        ⟨f.h, f.w, (f.rows.map List.reverse).reverse⟩ := by
      simp only [filterImage]
      rw [inverse_plane hqr hqh hqw (by omega) (by omega), hcrop]
    rw [this]
    exact turned_pixel hf

/-- A filter of the default shape. -/
example : ∃ f : Plane ℝ, Rectangular f ∧ f.h = 17 ∧ f.w = 17 ∧ pixel f 3 5 = 1 :=
  ⟨impulse 17 17 3 5, impulse_rect _ _ _ _, rfl, rfl, by
    have := pixel_impulse (h := 17) (w := 17) (a := 3) (b := 5) (by norm_num) (by norm_num) 3 5
    simpa using this⟩

/-- C108 is violated by patches with two to five rows: the image of the filter is empty. -/
theorem C108_filters_violated (f : Plane ℝ) (hf : Rectangular f) (hh : 2 ≤ f.h) (hh' : f.h ≤ 5) (hw : 2 ≤ f.w) :
    ∃ c, paddedFilter f.h f.w f = .ok c ∧ (filterImage f.h f.w c).rows = [] ∧ ¬ IsHalfTurn f (filterImage f.h f.w c) := by
  have e1 : paddedSize f.h = ((paddedSize f.h).toNat : Int) := by unfold paddedSize; omega
  have e2 : paddedSize f.w = ((paddedSize f.w).toNat : Int) := by unfold paddedSize; omega
  have b1 : f.h = (paddedSize f.h).toNat ∨ f.h + 1 = (paddedSize f.h).toNat := by unfold paddedSize; omega
  have b2 : f.w ≤ (paddedSize f.w).toNat := by unfold paddedSize; omega
  obtain ⟨p', hp', hqr, hqh, hqw⟩ := C40_pad_extent (0 : ℝ) .constant f hf (paddedSize f.h).toNat _ (by omega) b2 (by simp)
  have hr : (filterImage f.h f.w (fft2 (values (paddedSize f.h).toNat (paddedSize f.w).toNat p'))).rows = [] ∧
      (filterImage f.h f.w (fft2 (values (paddedSize f.h).toNat (paddedSize f.w).toNat p'))).h = 0 := by
    simp only [filterImage]
    rw [inverse_plane hqr hqh hqw (by omega) (by omega)]
    have := C40_crop_extent_violated p' hqr f.h f.w (by omega) (by omega)
    rw [this.2, this.1]
    exact ⟨rfl, rfl⟩
  refine ⟨fft2 (values _ _ p'), ?_, hr.1, fun h => ?_⟩
  · rw [← e1, ← e2] at hp'
    simp only [paddedFilter, hp', bind, Except.bind, pure, Except.pure]
  · have := h.2.1
    rw [hr.2] at this
    omega

example : Rectangular (impulse 5 5 2 2) ∧ (impulse 5 5 2 2).h = 5 := ⟨impulse_rect _ _ _ _, rfl⟩

/-- C108: without sample offsets there is one; missing: every other case (`C108_offsets_violated`). -/
theorem C108_offsets_partial : nSampleOffsets none = .ok 1 := rfl

/-- C108 is violated by every list of sample offsets: asking for their number raises `ValueError`. -/
theorem C108_offsets_violated (rows : List (ℝ × ℝ)) (h : rows ≠ []) : nSampleOffsets (some rows) = .error .valueError := by
  have : rows.length ≠ 0 := fun h' => h (List.length_eq_zero_iff.1 h')
  simp [nSampleOffsets, this]

end Menpofit
