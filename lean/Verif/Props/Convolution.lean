import Verif.Lemmas.Convolution
/-!
# C95: convolution in the Fourier domain
-/

namespace Menpofit
open Fft Spec Conv

/-- `fft_convolve2d` in mode 'same' returns the sum of products of the image and the filter, the middle element of
the filter at the pixel in question and the image continued by zeros.  (Missing: filters below 6 × 6, see C73;
filters of even length in images with an odd extended length, see `C95_even_filter_violated`; the border of the
image unless the border of the filter is zero, see `C95_border_violated`.) -/
theorem C95_same_partial (x f : Plane ℝ) (hx : Rectangular x) (hf : Rectangular f) (hh : 6 ≤ f.h)
    (hw : 6 ≤ f.w) (hhx : f.h ≤ x.h) (hwx : f.w ≤ x.w)
    (hoh : f.h % 2 = 1 ∨ (x.h + f.h / 2) % 2 = 1) (how : f.w % 2 = 1 ∨ (x.w + f.w / 2) % 2 = 1) :
    ∃ r, convolve x f .same .constant = .ok r ∧ Rectangular r ∧ r.h = x.h ∧ r.w = x.w ∧
      ∀ i j, Unaffected f x.h x.w i j →
        pixel r i j = convolution x f (f.h / 2) (f.w / 2) i j := by
  obtain ⟨r, xe, fe, p1, p2, h1, h2, h3, h4, h5⟩ := convolve_same hx hf hh hw hhx hwx rfl rfl
  refine ⟨r, h1, h2, h3, h4, fun i j hu => ?_⟩
  rw [h5 i j hu.1 hu.2.1, channel_convolution hx hf rfl rfl (by omega) (by omega) (by omega) (by omega) p1 p2 hu]
  have e1 : filterCentre x.h f.h = (f.h : ℤ) / 2 := by unfold filterCentre; rw [if_neg (by omega)]
  have e2 : filterCentre x.w f.w = (f.w : ℤ) / 2 := by unfold filterCentre; rw [if_neg (by omega)]
  rw [e1, e2]

/-- Convolving with a filter of odd extent that is 1 in its middle and 0 elsewhere returns the image. -/
theorem C95_impulse (x : Plane ℝ) (hx : Rectangular x) (p q : Nat) (hp : 3 ≤ p) (hq : 3 ≤ q)
    (hhx : 2 * p + 1 ≤ x.h) (hwx : 2 * q + 1 ≤ x.w) :
    convolve x (impulse (2 * p + 1) (2 * q + 1) p q) .same .constant = .ok x := by
  obtain ⟨r, h1, h2, h3, h4, h5⟩ := C95_same_partial x (impulse (2 * p + 1) (2 * q + 1) p q) hx
    (impulse_rect _ _ _ _) (by simp only [impulse]; omega) (by simp only [impulse]; omega) hhx hwx
    (.inl (by simp only [impulse]; omega)) (.inl (by simp only [impulse]; omega))
  rw [h1]
  congr 1
  refine plane_ext h2 hx h3 h4 fun i j hi hj => ?_
  rw [h5 i j ⟨by omega, by omega, .inr (zeroRows_impulse (by omega) (by omega) (by omega)),
    .inr (zeroColumns_impulse (by omega) (by omega) (by omega))⟩,
    convolution_impulse hx (by omega) (by omega)]
  congr 1
  · simp only [impulse]; omega
  · simp only [impulse]; omega

/-- Where a filter of even extent is put depends on the extent of the image: with the same filter, 1 at
`(p, q)` and 0 elsewhere, images whose extended height is even come back unchanged, and images whose extended height
is odd come back shifted down by one pixel. -/
theorem C95_even_filter_violated (x : Plane ℝ) (hx : Rectangular x) (p q : Nat) (hp : 3 ≤ p) (hq : 3 ≤ q)
    (hhx : 2 * p ≤ x.h) (hwx : 2 * q + 1 ≤ x.w) :
    ∃ r, convolve x (impulse (2 * p) (2 * q + 1) p q) .same .constant = .ok r ∧
      ∀ i j, i < x.h → j < x.w →
        pixel r (i : ℕ) (j : ℕ) = if (x.h + p) % 2 = 1 then pixel x i j else pixel x ((i : ℤ) - 1) j := by
  obtain ⟨f, hf⟩ : ∃ f, f = impulse (2 * p) (2 * q + 1) p q := ⟨_, rfl⟩
  have fh : f.h = 2 * p := by rw [hf]; rfl
  have fw : f.w = 2 * q + 1 := by rw [hf]; rfl
  have hr : Rectangular f := by rw [hf]; exact impulse_rect _ _ _ _
  rw [← hf]
  obtain ⟨r, xe, fe, p1, p2, h1, h2, h3, h4, h5⟩ := convolve_same hx hr (by omega) (by omega)
    (by omega) (by omega) rfl rfl
  refine ⟨r, h1, fun i j hi hj => ?_⟩
  have hu : Unaffected f x.h x.w i j := by
    rw [hf]
    exact ⟨hi, hj, .inr (zeroRows_impulse (by omega) (by omega) (by omega)),
      .inr (zeroColumns_impulse (by omega) (by omega) (by omega))⟩
  rw [h5 i j hi hj, channel_convolution hx hr rfl rfl (by omega) (by omega) (by omega) (by omega) p1 p2 hu,
    fh, fw, hf, convolution_impulse hx (by omega) (by omega)]
  have e2 : filterCentre x.w (2 * q + 1) = q := by unfold filterCentre; rw [if_neg (by omega)]; omega
  have a2 : (j : ℤ) + (q : ℕ) - (q : ℕ) = j := by ring
  rw [e2, a2]
  split
  · next h =>
    have e1 : filterCentre x.h (2 * p) = p := by unfold filterCentre; rw [if_neg (by omega)]; omega
    have a1 : (i : ℤ) + (p : ℕ) - (p : ℕ) = i := by ring
    rw [e1, a1]
  · next h =>
    have e1 : filterCentre x.h (2 * p) = p - 1 := by unfold filterCentre; rw [if_pos (by omega)]; omega
    have a1 : (i : ℤ) + ((p : ℕ) - 1) - (p : ℕ) = (i : ℤ) - 1 := by ring
    rw [e1, a1]

/-- The image is extended too little: with a filter whose only non-zero element is in its last row, the first row of
the result is the last row of the image, where the sum of products is zero. -/
theorem C95_border_violated (x : Plane ℝ) (hx : Rectangular x) (p q : Nat) (hp : 3 ≤ p) (hq : 3 ≤ q)
    (hhx : 2 * p + 1 ≤ x.h) (hwx : 2 * q + 1 ≤ x.w) :
    ∃ r, convolve x (impulse (2 * p + 1) (2 * q + 1) (2 * p) q) .same .constant = .ok r ∧
      ∀ j, j < x.w → pixel r 0 (j : ℕ) = pixel x ((x.h : ℤ) - 1) j ∧
        convolution x (impulse (2 * p + 1) (2 * q + 1) (2 * p) q) p q 0 j = 0 := by
  obtain ⟨f, hf⟩ : ∃ f, f = impulse (2 * p + 1) (2 * q + 1) (2 * p) q := ⟨_, rfl⟩
  have fh : f.h = 2 * p + 1 := by rw [hf]; rfl
  have fw : f.w = 2 * q + 1 := by rw [hf]; rfl
  have hr : Rectangular f := by rw [hf]; exact impulse_rect _ _ _ _
  rw [← hf]
  obtain ⟨eh, he⟩ : ∃ eh, eh = x.h + f.h / 2 - 1 := ⟨_, rfl⟩
  obtain ⟨ew, he'⟩ : ∃ ew, ew = x.w + f.w / 2 - 1 := ⟨_, rfl⟩
  obtain ⟨r, xe, fe, p1, p2, h1, h2, h3, h4, h5⟩ := convolve_same hx hr (by omega) (by omega)
    (by omega) (by omega) he he'
  refine ⟨r, h1, fun j hj => ⟨?_, ?_⟩⟩
  · have h6 := h5 0 j (by omega) hj
    rw [Nat.cast_zero] at h6
    rw [h6, sum_extended (n := x.h) (o := offset x.h eh) _ (by unfold offset; omega)]
    · rw [← sum_indicator hx ((x.h : ℤ) - 1) j]
      refine Finset.sum_congr rfl fun a _ => ?_
      rw [sum_extended (n := x.w) (o := offset x.w ew) _ (by unfold offset; omega)]
      · refine Finset.sum_congr rfl fun b _ => ?_
        rw [pixel_pad hx (by omega) (by omega) p1, pixel_pad hr (by omega) (by omega) p2]
        have ex1 : ((offset x.h eh + (a : ℕ) : ℕ) : Int) - (offset x.h eh : ℕ) = (a : ℕ) := by push_cast; ring
        have ex2 : ((offset x.w ew + (b : ℕ) : ℕ) : Int) - (offset x.w ew : ℕ) = (b : ℕ) := by push_cast; ring
        rw [ex1, ex2]
        congr 1
        have s1 : ((0 + offset x.h eh : ℕ) : Int) + (eh / 2 : ℕ) - ((offset x.h eh + (a : ℕ) : ℕ) : Int) =
            (eh / 2 : ℕ) - (a : ℕ) := by push_cast; ring
        have s2 : ((j + offset x.w ew : ℕ) : Int) + (ew / 2 : ℕ) - ((offset x.w ew + (b : ℕ) : ℕ) : Int) =
            j - (b : ℕ) + (ew / 2 : ℕ) := by push_cast; ring
        rw [s1, s2, fh, fw, hf, pixel_impulse (by omega) (by omega)]
        exact if_congr (and_congr (border_index (by omega) (by omega) hhx a.2)
          (middle_index (by omega) (by omega) hwx b.2 hj)) rfl rfl
      · intro k hk
        rw [pixel_pad hx (by omega) (by omega) p1, pixel_col_out hx _ (by omega), zero_mul]
    · intro k hk
      refine Finset.sum_eq_zero fun b _ => ?_
      rw [pixel_pad hx (by omega) (by omega) p1, pixel_row_out hx _ (by omega), zero_mul]
  · rw [hf, convolution_impulse hx (by omega) (by omega), pixel_row_out hx _ (by omega)]

/-- The response of an expert is the sum over the channels of the products of patch and filter, the middle element of
the filter at the pixel in question.  (Missing: as for `C95_same_partial`; here the patch has the extent of the filter,
so even patch sizes divisible by four are put off the middle.) -/
theorem C95_response_partial (ph pw : Nat) (hh : 6 ≤ ph) (hw : 6 ≤ pw) (h4h : ph % 4 ≠ 0) (h4w : pw % 4 ≠ 0)
    (channels : List (Plane ℝ × Plane ℝ))
    (hc : ∀ c ∈ channels, Rectangular c.1 ∧ Rectangular c.2 ∧ c.1.h = ph ∧ c.1.w = pw ∧ c.2.h = ph ∧ c.2.w = pw) :
    ∃ r, response ph pw channels = .ok r ∧ r.h = ph ∧ r.w = pw ∧
      ∀ i j, (∀ c ∈ channels, Unaffected c.2 ph pw i j) → i < ph → j < pw →
        pixel r i j = (channels.map fun c => convolution c.1 c.2 (ph / 2) (pw / 2) i j).sum := by
  obtain ⟨eh, e1⟩ : ∃ eh : ℕ, paddedSize ph = (eh : Int) :=
    ⟨(paddedSize ph).toNat, by unfold paddedSize; omega⟩
  obtain ⟨ew, e2⟩ : ∃ ew : ℕ, paddedSize pw = (ew : Int) :=
    ⟨(paddedSize pw).toNat, by unfold paddedSize; omega⟩
  have f1 : eh = ph + ph / 2 - 1 := by unfold paddedSize at e1; omega
  have f2 : ew = pw + pw / 2 - 1 := by unfold paddedSize at e2; omega
  obtain ⟨r, padded, h1, h2, h3, h4, h5⟩ := response_ok hh hw e1 e2 channels hc
  refine ⟨r, h1, h2, h3, fun i j hu hi hj => ?_⟩
  rw [h5 i j hi hj]
  congr 1
  refine List.map_congr_left fun c hcc => ?_
  obtain ⟨a1, a2, a3, a4, a5, a6⟩ := hc c hcc
  obtain ⟨p1, p2⟩ := h4 c hcc
  have hu' := hu c hcc
  have := channel_convolution (i := i) (j := j) a1 a2 (eh := eh) (ew := ew) (by omega) (by omega) (by omega)
    (by omega) (by omega) (by omega) p1 p2 (by rw [a3, a4]; exact hu')
  rw [a3, a4, a5, a6] at this
  rw [this]
  have g1 : filterCentre ph ph = (ph : ℤ) / 2 := by unfold filterCentre; rw [if_neg (by omega)]
  have g2 : filterCentre pw pw = (pw : ℤ) / 2 := by unfold filterCentre; rw [if_neg (by omega)]
  rw [g1, g2]

/-- With the default patch shape the response to a filter that is 1 in its middle is the patch. -/
example (patch : Plane ℝ) (hr : Rectangular patch) (h1 : patch.h = 17) (h2 : patch.w = 17) :
    ∃ r, response 17 17 [(patch, impulse 17 17 8 8)] = .ok r ∧
      ∀ i j : ℕ, i < 17 → j < 17 → pixel r i j = pixel patch i j := by
  have hf := impulse_rect 17 17 8 8
  obtain ⟨r, a, b, c, d⟩ := C95_response_partial 17 17 (by decide) (by decide) (by decide) (by decide)
    [(patch, impulse 17 17 8 8)] (by
      intro c hc
      rw [List.mem_singleton] at hc
      subst hc
      exact ⟨hr, hf, h1, h2, rfl, rfl⟩)
  refine ⟨r, a, fun i j hi hj => ?_⟩
  rw [d i j (by
    intro c hc
    rw [List.mem_singleton] at hc
    subst hc
    exact ⟨hi, hj, .inr (zeroRows_impulse (by decide) (by decide) (by decide)),
      .inr (zeroColumns_impulse (by decide) (by decide) (by decide))⟩) hi hj]
  simp only [List.map_cons, List.map_nil, List.sum_cons, List.sum_nil, add_zero]
  rw [convolution_impulse hr (by decide) (by decide)]
  congr 1 <;> omega

/-- Images and filters that meet the hypotheses. -/
example : ∃ x f : Plane ℝ, Rectangular x ∧ Rectangular f ∧ 6 ≤ f.h ∧ 6 ≤ f.w ∧ f.h ≤ x.h ∧ f.w ≤ x.w ∧
    (f.h % 2 = 1 ∨ (x.h + f.h / 2) % 2 = 1) ∧ (f.w % 2 = 1 ∨ (x.w + f.w / 2) % 2 = 1) ∧
    Unaffected f x.h x.w 1 1 := by
  refine ⟨impulse 21 30 1 2, impulse 8 7 0 0, impulse_rect _ _ _ _, impulse_rect _ _ _ _, ?_⟩
  simp [impulse, Unaffected]

end Menpofit
