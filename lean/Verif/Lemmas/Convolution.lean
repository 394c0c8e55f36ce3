import Verif.Model.Convolution
import Verif.Spec.Convolution
import Verif.Lemmas.FftUtils
import Verif.Lemmas.Dft
import Mathlib.Data.List.GetD
/-!
# Helper lemmas for Fourier-domain convolution
-/

namespace Menpofit
open Fft Spec Dft Conv Matrix

/-! ### The convolution theorem -/

theorem dft_add {n : Nat} [NeZero n] (k a b : Fin n) : dft n k (a + b) = dft n k a * dft n k b := by
  rw [dft_eq_pow, dft_eq_pow, dft_eq_pow, ← pow_add, ← Nat.mul_add, Fin.val_add]
  have hp := (root_primitive (NeZero.ne n)).pow_eq_one
  obtain ⟨z, hz⟩ : ∃ z, z = Complex.exp (-(2 * Real.pi * Complex.I) / n) := ⟨_, rfl⟩
  rw [← hz] at hp ⊢
  have e : (k : ℕ) * ((a : ℕ) + b) = k * (((a : ℕ) + b) % n) + n * (k * (((a : ℕ) + b) / n)) := by
    conv_lhs => rw [← Nat.mod_add_div ((a : ℕ) + b) n]
    ring
  rw [e, pow_add, pow_mul z n, hp, one_pow, mul_one]

theorem dft2_add {h w : Nat} [NeZero h] [NeZero w] (k a b : Pos h w) :
    dft2 h w k (a + b) = dft2 h w k a * dft2 h w k b := by
  unfold dft2
  rw [Prod.fst_add, Prod.snd_add, dft_add, dft_add]
  ring

/-- The transform of a circular convolution is the product of the transforms. -/
theorem fft2_circular {h w : Nat} [NeZero h] [NeZero w] (x f : Pos h w → ℂ) :
    fft2 (fun i => ∑ p, x p * f (i - p)) = fft2 f * fft2 x := by
  funext k
  simp only [fft2, mulVec, dotProduct, Pi.mul_apply]
  calc ∑ i, dft2 h w k i * ∑ p, x p * f (i - p)
      = ∑ p, ∑ i, dft2 h w k i * (x p * f (i - p)) := by
        simp only [Finset.mul_sum]
        exact Finset.sum_comm
    _ = ∑ p, ∑ m, dft2 h w k (m + p) * (x p * f m) := by
        refine Finset.sum_congr rfl fun p _ => ?_
        rw [← Equiv.sum_comp (Equiv.addRight p)]
        refine Finset.sum_congr rfl fun m _ => ?_
        simp
    _ = (∑ m, dft2 h w k m * f m) * ∑ p, dft2 h w k p * x p := by
        rw [Finset.sum_comm, Finset.sum_mul_sum]
        refine Finset.sum_congr rfl fun m _ => Finset.sum_congr rfl fun p _ => ?_
        rw [dft2_add]
        ring

theorem ifft2_product {h w : Nat} [NeZero h] [NeZero w] (x f : Pos h w → ℂ) :
    ifft2 (fft2 f * fft2 x) = fun i => ∑ p, x p * f (i - p) := by
  rw [← fft2_circular, ifft2_fft2 (NeZero.pos h) (NeZero.pos w)]

/-! ### Pixels -/

theorem pixel_nat (p : Plane ℝ) (i j : Nat) :
    pixel p i j = (p.rows.getD i []).getD j 0 := by
  unfold pixel
  rw [if_pos ⟨Int.natCast_nonneg _, Int.natCast_nonneg _⟩, Int.toNat_natCast, Int.toNat_natCast]

theorem pixel_row_out {p : Plane ℝ} (hp : Rectangular p) {i : Int} (j : Int) (h : i < 0 ∨ p.h ≤ i) :
    pixel p i j = 0 := by
  unfold pixel
  split
  · next hij =>
    have : p.rows.length ≤ i.toNat := by rw [hp.1]; omega
    rw [List.getD_eq_default _ _ this]
    rfl
  · rfl

theorem pixel_col_out {p : Plane ℝ} (hp : Rectangular p) (i : Int) {j : Int} (h : j < 0 ∨ p.w ≤ j) :
    pixel p i j = 0 := by
  unfold pixel
  split
  · next hij =>
    by_cases hi : i.toNat < p.rows.length
    · rw [List.getD_eq_getElem _ _ hi]
      refine List.getD_eq_default _ _ ?_
      rw [hp.2 _ (List.getElem_mem _)]
      omega
    · rw [List.getD_eq_default p.rows _ (by omega)]
      rfl
  · rfl

/-- Number of pixels put before an axis of length `n` when it is extended to `e`. -/
def offset (n e : Nat) : Nat := (e - n) / 2 + (e - n) % 2

theorem getD_padded {α : Type} (z : α) (a b : Nat) (l : List α) (i : Nat) (d : α) :
    ((List.replicate a z ++ l ++ List.replicate b z).getD i d =
      if i < a then z else if i < a + l.length then l.getD (i - a) d
      else if i < a + l.length + b then z else d) := by
  simp only [List.getD_eq_getElem?_getD]
  split
  · next h =>
    rw [List.append_assoc, List.getElem?_append_left (by simpa using h), List.getElem?_replicate, if_pos h]
    rfl
  · next h =>
    rw [List.append_assoc, List.getElem?_append_right (by simpa using h), List.length_replicate]
    split
    · next h2 =>
      rw [List.getElem?_append_left (by omega)]
    · next h2 =>
      rw [List.getElem?_append_right (by omega), List.getElem?_replicate]
      split
      · next h3 => rw [if_pos (by omega)]; rfl
      · next h3 => rw [if_neg (by omega)]; rfl

theorem before_constant {α : Type} (z : α) (k : Nat) (l : List α) :
    before .constant z k l = List.replicate k z := by
  simp [before, after]

theorem pixel_pad {p q : Plane ℝ} (hp : Rectangular p) {eh ew : Nat} (h1 : p.h ≤ eh) (h2 : p.w ≤ ew)
    (h : pad 0 .constant p (eh, ew) = .ok q) (i j : Int) :
    pixel q i j = pixel p (i - offset p.h eh) (j - offset p.w ew) := by
  rw [pad_ok 0 .constant p hp h1 h2 (fun h => by cases h)] at h
  cases h
  simp only [before_constant, after]
  by_cases hij : 0 ≤ i ∧ 0 ≤ j
  · obtain ⟨i, rfl⟩ := Int.eq_ofNat_of_zero_le hij.1
    obtain ⟨j, rfl⟩ := Int.eq_ofNat_of_zero_le hij.2
    rw [pixel_nat]
    simp only
    rw [getD_padded, List.length_map, hp.1]
    have hz : ∀ k, (List.replicate ew (0 : ℝ)).getD k 0 = 0 := by
      intro k
      rw [List.getD_eq_getElem?_getD, List.getElem?_replicate]
      split <;> rfl
    change _ = pixel p (i - (offset p.h eh : ℕ)) (j - (offset p.w ew : ℕ))
    have ho : offset p.h eh = (eh - p.h) / 2 + (eh - p.h) % 2 := rfl
    have ho2 : offset p.w ew = (ew - p.w) / 2 + (ew - p.w) % 2 := rfl
    rw [← ho, ← ho2]
    split
    · next h => rw [hz, pixel_row_out hp _ (by omega)]
    · next h =>
      split
      · next h' =>
        have ei : (i : Int) - (offset p.h eh : ℕ) = ((i - offset p.h eh : ℕ) : Int) := by omega
        rw [ei]
        have hl : i - offset p.h eh < p.rows.length := by rw [hp.1]; omega
        have hlm : i - offset p.h eh < (p.rows.map fun l => List.replicate (offset p.w ew) 0 ++ l ++
            List.replicate ((ew - p.w) / 2) (0 : ℝ)).length := by rw [List.length_map]; exact hl
        rw [List.getD_eq_getElem _ _ hlm, List.getElem_map, getD_padded, hp.2 _ (List.getElem_mem _)]
        split
        · next h3 => rw [pixel_col_out hp _ (by omega)]
        · next h3 =>
          split
          · next h4 =>
            have ej : (j : Int) - (offset p.w ew : ℕ) = ((j - offset p.w ew : ℕ) : Int) := by omega
            rw [ej, pixel_nat, List.getD_eq_getElem p.rows _ hl]
          · next h4 =>
            rw [pixel_col_out hp _ (by omega)]
            split <;> rfl
      · next h' =>
        rw [pixel_row_out hp _ (by omega)]
        split
        · rw [hz]
        · rfl
  · have : pixel (⟨eh, ew, List.replicate ((eh - p.h) / 2 + (eh - p.h) % 2) (List.replicate ew 0) ++
        (p.rows.map fun l => List.replicate ((ew - p.w) / 2 + (ew - p.w) % 2) 0 ++ l ++
          List.replicate ((ew - p.w) / 2) (0 : ℝ)) ++
        List.replicate ((eh - p.h) / 2) (List.replicate ew 0)⟩ : Plane ℝ) i j = 0 := by
      unfold pixel
      rw [if_neg hij]
    rw [this]
    rcases lt_or_ge i 0 with hi | hi
    · rw [pixel_row_out hp _ (by omega)]
    · rw [pixel_col_out hp _ (by omega)]

theorem getD_slice {α : Type} {n size : Nat} (h : size + 2 ≤ n) (l : List α) (hl : l.length = n) (d : α)
    {i : Nat} (hi : i < size) :
    (slice (cropBounds n size).1 (cropBounds n size).2 l).getD i d = l.getD (i + offset size n) d := by
  rw [cropBounds_nat (by omega)]
  unfold slice bound offset
  simp only
  rw [if_neg (by omega), if_pos (by omega), List.getD_eq_getElem?_getD, List.getD_eq_getElem?_getD,
    List.getElem?_drop, hl, List.getElem?_take, if_pos (by omega)]
  congr 2
  omega

theorem pixel_crop {c : Plane ℝ} (hc : Rectangular c) {n m : Nat} (h1 : n + 2 ≤ c.h) (h2 : m + 2 ≤ c.w)
    {i j : Nat} (hi : i < n) (hj : j < m) :
    pixel (crop c (n, m)) i j = pixel c (i + offset n c.h) (j + offset m c.w) := by
  rw [pixel_nat]
  have e1 : (i : Int) + (offset n c.h : ℕ) = ((i + offset n c.h : ℕ) : Int) := by push_cast; rfl
  have e2 : (j : Int) + (offset m c.w : ℕ) = ((j + offset m c.w : ℕ) : Int) := by push_cast; rfl
  rw [e1, e2, pixel_nat]
  unfold crop
  simp only
  have hlen : (slice (cropBounds c.h n).1 (cropBounds c.h n).2 c.rows).length = n := by
    rw [slice_length, hc.1, sliceLen_crop h1]
  have hm : i < ((slice (cropBounds c.h n).1 (cropBounds c.h n).2 c.rows).map
      (slice (cropBounds c.w m).1 (cropBounds c.w m).2)).length := by rw [List.length_map, hlen]; exact hi
  rw [List.getD_eq_getElem _ _ hm, List.getElem_map]
  have hrow : i + offset n c.h < c.rows.length := by
    rw [hc.1]; unfold offset; omega
  have e3 := getD_slice h1 c.rows hc.1 [] hi
  rw [List.getD_eq_getElem _ _ (by rw [hlen]; exact hi), List.getD_eq_getElem _ _ hrow] at e3
  rw [e3, List.getD_eq_getElem c.rows _ hrow]
  exact getD_slice h2 _ (hc.2 _ (List.getElem_mem _)) 0 hj

theorem spatial_rect {h w : Nat} (c : Pos h w → ℂ) : Rectangular (spatial c) := by
  refine ⟨by simp [spatial], fun r hr => ?_⟩
  simp only [spatial, List.mem_ofFn] at hr
  obtain ⟨i, rfl⟩ := hr
  simp [spatial]

theorem pixel_spatial {h w : Nat} (c : Pos h w → ℂ) {i j : Nat} (hi : i < h) (hj : j < w) :
    pixel (spatial c) i j = (ifftshift (ifft2 c) (⟨i, hi⟩, ⟨j, hj⟩)).re := by
  rw [pixel_nat]
  unfold spatial
  simp only
  have h1 : i < (List.ofFn fun i => List.ofFn fun j => (ifftshift (ifft2 c) (i, j)).re).length := by
    rw [List.length_ofFn]; exact hi
  rw [List.getD_eq_getElem _ _ h1, List.getElem_ofFn]
  have h2 : j < (List.ofFn fun j => (ifftshift (ifft2 c) (⟨i, hi⟩, j)).re).length := by
    rw [List.length_ofFn]; exact hj
  rw [List.getD_eq_getElem _ _ h2, List.getElem_ofFn]

theorem values_pixel (h w : Nat) (p : Plane ℝ) (ij : Pos h w) :
    values h w p ij = ((pixel p (ij.1 : ℕ) (ij.2 : ℕ) : ℝ) : ℂ) := by
  rw [pixel_nat]
  rfl

theorem fin_sub_val {n : Nat} [NeZero n] (a b : Fin n) :
    (((a - b : Fin n) : ℕ) : Int) = ((a : ℕ) - (b : ℕ) : Int) % n := by
  rw [Fin.sub_def]
  simp only
  have hb := b.2
  push_cast [Nat.cast_sub (le_of_lt hb)]
  have : ((n : Int) - (b : ℕ) + (a : ℕ)) = ((a : ℕ) - (b : ℕ) : Int) + n := by ring
  rw [this, Int.add_emod_right]

/-- The circular convolution of two extended planes. -/
theorem pixel_product {h w : Nat} (x f : Plane ℝ) {i j : Nat} (hi : i < h) (hj : j < w) :
    pixel (spatial (h := h) (w := w) (fft2 (values _ _ f) * fft2 (values _ _ x))) i j =
      ∑ a ∈ Finset.range h, ∑ b ∈ Finset.range w,
        pixel x a b * pixel f (((i : Int) + (h / 2 : ℕ) - a) % h) (((j : Int) + (w / 2 : ℕ) - b) % w) := by
  have : NeZero h := ⟨by omega⟩
  have : NeZero w := ⟨by omega⟩
  rw [pixel_spatial _ hi hj, ifft2_product]
  simp only [ifftshift, values_pixel]
  rw [Complex.re_sum, Fintype.sum_prod_type, ← Fin.sum_univ_eq_sum_range (fun a => ∑ b ∈ Finset.range w,
    pixel x a b * pixel f (((i : Int) + (h / 2 : ℕ) - a) % h) (((j : Int) + (w / 2 : ℕ) - b) % w))]
  refine Finset.sum_congr rfl fun a _ => ?_
  rw [← Fin.sum_univ_eq_sum_range (fun b =>
    pixel x (a : ℕ) b * pixel f (((i : Int) + (h / 2 : ℕ) - (a : ℕ)) % h)
      (((j : Int) + (w / 2 : ℕ) - b) % w))]
  refine Finset.sum_congr rfl fun b _ => ?_
  rw [← Complex.ofReal_mul, Complex.ofReal_re, Prod.fst_sub, Prod.snd_sub, fin_sub_val, fin_sub_val]
  simp only [Int.natCast_mod]
  rw [Int.emod_sub_emod, Int.emod_sub_emod]
  push_cast
  rfl

/-- A sum over an extended axis whose terms vanish outside the original one. -/
theorem sum_extended (F : Nat → ℝ) {n o e : Nat} (h : o + n ≤ e) (hF : ∀ k, k < o ∨ o + n ≤ k → F k = 0) :
    ∑ k ∈ Finset.range e, F k = ∑ a : Fin n, F (o + a) := by
  rw [Fin.sum_univ_eq_sum_range (fun a => F (o + a))]
  have := Finset.sum_Ico_eq_sum_range F o (o + n)
  rw [Nat.add_sub_cancel_left] at this
  rw [← this]
  refine (Finset.sum_subset (fun k hk => ?_) (fun k _ hk => hF k ?_)).symm
  · rw [Finset.mem_Ico] at hk
    rw [Finset.mem_range]
    omega
  · rw [Finset.mem_Ico] at hk
    omega

/-- The index of the filter along one axis: the wanted one, or both outside the filter, or wrapped around at the
very first or last position. -/
theorem wrap_index {n m e i a : Nat} (he : e = n + m / 2 - 1) (hm : 2 ≤ m) (hme : m ≤ e)
    (hi : i < n) (ha : a < n) (c : Int) (hc : c = (e / 2 : ℕ) - (offset m e : ℕ)) (t : Int)
    (ht : t = ((i : Int) + (offset n e : ℕ) + (e / 2 : ℕ) - ((offset n e : ℕ) + a)) % e - (offset m e : ℕ)) :
    t = i - a + c ∨ ((t < 0 ∨ (m : Int) ≤ t) ∧ (i - a + c < 0 ∨ (m : Int) ≤ i - a + c)) ∨
      (i = 0 ∧ t = m - 1 ∧ (i - a + c < 0 ∨ (m : Int) ≤ i - a + c)) ∨
      (i + 1 = n ∧ t = 0 ∧ (i - a + c < 0 ∨ (m : Int) ≤ i - a + c)) := by
  have e1 : (i : Int) + (offset n e : ℕ) + (e / 2 : ℕ) - ((offset n e : ℕ) + a) = i - a + (e / 2 : ℕ) := by ring
  rw [e1] at ht
  have ho : offset m e = (e - m) / 2 + (e - m) % 2 := rfl
  obtain ⟨s, hs⟩ : ∃ s : Int, s = i - a + (e / 2 : ℕ) := ⟨_, rfl⟩
  rw [← hs] at ht
  rcases lt_or_ge s 0 with h | h
  · have hmod : s % e = s + e := by
      rw [← Int.add_emod_right]
      exact Int.emod_eq_of_lt (by omega) (by omega)
    rw [hmod] at ht
    omega
  · rcases lt_or_ge s e with h2 | h2
    · rw [Int.emod_eq_of_lt h h2] at ht
      omega
    · have hmod : s % e = s - e := by
        rw [← Int.sub_emod_right]
        exact Int.emod_eq_of_lt (by omega) (by omega)
      rw [hmod] at ht
      omega

theorem centre_eq {n m : Nat} (hm : 2 ≤ m) (hme : m ≤ n + m / 2 - 1) :
    filterCentre n m = ((n + m / 2 - 1) / 2 : ℕ) - (offset m (n + m / 2 - 1) : ℕ) := by
  unfold filterCentre offset
  split <;> omega

/-- The circular convolution of the extended planes at an unaffected position. -/
theorem channel_convolution {x f xe fe : Plane ℝ} (hx : Rectangular x) (hf : Rectangular f) {eh ew : Nat}
    (hh : eh = x.h + f.h / 2 - 1) (hw : ew = x.w + f.w / 2 - 1) (h1 : 2 ≤ f.h) (h2 : 2 ≤ f.w)
    (h3 : f.h ≤ eh) (h4 : f.w ≤ ew) (hxe : pad 0 .constant x (eh, ew) = .ok xe)
    (hfe : pad 0 .constant f (eh, ew) = .ok fe) {i j : Nat} (hu : Unaffected f x.h x.w i j) :
    ∑ a ∈ Finset.range eh, ∑ b ∈ Finset.range ew, pixel xe a b *
      pixel fe ((((i + offset x.h eh : ℕ) : Int) + (eh / 2 : ℕ) - a) % eh)
        ((((j + offset x.w ew : ℕ) : Int) + (ew / 2 : ℕ) - b) % ew) =
      convolution x f (filterCentre x.h f.h) (filterCentre x.w f.w) i j := by
  obtain ⟨hi, hj, hr, hcol⟩ := hu
  have hxo : offset x.h eh + x.h ≤ eh := by unfold offset; omega
  have hxo2 : offset x.w ew + x.w ≤ ew := by unfold offset; omega
  unfold convolution
  rw [sum_extended _ hxo]
  · refine Finset.sum_congr rfl fun a _ => ?_
    rw [sum_extended _ hxo2]
    · refine Finset.sum_congr rfl fun b _ => ?_
      rw [pixel_pad hx (by omega) (by omega) hxe, pixel_pad hf h3 h4 hfe]
      have ex1 : ((offset x.h eh + (a : ℕ) : ℕ) : Int) - (offset x.h eh : ℕ) = (a : ℕ) := by push_cast; ring
      have ex2 : ((offset x.w ew + (b : ℕ) : ℕ) : Int) - (offset x.w ew : ℕ) = (b : ℕ) := by push_cast; ring
      rw [ex1, ex2]
      congr 1
      have key := wrap_index hh h1 h3 hi a.2 (filterCentre x.h f.h)
        (by rw [hh]; exact centre_eq h1 (hh ▸ h3)) _ rfl
      have key2 := wrap_index hw h2 h4 hj b.2 (filterCentre x.w f.w)
        (by rw [hw]; exact centre_eq h2 (hw ▸ h4)) _ rfl
      push_cast at key key2 ⊢
      generalize ((i : Int) + (offset x.h eh : ℕ) + ((eh : Int) / 2) - ((offset x.h eh : ℕ) + ((a : ℕ) : Int))) %
        (eh : Int) - (offset f.h eh : ℕ) = t at key ⊢
      generalize ((j : Int) + (offset x.w ew : ℕ) + ((ew : Int) / 2) - ((offset x.w ew : ℕ) + ((b : ℕ) : Int))) %
        (ew : Int) - (offset f.w ew : ℕ) = u at key2 ⊢
      rcases key with key | ⟨key, key'⟩ | ⟨k1, k2, k3⟩ | ⟨k1, k2, k3⟩
      · rw [key]
        rcases key2 with key2 | ⟨key2, key2'⟩ | ⟨k1, k2, k3⟩ | ⟨k1, k2, k3⟩
        · rw [key2]
        · rw [pixel_col_out hf _ key2, pixel_col_out hf _ key2']
        · rw [pixel_col_out hf _ k3, k2]
          rcases hcol with hcol | hcol
          · omega
          · exact (hcol _).2
        · rw [pixel_col_out hf _ k3, k2]
          rcases hcol with hcol | hcol
          · omega
          · exact (hcol _).1
      · rw [pixel_row_out hf _ key, pixel_row_out hf _ key']
      · rw [pixel_row_out hf _ k3, k2]
        rcases hr with hr | hr
        · omega
        · exact (hr _).2
      · rw [pixel_row_out hf _ k3, k2]
        rcases hr with hr | hr
        · omega
        · exact (hr _).1
    · intro k hk
      rw [pixel_pad hx (by omega) (by omega) hxe, pixel_col_out hx _ (by omega), zero_mul]
  · intro k hk
    refine Finset.sum_eq_zero fun b _ => ?_
    rw [pixel_pad hx (by omega) (by omega) hxe, pixel_row_out hx _ (by omega), zero_mul]

/-! ### Impulses and equality of planes -/

theorem impulse_rect (h w a b : Nat) : Rectangular (impulse h w a b) := by
  refine ⟨by simp [impulse], fun r hr => ?_⟩
  simp only [impulse, List.mem_ofFn] at hr
  obtain ⟨i, rfl⟩ := hr
  simp [impulse]

theorem pixel_impulse {h w a b : Nat} (ha : a < h) (hb : b < w) (i j : Int) :
    pixel (impulse h w a b) i j = if i = a ∧ j = b then 1 else 0 := by
  have hr := impulse_rect h w a b
  by_cases hi : i < 0 ∨ (h : Int) ≤ i
  · rw [pixel_row_out hr _ hi, if_neg (by omega)]
  · by_cases hj : j < 0 ∨ (w : Int) ≤ j
    · rw [pixel_col_out hr _ hj, if_neg (by omega)]
    · obtain ⟨i, rfl⟩ := Int.eq_ofNat_of_zero_le (by omega : 0 ≤ i)
      obtain ⟨j, rfl⟩ := Int.eq_ofNat_of_zero_le (by omega : 0 ≤ j)
      rw [pixel_nat]
      unfold impulse
      simp only
      have h1 : i < (List.ofFn fun i : Fin h => List.ofFn fun j : Fin w =>
          if (i : ℕ) = a ∧ (j : ℕ) = b then (1 : ℝ) else 0).length := by rw [List.length_ofFn]; omega
      rw [List.getD_eq_getElem _ _ h1, List.getElem_ofFn]
      have h2 : j < (List.ofFn fun j : Fin w => if i = a ∧ (j : ℕ) = b then (1 : ℝ) else 0).length := by
        rw [List.length_ofFn]; omega
      rw [List.getD_eq_getElem _ _ h2, List.getElem_ofFn]
      simp only [Nat.cast_inj]

theorem zeroRows_impulse {h w a b : Nat} (ha : a + 1 < h) (ha0 : 0 < a) (hb : b < w) :
    ZeroRows (impulse h w a b) := by
  intro j
  rw [pixel_impulse (by omega) hb, pixel_impulse (by omega) hb, if_neg (by omega), if_neg (by
    simp only [impulse]; omega)]
  exact ⟨rfl, rfl⟩

theorem zeroColumns_impulse {h w a b : Nat} (ha : a < h) (hb : b + 1 < w) (hb0 : 0 < b) :
    ZeroColumns (impulse h w a b) := by
  intro j
  rw [pixel_impulse ha (by omega), pixel_impulse ha (by omega), if_neg (by omega), if_neg (by
    simp only [impulse]; omega)]
  exact ⟨rfl, rfl⟩

/-- Summing an image against an indicator of one position. -/
theorem sum_indicator {x : Plane ℝ} (hx : Rectangular x) (u v : Int) :
    ∑ a : Fin x.h, ∑ b : Fin x.w, pixel x (a : ℕ) (b : ℕ) *
      (if ((a : ℕ) : Int) = u ∧ ((b : ℕ) : Int) = v then 1 else 0) = pixel x u v := by
  by_cases hu : u < 0 ∨ (x.h : Int) ≤ u
  · rw [pixel_row_out hx _ hu]
    refine Finset.sum_eq_zero fun a _ => Finset.sum_eq_zero fun b _ => ?_
    have := a.2
    rw [if_neg (by omega), mul_zero]
  · by_cases hv : v < 0 ∨ (x.w : Int) ≤ v
    · rw [pixel_col_out hx _ hv]
      refine Finset.sum_eq_zero fun a _ => Finset.sum_eq_zero fun b _ => ?_
      have := b.2
      rw [if_neg (by omega), mul_zero]
    · obtain ⟨u, rfl⟩ := Int.eq_ofNat_of_zero_le (by omega : 0 ≤ u)
      obtain ⟨v, rfl⟩ := Int.eq_ofNat_of_zero_le (by omega : 0 ≤ v)
      rw [Finset.sum_eq_single (⟨u, by omega⟩ : Fin x.h), Finset.sum_eq_single (⟨v, by omega⟩ : Fin x.w)]
      · rw [if_pos ⟨rfl, rfl⟩, mul_one]
      · intro b _ hb
        rw [if_neg, mul_zero]
        rintro ⟨_, h⟩
        exact hb (Fin.ext (by exact_mod_cast h))
      · intro h
        exact absurd (Finset.mem_univ _) h
      · intro a _ ha
        refine Finset.sum_eq_zero fun b _ => ?_
        rw [if_neg, mul_zero]
        rintro ⟨h, _⟩
        exact ha (Fin.ext (by exact_mod_cast h))
      · intro h
        exact absurd (Finset.mem_univ _) h

theorem convolution_impulse {x : Plane ℝ} (hx : Rectangular x) {h w a0 b0 : Nat} (ha : a0 < h) (hb : b0 < w)
    (ch cw i j : Int) :
    convolution x (impulse h w a0 b0) ch cw i j = pixel x (i + ch - a0) (j + cw - b0) := by
  rw [← sum_indicator hx]
  unfold convolution
  refine Finset.sum_congr rfl fun a _ => Finset.sum_congr rfl fun b _ => ?_
  rw [pixel_impulse ha hb]
  congr 1
  refine if_congr ?_ rfl rfl
  constructor <;> rintro ⟨h1, h2⟩ <;> constructor <;> omega

theorem plane_ext {p q : Plane ℝ} (hp : Rectangular p) (hq : Rectangular q) (hh : p.h = q.h) (hw : p.w = q.w)
    (h : ∀ i j : Nat, i < p.h → j < p.w → pixel p i j = pixel q i j) : p = q := by
  obtain ⟨ph, pw, pr⟩ := p
  obtain ⟨qh, qw, qr⟩ := q
  obtain rfl : ph = qh := hh
  obtain rfl : pw = qw := hw
  have : pr = qr := by
    refine List.ext_getElem (by rw [hp.1, hq.1]) fun i h1 h2 => ?_
    have l1 : pr[i].length = pw := hp.2 _ (List.getElem_mem _)
    have l2 : qr[i].length = pw := hq.2 _ (List.getElem_mem _)
    refine List.ext_getElem (by rw [l1, l2]) fun j h3 h4 => ?_
    have := h i j (by rw [← hp.1]; exact h1) (by rw [← l1]; exact h3)
    rw [pixel_nat, pixel_nat] at this
    simp only at this
    rwa [List.getD_eq_getElem pr _ h1, List.getD_eq_getElem qr _ h2, List.getD_eq_getElem _ _ h3,
      List.getD_eq_getElem _ _ h4] at this
  rw [this]

/-! ### The whole functions -/

/-- The values of `fft_convolve2d` in mode 'same', at every pixel. -/
theorem convolve_same {x f : Plane ℝ} (hx : Rectangular x) (hf : Rectangular f) (hh : 6 ≤ f.h) (hw : 6 ≤ f.w)
    (hhx : f.h ≤ x.h) (hwx : f.w ≤ x.w) {eh ew : Nat} (e1 : eh = x.h + f.h / 2 - 1)
    (e2 : ew = x.w + f.w / 2 - 1) :
    ∃ r xe fe, pad 0 .constant x (eh, ew) = .ok xe ∧ pad 0 .constant f (eh, ew) = .ok fe ∧
      convolve x f .same .constant = .ok r ∧ Rectangular r ∧ r.h = x.h ∧ r.w = x.w ∧
      ∀ i j : Nat, i < x.h → j < x.w → pixel r i j =
        ∑ a ∈ Finset.range eh, ∑ b ∈ Finset.range ew, pixel xe a b *
          pixel fe ((((i + offset x.h eh : ℕ) : Int) + (eh / 2 : ℕ) - a) % eh)
            ((((j + offset x.w ew : ℕ) : Int) + (ew / 2 : ℕ) - b) % ew) := by
  obtain ⟨xe, p1, xh, xw⟩ : ∃ xe, pad 0 .constant x (eh, ew) = .ok xe ∧ xe.h = eh ∧ xe.w = ew :=
    ⟨_, pad_ok (0 : ℝ) .constant x hx (by omega) (by omega) (fun h => by cases h), rfl, rfl⟩
  obtain ⟨fe, p2⟩ : ∃ fe, pad 0 .constant f (eh, ew) = .ok fe :=
    ⟨_, pad_ok (0 : ℝ) .constant f hf (by omega) (by omega) (fun h => by cases h)⟩
  have c1 : (x.h : Int) + (f.h : Int) / 2 - 1 = (eh : Int) := by omega
  have c2 : (x.w : Int) + (f.w : Int) / 2 - 1 = (ew : Int) := by omega
  have hr : Rectangular (product xe fe) := spatial_rect _
  have hph : (product xe fe).h = eh := xh
  have hpw : (product xe fe).w = ew := xw
  refine ⟨crop (product xe fe) (x.h, x.w), xe, fe, p1, p2, ?_, ?_, ?_, ?_, fun i j hi hj => ?_⟩
  · unfold convolve fftConvolve2d
    simp only [c1, c2, p1, p2, bind, Except.bind, finish]
  · refine ⟨?_, fun r hr' => ?_⟩
    · simp only [crop, List.length_map, slice_length, hr.1]
    · simp only [crop, List.mem_map] at hr'
      obtain ⟨l, hl, rfl⟩ := hr'
      simp only [crop, slice_length, hr.2 l (mem_slice hl)]
  · simp only [crop]
    exact sliceLen_crop (by omega)
  · simp only [crop]
    exact sliceLen_crop (by omega)
  · rw [pixel_crop hr (by omega) (by omega) hi hj, hph, hpw]
    have hi' : i + offset x.h eh < eh := by unfold offset; omega
    have hj' : j + offset x.w ew < ew := by unfold offset; omega
    have := pixel_product (h := eh) (w := ew) xe fe hi' hj'
    rw [← this]
    unfold product
    rw [xh, xw]
    push_cast
    rfl

theorem ifft2_add {h w : Nat} (x y : Pos h w → ℂ) : ifft2 (x + y) = ifft2 x + ifft2 y := by
  unfold ifft2
  rw [mulVec_add, smul_add]

theorem ifft2_zero {h w : Nat} : ifft2 (0 : Pos h w → ℂ) = 0 := by
  unfold ifft2
  rw [mulVec_zero, smul_zero]

theorem pixel_spatial_sum {h w : Nat} (l : List (Pos h w → ℂ)) {i j : Nat} (hi : i < h) (hj : j < w) :
    pixel (spatial l.sum) i j = (l.map fun c => pixel (spatial c) i j).sum := by
  induction l with
  | nil =>
    rw [List.sum_nil, List.map_nil, List.sum_nil, pixel_spatial _ hi hj, ifft2_zero]
    rfl
  | cons c l ih =>
    rw [List.sum_cons, List.map_cons, List.sum_cons, ← ih, pixel_spatial _ hi hj, pixel_spatial _ hi hj,
      pixel_spatial _ hi hj, ifft2_add]
    rfl

theorem emod_cases (s : ℤ) {e : ℕ} (he : 0 < e) (h : -(e : ℤ) ≤ s) (h2 : s < 2 * e) :
    (0 ≤ s ∧ s < e ∧ s % e = s) ∨ (s < 0 ∧ s % e = s + e) ∨ ((e : ℤ) ≤ s ∧ s % e = s - e) := by
  rcases lt_or_ge s 0 with h0 | h0
  · refine .inr (.inl ⟨h0, ?_⟩)
    rw [← Int.add_emod_right]
    exact Int.emod_eq_of_lt (by omega) (by omega)
  · rcases lt_or_ge s e with h1 | h1
    · exact .inl ⟨h0, h1, Int.emod_eq_of_lt h0 h1⟩
    · refine .inr (.inr ⟨h1, ?_⟩)
      rw [← Int.sub_emod_right]
      exact Int.emod_eq_of_lt (by omega) (by omega)

/-- The last element of an odd filter meets the first pixel of the result from the last pixel of the
image. -/
theorem border_index {n p e a : Nat} (he : e = n + p - 1) (hp : 1 ≤ p) (hn : 2 * p + 1 ≤ n) (ha : a < n) :
    ((e / 2 : ℕ) - (a : ℤ)) % e - (offset (2 * p + 1) e : ℕ) = (2 * p : ℕ) ↔ (a : ℤ) = (n : ℤ) - 1 := by
  have o1 : offset (2 * p + 1) e = (e - (2 * p + 1)) / 2 + (e - (2 * p + 1)) % 2 := rfl
  rcases emod_cases ((e / 2 : ℕ) - (a : ℤ)) (e := e) (by omega) (by omega) (by omega) with
    ⟨h1, h2, h⟩ | ⟨h1, h⟩ | ⟨h1, h⟩ <;> rw [h] <;> constructor <;> intro g <;> omega

/-- The middle element of an odd filter meets a pixel of the result from the same pixel of the image. -/
theorem middle_index {n p e a j : Nat} (he : e = n + p - 1) (hp : 1 ≤ p) (hn : 2 * p + 1 ≤ n) (ha : a < n)
    (hj : j < n) :
    ((j : ℤ) - (a : ℤ) + (e / 2 : ℕ)) % e - (offset (2 * p + 1) e : ℕ) = (p : ℕ) ↔ (a : ℤ) = j := by
  have o1 : offset (2 * p + 1) e = (e - (2 * p + 1)) / 2 + (e - (2 * p + 1)) % 2 := rfl
  rcases emod_cases ((j : ℤ) - (a : ℤ) + (e / 2 : ℕ)) (e := e) (by omega) (by omega) (by omega) with
    ⟨h1, h2, h⟩ | ⟨h1, h⟩ | ⟨h1, h⟩ <;> rw [h] <;> constructor <;> intro g <;> omega

/-- The response of an expert in terms of extended planes. -/
theorem response_ok {ph pw : Nat} (hh : 6 ≤ ph) (hw : 6 ≤ pw) {eh ew : Nat} (e1 : paddedSize ph = (eh : Int))
    (e2 : paddedSize pw = (ew : Int)) (channels : List (Plane ℝ × Plane ℝ))
    (hc : ∀ c ∈ channels, Rectangular c.1 ∧ Rectangular c.2 ∧ c.1.h = ph ∧ c.1.w = pw ∧ c.2.h = ph ∧ c.2.w = pw) :
    ∃ (r : Plane ℝ) (padded : Plane ℝ → Plane ℝ), response ph pw channels = .ok r ∧ r.h = ph ∧ r.w = pw ∧
      (∀ c ∈ channels, pad 0 .constant c.1 (eh, ew) = .ok (padded c.1) ∧
        pad 0 .constant c.2 (eh, ew) = .ok (padded c.2)) ∧
      ∀ i j : Nat, i < ph → j < pw → pixel r i j = (channels.map fun c =>
        ∑ a ∈ Finset.range eh, ∑ b ∈ Finset.range ew, pixel (padded c.1) a b *
          pixel (padded c.2) ((((i + offset ph eh : ℕ) : Int) + (eh / 2 : ℕ) - a) % eh)
            ((((j + offset pw ew : ℕ) : Int) + (ew / 2 : ℕ) - b) % ew)).sum := by
  have f1 : eh = ph + ph / 2 - 1 := by unfold paddedSize at e1; omega
  have f2 : ew = pw + pw / 2 - 1 := by unfold paddedSize at e2; omega
  obtain ⟨padded, hpd⟩ : ∃ padded : Plane ℝ → Plane ℝ, padded = fun p =>
      match pad 0 .constant p ((eh : ℤ), (ew : ℤ)) with
      | .ok q => q
      | .error _ => p := ⟨_, rfl⟩
  have hpad : ∀ p : Plane ℝ, Rectangular p → p.h = ph → p.w = pw →
      pad 0 .constant p (eh, ew) = .ok (padded p) := by
    intro p hp h1 h2
    obtain ⟨q, hq⟩ : ∃ q, pad 0 .constant p (eh, ew) = .ok q :=
      ⟨_, pad_ok (0 : ℝ) .constant p hp (by omega) (by omega) (fun h => by cases h)⟩
    rw [hpd]
    simp only [hq]
  have t1 : (paddedSize ph).toNat = eh := by rw [e1]; rfl
  have t2 : (paddedSize pw).toNat = ew := by rw [e2]; rfl
  have hfil : ∀ {m n : Nat}, m = eh → n = ew →
      (channels.mapM fun c => (do
        let p ← pad 0 .constant c.2 ((eh : Int), (ew : Int))
        return fft2 (values m n p) : Except PyErr (Pos m n → ℂ))) =
      .ok (channels.map fun c => fft2 (values m n (padded c.2))) := by
    intro m n _ _
    refine mapM_all_ok _ _ channels fun c hcc => ?_
    obtain ⟨_, a2, _, _, a5, a6⟩ := hc c hcc
    simp only [hpad c.2 a2 a5 a6, bind, Except.bind, pure, Except.pure]
  have hsum : ∀ {m n : Nat}, m = eh → n = ew →
      convolveSumFourier ph pw m n ((channels.map Prod.fst).zip
        (channels.map fun c => fft2 (values m n (padded c.2)))) .same .constant =
      .ok (crop (spatial (h := eh) (w := ew) (channels.map fun c =>
        fft2 (values _ _ (padded c.2)) * fft2 (values _ _ (padded c.1))).sum) (ph, pw)) := by
    rintro m n rfl rfl
    have hz : (channels.map Prod.fst).zip (channels.map fun c => fft2 (values m n (padded c.2))) =
        channels.map fun c => (c.1, fft2 (values m n (padded c.2))) := by
      rw [← List.zip_map']
    rw [hz]
    unfold convolveSumFourier
    have hm : (channels.map fun c => (c.1, fft2 (values m n (padded c.2)))).mapM
        (fun c : Plane ℝ × (Pos m n → ℂ) => pad 0 .constant c.1 ((m : Int), (n : Int))) =
        .ok ((channels.map fun c => (c.1, fft2 (values m n (padded c.2)))).map
          fun c : Plane ℝ × (Pos m n → ℂ) => padded c.1) := by
      refine mapM_all_ok _ _ _ fun c hcc => ?_
      rw [List.mem_map] at hcc
      obtain ⟨d, hd, rfl⟩ := hcc
      obtain ⟨a1, _, a3, a4, _, _⟩ := hc d hd
      exact hpad d.1 a1 a3 a4
    simp only [hm, bind, Except.bind, finish]
    rw [List.map_map, List.zipWith_map, List.zipWith_self]
    rfl
  refine ⟨crop (spatial (h := eh) (w := ew) (channels.map fun c =>
    fft2 (values _ _ (padded c.2)) * fft2 (values _ _ (padded c.1))).sum) (ph, pw), padded, ?_, ?_, ?_,
    fun c hcc => ?_, fun i j hi hj => ?_⟩
  · have hf := hfil t1 t2
    rw [← e1, ← e2] at hf
    unfold response paddedFilter
    rw [hf]
    exact hsum t1 t2
  · simp only [crop]
    exact sliceLen_crop (by simp only [spatial]; omega)
  · simp only [crop]
    exact sliceLen_crop (by simp only [spatial]; omega)
  · obtain ⟨a1, a2, a3, a4, a5, a6⟩ := hc c hcc
    exact ⟨hpad c.1 a1 a3 a4, hpad c.2 a2 a5 a6⟩
  · rw [pixel_crop (spatial_rect _) (by simp only [spatial]; omega) (by simp only [spatial]; omega) hi hj]
    have hi' : i + offset ph eh < eh := by unfold offset; omega
    have hj' : j + offset pw ew < ew := by unfold offset; omega
    have := pixel_spatial_sum (channels.map fun c =>
        fft2 (values eh ew (padded c.2)) * fft2 (values eh ew (padded c.1))) hi' hj'
    push_cast at this
    simp only [spatial] at this ⊢
    rw [this, List.map_map]
    congr 1
    refine List.map_congr_left fun c _ => ?_
    have := pixel_product (padded c.1) (padded c.2) hi' hj'
    push_cast at this ⊢
    exact this

end Menpofit
