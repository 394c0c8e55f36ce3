import Verif.Lemmas.FftUtils
/-!
# C40, C73: what is put into the margins, and the valid extent with a Fourier-domain filter
-/

namespace Menpofit
open Fft Spec

variable {α : Type}

theorem getElem?_replicate_flatten (l : List α) (hl : 0 < l.length) :
    ∀ (k i : Nat), i < k → ((List.replicate k l).flatten)[i]? = l[i % l.length]? := by
  intro k
  induction k with
  | zero => intro i h; omega
  | succ k ih =>
    intro i h
    rw [List.replicate_succ, List.flatten_cons]
    by_cases hi : i < l.length
    · rw [List.getElem?_append_left hi, Nat.mod_eq_of_lt hi]
    · rw [List.getElem?_append_right (by omega), ih _ (by omega)]
      congr 1
      rw [← Nat.mod_eq_sub_mod (by omega)]

theorem toNat_mod (a n : Nat) (z : Int) (hz : z = (a : Int)) : (z % (n : Nat)).toNat = a % n := by
  rw [hz, ← Int.natCast_mod]; rfl

theorem symmetricAfter_get (l : List α) (hl : 0 < l.length) (k i : Nat) (h : i < k) :
    (symmetricAfter k l)[i]? = l[reflect l.length (l.length + i : Int)]? := by
  unfold symmetricAfter
  rw [List.getElem?_take_of_lt h, getElem?_replicate_flatten _ (by simp; omega) _ _ h]
  have hL : (l.reverse ++ l).length = 2 * l.length := by simp; omega
  rw [hL]
  obtain ⟨n, hn⟩ : ∃ n, n = l.length := ⟨_, rfl⟩
  obtain ⟨r, hr⟩ : ∃ r, r = i % (2 * l.length) := ⟨_, rfl⟩
  have hr2 : r < 2 * l.length := hr ▸ Nat.mod_lt _ (by omega)
  rw [← hr]
  have hm : ((l.length + i : Int) % (2 * l.length : Nat)).toNat = (l.length + r) % (2 * l.length) := by
    rw [hr, Nat.add_mod_mod]
    exact toNat_mod _ _ _ (by push_cast; rfl)
  unfold reflect
  simp only [hm]
  by_cases hrl : r < l.length
  · rw [List.getElem?_append_left (by simpa using hrl), List.getElem?_reverse hrl,
      Nat.mod_eq_of_lt (by omega), if_neg (by omega)]
    congr 1; omega
  · rw [List.getElem?_append_right (by simpa using hrl), List.length_reverse,
      Nat.mod_eq_sub_mod (by omega), Nat.mod_eq_of_lt (by omega), if_pos (by omega)]
    congr 1; omega

/-- One axis, reflected. -/
theorem padded_get_symmetric (z : α) (l : List α) (hl : 0 < l.length) (kb ka i : Nat)
    (h : i < kb + l.length + ka) :
    (before .symmetric z kb l ++ l ++ after .symmetric z ka l)[i]? =
      l[reflect l.length ((i : Int) - kb)]? := by
  have hne : ∀ k : Nat, Boundary.symmetric = .symmetric → l = [] → k = 0 := by
    intro k _ h0; rw [h0] at hl; simp at hl
  have hbl := before_length .symmetric z kb l (hne kb)
  rw [List.append_assoc]
  by_cases h1 : i < kb
  · rw [List.getElem?_append_left (by omega)]
    unfold before
    have hal : (after .symmetric z kb l.reverse).length = kb := by
      unfold before at hbl; simpa using hbl
    rw [List.getElem?_reverse (by omega), hal]
    simp only [after]
    rw [symmetricAfter_get _ (by simpa using hl) _ _ (by omega), List.length_reverse]
    obtain ⟨j, hj⟩ : ∃ j, j = kb - 1 - i := ⟨_, rfl⟩
    rw [← hj]
    have e1 : (i : Int) - kb = -(j + 1 : Int) := by omega
    rw [e1]
    have hlt : reflect l.length ((l.length : Int) + j) < l.length := by
      unfold reflect
      have : ((l.length + j : Int) % (2 * l.length : Nat)).toNat < 2 * l.length := by
        have := Int.emod_lt_of_pos (l.length + j : Int) (b := ((2 * l.length : Nat) : Int)) (by omega)
        omega
      simp only
      split <;> omega
    rw [List.getElem?_reverse hlt]
    congr 1
    obtain ⟨r, hr⟩ : ∃ r, r = j % (2 * l.length) := ⟨_, rfl⟩
    have hr2 : r < 2 * l.length := hr ▸ Nat.mod_lt _ (by omega)
    have hq := Nat.div_add_mod j (2 * l.length)
    rw [← hr] at hq
    have m1 : ((l.length + j : Int) % (2 * l.length : Nat)).toNat = (l.length + r) % (2 * l.length) := by
      rw [hr, Nat.add_mod_mod]; exact toNat_mod _ _ _ (by push_cast; rfl)
    have m2 : ((-(j + 1 : Int)) % (2 * l.length : Nat)).toNat = 2 * l.length - 1 - r := by
      have : (-(j + 1 : Int)) % ((2 * l.length : Nat) : Int) = ((2 * l.length - 1 - r : Nat) : Int) := by
        rw [show (-(j + 1 : Int)) = ((2 * l.length - 1 - r : Nat) : Int) +
          ((2 * l.length : Nat) : Int) * (-((j / (2 * l.length) : Nat) : Int) - 1) by
            have : ((2 * l.length : Nat) : Int) * ((j / (2 * l.length) : Nat) : Int) = (j : Int) - r := by
              have : ((2 * l.length * (j / (2 * l.length)) + r : Nat) : Int) = (j : Int) := by rw [hq]
              push_cast at this ⊢
              linarith
            rw [mul_sub, mul_neg, this]
            push_cast
            omega]
        rw [Int.add_mul_emod_self_left]
        exact Int.emod_eq_of_lt (by omega) (by omega)
      rw [this]; rfl
    unfold reflect
    simp only [m1, m2]
    by_cases hrl : r < l.length
    · rw [Nat.mod_eq_of_lt (by omega), if_neg (by omega), if_neg (by omega)]
      omega
    · rw [Nat.mod_eq_sub_mod (by omega), Nat.mod_eq_of_lt (by omega), if_pos (by omega),
        if_pos (by omega)]
      omega
  · rw [List.getElem?_append_right (by omega), hbl]
    obtain ⟨j, rfl⟩ := Nat.exists_eq_add_of_le (Nat.le_of_not_lt h1)
    have e1 : ((kb + j : Nat) : Int) - kb = (j : Int) := by omega
    rw [e1, Nat.add_sub_cancel_left]
    by_cases h2 : j < l.length
    · rw [List.getElem?_append_left h2]
      congr 1
      unfold reflect
      have : ((j : Int) % (2 * l.length : Nat)).toNat = j := by
        rw [Int.emod_eq_of_lt (by omega) (by omega)]; rfl
      simp only [this, if_pos h2]
    · rw [List.getElem?_append_right (by omega)]
      simp only [after]
      rw [symmetricAfter_get _ hl _ _ (by omega)]
      congr 2
      omega

/-- One axis, filled. -/
theorem padded_get_constant (z : α) (l : List α) (kb ka i : Nat) (h : i < kb + l.length + ka) :
    (before .constant z kb l ++ l ++ after .constant z ka l)[i]? =
      if kb ≤ i ∧ i < kb + l.length then l[i - kb]? else some z := by
  simp only [before, after, List.reverse_replicate, List.append_assoc]
  by_cases h1 : i < kb
  · rw [List.getElem?_append_left (by simpa using h1), if_neg (by omega),
      List.getElem?_replicate, if_pos h1]
  · rw [List.getElem?_append_right (by simpa using h1), List.length_replicate]
    by_cases h2 : i < kb + l.length
    · rw [List.getElem?_append_left (by omega), if_pos (by omega)]
    · rw [List.getElem?_append_right (by omega), if_neg (by omega), List.getElem?_replicate,
        if_pos (by omega)]

/-- **C40** (boundary 'symmetric'): the margins show the image reflected at its borders, again and
again where the margin is wider than the image; the larger margin, when they differ, is at the
top and at the left. -/
theorem C40_pad_reflects (zero : α) (p : Plane α) (hp : Rectangular p) (eh ew : Nat)
    (h1 : p.h ≤ eh) (h2 : p.w ≤ ew) (hh : 0 < p.h) (hw : 0 < p.w) :
    ∃ p', pad zero .symmetric p (eh, ew) = .ok p' ∧ ∀ i j, i < eh → j < ew →
      pixelAt p' i j = pixelAt p (reflect p.h ((i : Int) - ((eh - p.h + 1) / 2 : Nat)))
        (reflect p.w ((j : Int) - ((ew - p.w + 1) / 2 : Nat))) := by
  refine ⟨_, pad_ok zero .symmetric p hp h1 h2 (fun _ => ⟨hh, hw⟩), ?_⟩
  intro i j hi hj
  have c1 : (eh - p.h) / 2 + (eh - p.h) % 2 = (eh - p.h + 1) / 2 := by omega
  have c2 : (ew - p.w) / 2 + (ew - p.w) % 2 = (ew - p.w + 1) / 2 := by omega
  unfold pixelAt
  simp only [c1, c2]
  rw [padded_get_symmetric _ _ (by rw [List.length_map, hp.1]; exact hh) _ _ _
    (by rw [List.length_map, hp.1]; omega), List.length_map, hp.1, List.getElem?_map]
  cases hrow : p.rows[reflect p.h ((i : Int) - ((eh - p.h + 1) / 2 : Nat))]? with
  | none => rfl
  | some r =>
    have hr : r.length = p.w := hp.2 r (List.mem_of_getElem? hrow)
    simp only [Option.map_some, Option.bind_some]
    rw [padded_get_symmetric _ _ (by omega) _ _ _ (by omega), hr]

/-- **C40** (boundary 'constant', the default): the margins are zero, and the image stands
unchanged between them. -/
theorem C40_pad_zeros (zero : α) (p : Plane α) (hp : Rectangular p) (eh ew : Nat)
    (h1 : p.h ≤ eh) (h2 : p.w ≤ ew) :
    ∃ p', pad zero .constant p (eh, ew) = .ok p' ∧ ∀ i j, i < eh → j < ew →
      pixelAt p' i j =
        if (eh - p.h + 1) / 2 ≤ i ∧ i < (eh - p.h + 1) / 2 + p.h ∧
            (ew - p.w + 1) / 2 ≤ j ∧ j < (ew - p.w + 1) / 2 + p.w
        then pixelAt p (i - (eh - p.h + 1) / 2) (j - (ew - p.w + 1) / 2)
        else some zero := by
  refine ⟨_, pad_ok zero .constant p hp h1 h2 (fun h => by cases h), ?_⟩
  intro i j hi hj
  have c1 : (eh - p.h) / 2 + (eh - p.h) % 2 = (eh - p.h + 1) / 2 := by omega
  have c2 : (ew - p.w) / 2 + (ew - p.w) % 2 = (ew - p.w + 1) / 2 := by omega
  unfold pixelAt
  simp only [c1, c2]
  rw [padded_get_constant _ _ _ _ _ (by rw [List.length_map, hp.1]; omega), List.length_map, hp.1,
    List.getElem?_map]
  by_cases hi2 : (eh - p.h + 1) / 2 ≤ i ∧ i < (eh - p.h + 1) / 2 + p.h
  · rw [if_pos hi2]
    have hlt : i - (eh - p.h + 1) / 2 < p.rows.length := by rw [hp.1]; omega
    rw [List.getElem?_eq_getElem hlt]
    have hr : (p.rows[i - (eh - p.h + 1) / 2]).length = p.w := hp.2 _ (List.getElem_mem hlt)
    simp only [Option.map_some, Option.bind_some]
    rw [padded_get_constant _ _ _ _ _ (by omega), hr]
    by_cases hj2 : (ew - p.w + 1) / 2 ≤ j ∧ j < (ew - p.w + 1) / 2 + p.w
    · rw [if_pos hj2, if_pos ⟨hi2.1, hi2.2, hj2⟩]
    · rw [if_neg hj2, if_neg (fun h => hj2 h.2.2)]
  · rw [if_neg hi2, if_neg (fun h => hi2 ⟨h.1, h.2.1⟩)]
    simp only [Option.bind_some]
    rw [List.getElem?_replicate, if_pos hj]

/-- Non-vacuity: a row of two pixels in a row of seven. -/
example : pad 0 .symmetric (⟨1, 2, [[5, 6]]⟩ : Plane Nat) (1, 7) =
    .ok ⟨1, 7, [[6, 6, 5, 5, 6, 6, 5]]⟩ := by decide

/-- **C73** (`fft_convolve2d_sum`, mode 'valid', filter of the image's own size in the Fourier
domain): the extended size is the one the filter's own size gives, and the valid region is the
one the image-domain filter leaves. -/
theorem C73_sum_fourier_valid_partial (zero : α) (conv : Plane α → Plane α)
    (hconv : ∀ a, (conv a).h = a.h ∧ (conv a).w = a.w ∧ Rectangular (conv a))
    (x : Plane α) (hx : Rectangular x) (h1 : 4 ≤ x.h) (h2 : 4 ≤ x.w) :
    ∃ c, fftConvolve2dSumFourier zero conv x (x.h + x.h / 2 - 1, x.w + x.w / 2 - 1) .valid
        .constant = .ok c ∧ Rectangular c ∧
      c.h = x.h - x.h / 2 + 1 ∧ c.w = x.w - x.w / 2 + 1 := by
  have hpad := pad_ok zero .constant x hx (eh := x.h + x.h / 2 - 1) (ew := x.w + x.w / 2 - 1)
    (by omega) (by omega) (fun h => by cases h)
  unfold fftConvolve2dSumFourier
  simp only [hpad, bind, Except.bind, finish]
  have d1 : (x.h : Int) - (((x.h + x.h / 2 - 1 + 1) * 2 / 3 : Nat) : Int) / 2 + 1 =
    ((x.h - x.h / 2 + 1 : Nat) : Int) := by omega
  have d2 : (x.w : Int) - (((x.w + x.w / 2 - 1 + 1) * 2 / 3 : Nat) : Int) / 2 + 1 =
    ((x.w - x.w / 2 + 1 : Nat) : Int) := by omega
  simp only [d1, d2]
  refine ⟨_, rfl, ⟨?_, ?_⟩, ?_, ?_⟩
  · simp only [crop, List.length_map, slice_length, (hconv _).2.2.1]
  · intro r hr
    simp only [crop, List.mem_map] at hr
    obtain ⟨l, hl, rfl⟩ := hr
    simp only [crop, slice_length, (hconv _).2.2.2 l (mem_slice hl)]
  · simp only [crop, (hconv _).1]; exact sliceLen_crop (by omega)
  · simp only [crop, (hconv _).2.1]; exact sliceLen_crop (by omega)

end Menpofit
