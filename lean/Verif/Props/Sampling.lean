import Verif.Lemmas.Sampling
/-!
# Properties of the sampling masks (C66, C82)
-/

namespace Menpofit
open Sampling Spec

/-- **C66** (which pixels).  For a valid sampling specification the mask has one flag per pixel,
set exactly for the selected pixels. -/
theorem C66_selected (n : Nat) (s : Sampling.Spec) (h : ValidSampling n s) :
    ∃ mask, pixelMask n s = .ok mask ∧ mask.length = n ∧
      ∀ j, mask[j]? = some true ↔ Selected n s j := by
  have out : ∀ (mask : List Bool) j, mask.length = n → ¬ j < n → mask[j]? ≠ some true := by
    intro mask j hm hj; rw [List.getElem?_eq_none (by omega)]; simp
  have base : ∀ (l : List Int), (∀ i ∈ l, -(n : Int) ≤ i ∧ i < n) →
      ∃ mask, setFlags (List.replicate n false) l = .ok mask ∧ mask.length = n ∧
      ∀ j, mask[j]? = some true ↔ j < n ∧ ((j : Int) ∈ l ∨ (j : Int) - n ∈ l) := by
    intro l hl
    obtain ⟨r, h1, h2, h3⟩ := setFlags_spec (List.replicate n false) l (by simpa using hl)
    rw [List.length_replicate] at h2 h3
    refine ⟨r, h1, h2, ?_⟩
    intro j
    by_cases hj : j < n
    · rw [h3 j hj]
      simp [hj]
    · constructor
      · intro h; exact absurd h (out r j h2 hj)
      · rintro ⟨h, -⟩; exact absurd h hj
  have rangeCase : ∀ k : Int, k ≠ 0 → ∃ mask, (do
      let r ← pyRange n k
      setFlags (List.replicate n false) r) = .ok mask ∧ mask.length = n ∧
      ∀ j, mask[j]? = some true ↔ j < n ∧ 0 < k ∧ k ∣ (j : Int) := by
    intro k hk
    obtain ⟨r, hr, hr'⟩ := pyRange_spec n k hk
    obtain ⟨mask, h1, h2, h3⟩ := base r (fun i hi => by have := (hr' i).mp hi; omega)
    refine ⟨mask, by simp only [hr, bind, Except.bind]; exact h1, h2, ?_⟩
    intro j
    rw [h3, hr', hr']
    constructor
    · rintro ⟨hj, ⟨-, -, h⟩ | h⟩
      · exact ⟨hj, h⟩
      · omega
    · rintro ⟨hj, h⟩
      exact ⟨hj, Or.inl ⟨by omega, by omega, h⟩⟩
  cases s with
  | all =>
    obtain ⟨mask, h1, h2, h3⟩ := rangeCase 1 (by omega)
    refine ⟨mask, h1, h2, fun j => ?_⟩
    rw [h3, Selected]
    simp
  | step k => exact rangeCase k h
  | index l => exact base l h
  | flags l =>
    refine ⟨List.zipWith (fun a b => a || b) (List.replicate n false) l, ?_, ?_, ?_⟩
    · simp only [pixelMask, if_pos (show l.length = n from h)]
    · simp [show l.length = n from h]
    · intro j
      have hl : l.length = n := h
      rw [Selected, List.getElem?_zipWith]
      by_cases hj : j < n
      · simp [List.getElem?_replicate, hj]
        rw [List.getElem?_eq_getElem (by omega)]
        simp
      · rw [List.getElem?_eq_none (l := l) (by omega)]
        simp [List.getElem?_replicate, hj]

/-- **C66** (refusals).  A zero step raises `ValueError`, an index outside the image or a
boolean array of another size `IndexError`. -/
theorem C66_invalid (n : Nat) (s : Sampling.Spec) (h : ¬ ValidSampling n s) :
    pixelMask n s = .error (match s with | .step _ => .valueError | _ => .indexError) := by
  cases s with
  | all => exact absurd trivial h
  | step k =>
    have : k = 0 := by simpa [ValidSampling] using h
    subst this
    rfl
  | index l =>
    simp only [ValidSampling, not_forall] at h
    obtain ⟨i, hi, hb⟩ := h
    exact setFlags_error _ l i hi (by simpa using hb)
  | flags l =>
    have : l.length ≠ n := h
    simp [pixelMask, this]

/-- **C66** (features).  For a mask over `n` pixels and any number of channels, the list of
feature indices is strictly increasing (so it has no repetition), and the index
`c * n + j` (channel `c`, pixel `j`) is listed exactly if the mask selects pixel `j`:
the same pixels in every channel. -/
theorem C66_features (channels : Nat) (mask : List Bool) :
    (iMask channels mask).Pairwise (· < ·) ∧
    (∀ c j, c < channels → j < mask.length →
      (c * mask.length + j ∈ iMask channels mask ↔ mask[j]? = some true)) ∧
    (∀ i ∈ iMask channels mask, i < channels * mask.length) ∧
    (iMask channels mask).length = channels * (mask.filter id).length := by
  have hlen : (nonzero mask).length = (mask.filter id).length := by
    rw [← List.countP_eq_length_filter, nonzero, ← List.countP_eq_length_filter]
    have e : mask = (List.range mask.length).map (fun i => mask.getD i false) := by
      apply List.ext_getElem
      · simp
      · intro i h1 h2
        simp [List.getD_eq_getElem?_getD, List.getElem?_eq_getElem h1]
    conv_rhs => rw [e]
    rw [List.countP_map]
    rfl
  refine ⟨nonzero_sorted _, ?_, ?_, ?_⟩
  · intro c j hc hj
    rw [iMask_eq, List.mem_flatMap]
    constructor
    · rintro ⟨c', hc', hm⟩
      obtain ⟨j', hj', e⟩ := List.mem_map.mp hm
      have hj'' : j' < mask.length := by
        have := (mem_nonzero mask j').mp hj'
        by_contra hn
        rw [List.getElem?_eq_none (by omega)] at this
        cases this
      have h1 : c' = c := by
        have h2 : (c' * mask.length + j') / mask.length = (c * mask.length + j) / mask.length :=
          congrArg (fun x => x / mask.length) e
        rwa [Nat.mul_comm c', Nat.mul_comm c, Nat.mul_add_div (by omega),
          Nat.mul_add_div (by omega), Nat.div_eq_of_lt hj'', Nat.div_eq_of_lt hj,
          Nat.add_zero, Nat.add_zero] at h2
      subst h1
      have : j' = j := by omega
      rw [← this]
      exact (mem_nonzero mask j').mp hj'
    · intro h
      exact ⟨c, List.mem_range.mpr hc, List.mem_map.mpr ⟨j, (mem_nonzero mask j).mpr h, rfl⟩⟩
  · intro i hi
    unfold iMask nonzero at hi
    rw [List.mem_filter, List.mem_range] at hi
    simpa using hi.1
  · rw [iMask_eq, flatMap_length _ (nonzero mask).length _ (fun _ => by simp), hlen]

/-- Five pixels, every second one, two channels. -/
example : ∃ mask, pixelMask 5 (.step 2) = .ok mask ∧ iMask 2 mask = [0, 2, 4, 5, 7, 9] :=
  ⟨[true, false, true, false, true], rfl, by decide⟩

example : ∃ mask, pixelMask 4 (.index [2, -1]) = .ok mask ∧ iMask 2 mask = [2, 3, 6, 7] :=
  ⟨[false, false, true, true], rfl, by decide⟩

variable {K : Type} [Ring K]

/-- **C82**.  The steepest descent images of a sampled algorithm are the rows of the full
steepest descent images at the sampled features, in the order of the feature
indices: the row of feature `c * n + j` has, for parameter `p`, the image gradient of
channel `c` at pixel `j` times the derivative of the warp of pixel `j`, summed over the
two axes. -/
theorem C82_rows (C P : Nat) (hC : 0 < C) (hP : 0 < P) (mask : List Bool)
    (nabla dW : Nat → Nat → Nat → K) :
    steepestDescent C P mask nabla dW = (iMask C mask).map fun i => (List.range P).map fun p =>
      nabla 0 (i / mask.length) (i % mask.length) * dW 0 (i % mask.length) p +
      nabla 1 (i / mask.length) (i % mask.length) * dW 1 (i % mask.length) p := by
  have hw : (maskedGradient C mask nabla).length / (2 * C) = (nonzero mask).length := by
    rw [maskedGradient_length, Nat.mul_div_cancel_left _ (by omega)]
  have hw' : (maskedJacobian P mask dW).length / (2 * P) = (nonzero mask).length := by
    rw [maskedJacobian_length, Nat.mul_div_cancel_left _ (by omega)]
  unfold steepestDescent
  simp only [hw, hw']
  rw [iMask_eq, List.map_flatMap, List.flatMap_def, List.flatMap_def]
  congr 1
  apply List.map_congr_left
  intro c hc
  have hc := List.mem_range.mp hc
  rw [List.map_map]
  rw [← range_map_getD (nonzero mask)]
  apply List.map_congr_left
  intro k hk
  have hk := List.mem_range.mp hk
  simp only [Function.comp_apply]
  apply List.map_congr_left
  intro p hp
  have hp := List.mem_range.mp hp
  have hj : (nonzero mask).getD k 0 < mask.length := by
    have hm : (nonzero mask).getD k 0 ∈ nonzero mask := by
      rw [List.getD_eq_getElem?_getD, List.getElem?_eq_getElem hk]
      exact List.getElem_mem hk
    have := (mem_nonzero mask _).mp hm
    by_contra hn
    rw [List.getElem?_eq_none (by omega)] at this
    cases this
  rw [maskedGradient_get C mask nabla 0 c k (by omega) hc hk,
    maskedGradient_get C mask nabla 1 c k (by omega) hc hk,
    maskedJacobian_get P mask dW 0 p k (by omega) hp hk,
    maskedJacobian_get P mask dW 1 p k (by omega) hp hk]
  have e1 : (c * mask.length + (nonzero mask).getD k 0) / mask.length = c := by
    rw [Nat.mul_comm, Nat.mul_add_div (by omega), Nat.div_eq_of_lt hj, Nat.add_zero]
  have e2 : (c * mask.length + (nonzero mask).getD k 0) % mask.length =
      (nonzero mask).getD k 0 := by
    rw [Nat.mul_comm, Nat.mul_add_mod, Nat.mod_eq_of_lt hj]
  rw [e1, e2, zero_add]

/-- **C82** (patch-based).  The same with one block of `rows` (offsets times channels) per
part; the derivative is that of the part's point. -/
theorem C82_patch_rows (parts rows P : Nat) (hC : 0 < parts * rows) (mask : List Bool)
    (nabla dW : Nat → Nat → Nat → K) :
    patchSteepestDescent parts rows P mask nabla dW =
      (iMask (parts * rows) mask).map fun i => (List.range P).map fun p =>
        nabla 0 (i / mask.length) (i % mask.length) * dW 0 (i / mask.length / rows) p +
        nabla 1 (i / mask.length) (i % mask.length) * dW 1 (i / mask.length / rows) p := by
  have hw : (maskedGradient (parts * rows) mask nabla).length / (2 * (parts * rows)) =
      (nonzero mask).length := by
    rw [maskedGradient_length, Nat.mul_div_cancel_left _ (by omega)]
  unfold patchSteepestDescent
  simp only [hw]
  rw [iMask_eq, List.map_flatMap, List.flatMap_def, List.flatMap_def]
  congr 1
  apply List.map_congr_left
  intro c hc
  have hc := List.mem_range.mp hc
  rw [List.map_map]
  rw [← range_map_getD (nonzero mask)]
  apply List.map_congr_left
  intro k hk
  have hk := List.mem_range.mp hk
  simp only [Function.comp_apply]
  apply List.map_congr_left
  intro p hp
  have hj : (nonzero mask).getD k 0 < mask.length := by
    have hm : (nonzero mask).getD k 0 ∈ nonzero mask := by
      rw [List.getD_eq_getElem?_getD, List.getElem?_eq_getElem hk]
      exact List.getElem_mem hk
    have := (mem_nonzero mask _).mp hm
    by_contra hn
    rw [List.getElem?_eq_none (by omega)] at this
    cases this
  rw [maskedGradient_get (parts * rows) mask nabla 0 c k (by omega) hc hk,
    maskedGradient_get (parts * rows) mask nabla 1 c k (by omega) hc hk]
  have e1 : (c * mask.length + (nonzero mask).getD k 0) / mask.length = c := by
    rw [Nat.mul_comm, Nat.mul_add_div (by omega), Nat.div_eq_of_lt hj, Nat.add_zero]
  have e2 : (c * mask.length + (nonzero mask).getD k 0) % mask.length =
      (nonzero mask).getD k 0 := by
    rw [Nat.mul_comm, Nat.mul_add_mod, Nat.mod_eq_of_lt hj]
  rw [e1, e2, zero_add]

/-- Three pixels of which the first and last are sampled, two channels, two parameters. -/
example : steepestDescent 2 2 [true, false, true]
    (fun d c j => ((10 * d + 3 * c + j : Nat) : Int)) (fun d j p => ((d + 2 * j + p : Nat) : Int)) =
    [[10, 20], [68, 82], [13, 29], [95, 115]] := by decide

end Menpofit
