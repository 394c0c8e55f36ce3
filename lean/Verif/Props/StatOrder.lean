import Verif.Lemmas.StatOrder
/-!
# C134: summary statistics rank methods fairly
-/

namespace Menpofit
open Stats

theorem measures_scalars {e : List ℝ} {step hi lo : ℝ} {m : Measures ℝ}
    (h : computeStatisticalMeasures (.one e) step hi lo = .ok (.scalars m)) :
    e ≠ [] ∧ m.mean = npMean e ∧ m.std = npStd e ∧ m.median = npMedian e ∧ m.mad = mad e ∧ m.max = npMax e ∧
      aucAndFailureRate e step hi lo = .ok (m.auc, m.fail) := by
  cases e with
  | nil => cases h
  | cons a l =>
    simp only [computeStatisticalMeasures] at h
    obtain ⟨m', h1, h2⟩ := bind_ok h
    injection h2 with h2; injection h2 with h2
    subst h2
    rw [measuresOne, if_neg (by simp)] at h1
    obtain ⟨x, h3, h4⟩ := bind_ok h1
    injection h4 with h4
    subst h4
    exact ⟨by simp, rfl, rfl, rfl, rfl, rfl, h3⟩

/-- **C134** (dominance): a method whose error is at most that of another on every image has a mean, a median, a
maximum and a failure rate that are at most those of the other, and an area under the curve that is at least
that of the other. -/
theorem C134_better_partial (e' e : List ℝ) (h : List.Forall₂ (fun a b => a ≤ b) e' e) (step lo hi : ℝ)
    (hs : 0 < step) (hlo0 : 0 ≤ lo) (hlo : lo < hi) (m' m : Measures ℝ)
    (hm' : computeStatisticalMeasures (.one e') step hi lo = .ok (.scalars m'))
    (hm : computeStatisticalMeasures (.one e) step hi lo = .ok (.scalars m)) :
    m'.mean ≤ m.mean ∧ m'.median ≤ m.median ∧ m'.max ≤ m.max ∧ m.auc ≤ m'.auc ∧ m'.fail ≤ m.fail := by
  obtain ⟨n', a1', -, a3', -, a5', a6'⟩ := measures_scalars hm'
  obtain ⟨n, a1, -, a3, -, a5, a6⟩ := measures_scalars hm
  obtain ⟨N, h1, -, -⟩ := arange_axis lo hi step hs hlo.le
  have hle : ∀ x, (countLe e x : ℝ) / e.length ≤ (countLe e' x : ℝ) / e'.length := by
    intro x
    rw [h.length_eq]
    exact div_le_div_of_nonneg_right (by exact_mod_cast countLe_mono h x) (Nat.cast_nonneg _)
  rw [aucAndFailureRate_eq e' n' lo hi step N h1] at a6'
  rw [aucAndFailureRate_eq e n lo hi step N h1] at a6
  simp only [Except.ok.injEq, Prod.mk.injEq] at a6 a6'
  refine ⟨a1 ▸ a1' ▸ npMean_mono h, a3 ▸ a3' ▸ npMedian_mono h, a5 ▸ a5' ▸ npMax_mono h, ?_, ?_⟩
  · rw [← a6.1, ← a6'.1]
    exact div_le_div_of_nonneg_right (simps_mono lo step hs _ _ N (fun i => hle _)) (by linarith)
  · rw [← a6.2, ← a6'.2]
    have := hle (lo + N * step); linarith

/-- **C134** fails for the standard deviation and the median absolute deviation: getting better on one image
only may increase both. -/
theorem C134_spread_violated :
    ∃ e' e : List ℝ, List.Forall₂ (fun a b => a ≤ b) e' e ∧ npStd e < npStd e' ∧ mad e < mad e' := by
  refine ⟨[0, 1], [1, 1], .cons (by norm_num) (.cons le_rfl .nil), ?_, ?_⟩
  · have h1 : npStd [1, 1] = 0 := by
      unfold npStd npMean; norm_num
    have h2 : 0 < npStd [0, 1] := by
      unfold npStd npMean; norm_num
    rw [h1]; exact h2
  · have med : ∀ a b : ℝ, a ≤ b → npMedian [a, b] = (a + b) / 2 := by
      intro a b hab
      rw [npMedian_eq (List.Perm.refl _) (by simp [hab])]
      simp
    unfold mad
    simp only [med 0 1 (by norm_num), med 1 1 le_rfl, List.map_cons, List.map_nil]
    rw [show |(1 : ℝ) - (1 + 1) / 2| = 0 by norm_num, show |(0 : ℝ) - (0 + 1) / 2| = 1 / 2 by norm_num [abs_of_neg],
      show |(1 : ℝ) - (0 + 1) / 2| = 1 / 2 by norm_num [abs_of_pos], med 0 0 le_rfl, med _ _ le_rfl]
    norm_num

/-- **C134** (order): no statistic depends on the order of the images. -/
theorem C134_order (e e' : List ℝ) (h : e.Perm e') (step hi lo : ℝ) :
    computeStatisticalMeasures (.one e) step hi lo = computeStatisticalMeasures (.one e') step hi lo := by
  have hced : ∀ b, computeCumulativeError e b = computeCumulativeError e' b := by
    intro b
    cases b with
    | nil => cases e <;> cases e' <;> rfl
    | cons x b =>
      match e, e', h with
      | [], [], _ => rfl
      | [], y :: l, h => exact absurd h.length_eq (by simp)
      | y :: l, [], h => exact absurd h.length_eq (by simp)
      | y :: l, y' :: l', h =>
        have hc : ∀ z, countLe (y :: l) z = countLe (y' :: l') z := fun z => h.countP_eq _
        simp only [computeCumulativeError, hc, h.length_eq]
  have hmean : ∀ {l l' : List ℝ}, l.Perm l' → npMean l = npMean l' := by
    intro l l' h
    unfold npMean
    rw [h.sum_eq, h.length_eq]
  have hmax : npMax e = npMax e' := by
    by_cases hne : e = []
    · subst hne; rw [List.Perm.eq_nil h.symm]
    · have hne' : e' ≠ [] := fun h0 => hne (by rw [h0] at h; exact h.eq_nil)
      exact npMax_unique (h.mem_iff.mpr (npMax_mem hne')) fun x hx => npMax_ge (h.mem_iff.mp hx)
  have hone : measuresOne e step hi lo = measuresOne e' step hi lo := by
    unfold measuresOne
    by_cases hne : e = []
    · subst hne; rw [List.Perm.eq_nil h.symm]
    · have hne' : e' ≠ [] := fun h0 => hne (by rw [h0] at h; exact h.eq_nil)
      rw [if_neg hne, if_neg hne']
      unfold aucAndFailureRate
      simp only [hced]
      have hstd : npStd e = npStd e' := by
        unfold npStd
        rw [hmean h, hmean (h.map _)]
      have hmad : mad e = mad e' := by
        unfold mad
        rw [npMedian_perm h]
        exact npMedian_perm (h.map _)
      rw [hmean h, hstd, hmad, npMedian_perm h, hmax]
  match e, e', h, hone with
  | [], [], _, _ => rfl
  | [], y :: l, h, _ => exact absurd h.length_eq (by simp)
  | y :: l, [], h, _ => exact absurd h.length_eq (by simp)
  | y :: l, y' :: l', h, hone =>
    simp only [computeStatisticalMeasures, hone]

/-- **C134** (units): measuring errors and axis in another unit multiplies mean, standard deviation, median, median
absolute deviation and maximum by the same factor, and leaves the area and the failure rate alone. -/
theorem C134_units (c : ℝ) (hc : 0 < c) (e : List ℝ) (step hi lo : ℝ) (m : Measures ℝ)
    (h : computeStatisticalMeasures (.one e) step hi lo = .ok (.scalars m)) :
    computeStatisticalMeasures (.one (e.map fun x => c * x)) (c * step) (c * hi) (c * lo) =
      .ok (.scalars ⟨c * m.mean, c * m.std, c * m.median, c * m.mad, c * m.max, m.auc, m.fail⟩) := by
  obtain ⟨hne, a1, a2, a3, a4, a5, a6⟩ := measures_scalars h
  have hstd : npStd (e.map fun x => c * x) = c * npStd e := by
    unfold npStd
    rw [npMean_scale]
    have : ((e.map fun x => c * x).map fun y => (y - c * npMean e) ^ 2) =
        (e.map fun y => (y - npMean e) ^ 2).map fun y => c ^ 2 * y := by
      rw [List.map_map, List.map_map]
      refine List.map_congr_left fun x _ => ?_
      simp only [Function.comp]
      ring
    rw [this, npMean_scale, Real.sqrt_mul (by positivity), Real.sqrt_sq hc.le]
  have hone : measuresOne (e.map fun x => c * x) (c * step) (c * hi) (c * lo) =
      .ok ⟨c * m.mean, c * m.std, c * m.median, c * m.mad, c * m.max, m.auc, m.fail⟩ := by
    unfold measuresOne
    rw [if_neg (by simpa using hne), auc_scale c hc, a6]
    simp only [bind, Except.bind, pure, Except.pure, npMean_scale, hstd, npMedian_scale c hc.le e hne,
      mad_scale c hc.le e hne, npMax_scale c hc, a1, a2, a3, a4, a5]
  cases e with
  | nil => exact absurd rfl hne
  | cons x l =>
    simp only [List.map_cons] at hone ⊢
    simp only [computeStatisticalMeasures, hone, bind, Except.bind, pure, Except.pure]

/-- **C134** (consistency of one report): mean and median lie between the smallest and the largest error and are at
most one standard deviation apart; the standard deviation is at most the range. -/
theorem C134_consistent (e : List ℝ) (step hi lo : ℝ) (m : Measures ℝ)
    (h : computeStatisticalMeasures (.one e) step hi lo = .ok (.scalars m)) :
    (∀ b, (∀ x ∈ e, b ≤ x) → b ≤ m.mean ∧ b ≤ m.median ∧ m.std ≤ m.max - b) ∧
      m.mean ≤ m.max ∧ m.median ≤ m.max ∧ |m.mean - m.median| ≤ m.std := by
  obtain ⟨hne, a1, a2, a3, a4, a5, a6⟩ := measures_scalars h
  have hpos : (0 : ℝ) < e.length := by exact_mod_cast List.length_pos_of_ne_nil hne
  have hmean : ∀ (l : List ℝ), l.length = e.length → ∀ b, ((∀ x ∈ l, b ≤ x) → b ≤ npMean l) ∧
      ((∀ x ∈ l, x ≤ b) → npMean l ≤ b) := by
    intro l hl b
    unfold npMean
    rw [hl]
    refine ⟨fun hb => ?_, fun hb => ?_⟩
    · rw [le_div_iff₀ hpos]
      have := List.card_nsmul_le_sum l b hb
      rw [nsmul_eq_mul, hl] at this
      linarith
    · rw [div_le_iff₀ hpos]
      have := List.sum_le_card_nsmul l b hb
      rw [nsmul_eq_mul, hl] at this
      linarith
  have hmax : ∀ x ∈ e, x ≤ m.max := fun x hx => a5 ▸ npMax_ge hx
  have hm1 : m.mean ≤ m.max := a1 ▸ (hmean e rfl m.max).2 hmax
  refine ⟨fun b hb => ⟨a1 ▸ (hmean e rfl b).1 hb, a3 ▸ (npMedian_bounds e hne b m.max fun x hx => ⟨hb x hx, hmax x hx⟩).1, ?_⟩,
    hm1, ?_, ?_⟩
  · have hm0 : b ≤ m.mean := a1 ▸ (hmean e rfl b).1 hb
    rw [a2]
    unfold npStd
    apply Real.sqrt_le_iff.mpr
    refine ⟨by linarith, (hmean _ (by simp) _).2 ?_⟩
    intro y hy
    obtain ⟨x, hx, rfl⟩ := List.mem_map.mp hy
    rw [← a1]
    have h1 := hb x hx
    have h2 := hmax x hx
    apply sq_le_sq'
    · linarith
    · linarith
  · rw [a3]
    exact (npMedian_bounds e hne (npMin e) m.max fun x hx => ⟨npMin_le hx, hmax x hx⟩).2
  · have hdev : ∀ c, |npMean e - c| ≤ npMean (e.map fun x => |x - c|) := by
      intro c
      have : npMean e - c = npMean (e.map fun x => x - c) := by
        unfold npMean
        rw [List.length_map]
        have : (e.map fun x => x - c).sum = e.sum - e.length * c := by
          clear a6 h a1 a2 a3 a4 a5 hmax hmean hpos hne
          induction e with
          | nil => simp
          | cons x l ih => simp only [List.map_cons, List.sum_cons, List.length_cons, ih]; push_cast; ring
        rw [this]
        field_simp
      rw [this]
      unfold npMean
      rw [abs_div, List.length_map, List.length_map, abs_of_pos hpos]
      refine div_le_div_of_nonneg_right ?_ hpos.le
      clear a6 h a1 a2 a3 a4 a5 hmax hmean hpos hne this
      induction e with
      | nil => simp
      | cons x l ih =>
        simp only [List.map_cons, List.sum_cons]
        exact le_trans (abs_add_le _ _) (by linarith)
    rw [a1, a2, a3]
    refine le_trans (hdev _) ?_
    have h1 : npMean (e.map fun x => |x - npMedian e|) ≤ npMean (e.map fun x => |x - npMean e|) := by
      unfold npMean
      rw [List.length_map, List.length_map]
      exact div_le_div_of_nonneg_right (sum_abs_median_le e hne _) hpos.le
    refine le_trans h1 ?_
    have := mean_abs_le_rms (e.map fun x => x - npMean e)
    unfold npStd
    simpa only [List.map_map, Function.comp_def] using this

/-- Non-vacuity: three images, two methods. -/
example : List.Forall₂ (fun a b : ℝ => a ≤ b) [1 / 10, 2 / 10, 2] [1 / 10, 3 / 10, 2] ∧
    ∃ m, computeStatisticalMeasures (.one [1 / 10, 3 / 10, 2]) (1 / 2) 1 0 = .ok (.scalars m) := by
  refine ⟨.cons le_rfl (.cons (by norm_num) (.cons le_rfl .nil)), ?_⟩
  obtain ⟨N, h1, -, -⟩ := arange_axis (0 : ℝ) 1 (1 / 2) (by norm_num) (by norm_num)
  have := aucAndFailureRate_eq [(1 : ℝ) / 10, 3 / 10, 2] (by simp) 0 1 (1 / 2) N h1
  exact ⟨_, by simp only [computeStatisticalMeasures, measuresOne, this]; rfl⟩

end Menpofit
