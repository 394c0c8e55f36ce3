import Verif.Spec.Stats
import Verif.Lemmas.Simps
import Verif.Lemmas.Result
import Mathlib.Algebra.Order.Floor.Semifield
import Mathlib.Data.Rat.Floor
/-!
# Properties of the error statistics (C30–C33, C71)
-/

namespace Menpofit
open Stats Spec

variable {K : Type} [Field K] [LinearOrder K] [IsStrictOrderedRing K]

/-! ## C30: the cumulative error distribution -/

/-- **C30**.  For a non-empty list of errors the distribution has one value per bin, the
fraction of the errors that are at most the bin; every value is in `[0, 1]`. -/
theorem C30_fraction (errors bins : List K) (hne : errors ≠ []) :
    ∃ ced, computeCumulativeError errors bins = .ok ced ∧ ced.length = bins.length ∧
      ∀ (i : Nat) (x : K), bins[i]? = some x →
        ced[i]? = some (fraction (fun e => decide (e ≤ x)) errors) ∧
        0 ≤ fraction (fun e => decide (e ≤ x)) errors ∧
        fraction (fun e => decide (e ≤ x)) errors ≤ 1 := by
  have h : computeCumulativeError errors bins =
      .ok (bins.map fun x => (countLe errors x : K) / errors.length) := by
    cases errors with
    | nil => exact absurd rfl hne
    | cons e es => cases bins <;> rfl
  refine ⟨_, h, by simp, ?_⟩
  intro i x hx
  have hpos : (0 : K) < errors.length := by
    exact_mod_cast List.length_pos_of_ne_nil hne
  refine ⟨?_, ?_, ?_⟩
  · rw [List.getElem?_map, hx]
    simp [countLe, fraction, List.countP_eq_length_filter]
  · exact div_nonneg (Nat.cast_nonneg _) hpos.le
  · rw [fraction, div_le_one hpos]
    exact_mod_cast List.length_filter_le _ _

/-- **C30**: larger bins have larger values. -/
theorem C30_monotone (errors bins ced : List K) (h : computeCumulativeError errors bins = .ok ced)
    (i j : Nat) (x y u v : K) (hx : bins[i]? = some x) (hy : bins[j]? = some y) (hxy : x ≤ y)
    (hu : ced[i]? = some u) (hv : ced[j]? = some v) : u ≤ v := by
  cases errors with
  | nil =>
    cases bins with
    | nil => simp at hx
    | cons b bs => simp [computeCumulativeError] at h
  | cons e es =>
    obtain ⟨ced', h', -, hval⟩ := C30_fraction (e :: es) bins (by simp)
    rw [h] at h'; injection h' with h'; subst h'
    rw [(hval i x hx).1] at hu
    rw [(hval j y hy).1] at hv
    injection hu with hu; injection hv with hv
    subst hu hv
    apply div_le_div_of_nonneg_right _ (Nat.cast_nonneg _)
    rw [← List.countP_eq_length_filter, ← List.countP_eq_length_filter]
    exact_mod_cast List.countP_mono_left (fun a _ ha => by simp at ha ⊢; exact le_trans ha hxy)

/-- **C30**: the order of the errors does not matter. -/
theorem C30_order (errors errors' bins : List K) (h : errors.Perm errors') :
    computeCumulativeError errors bins = computeCumulativeError errors' bins := by
  cases errors with
  | nil => rw [List.Perm.eq_nil h.symm]
  | cons e es =>
    cases errors' with
    | nil => exact absurd (List.Perm.eq_nil h) (by simp)
    | cons e' es' =>
      cases bins with
      | nil => rfl
      | cons b bs =>
        simp only [computeCumulativeError, countLe]
        rw [h.length_eq]
        congr 1
        apply List.map_congr_left
        intro x _
        rw [h.countP_eq]

/-- **C30**: the value is 1 exactly at the bins that no error exceeds. -/
theorem C30_one (errors bins ced : List K) (h : computeCumulativeError errors bins = .ok ced)
    (i : Nat) (x u : K) (hx : bins[i]? = some x) (hu : ced[i]? = some u) :
    u = 1 ↔ ∀ e ∈ errors, e ≤ x := by
  cases errors with
  | nil =>
    cases bins with
    | nil => simp at hx
    | cons b bs => simp [computeCumulativeError] at h
  | cons e es =>
    obtain ⟨ced', h', -, hval⟩ := C30_fraction (e :: es) bins (by simp)
    rw [h] at h'; injection h' with h'; subst h'
    rw [(hval i x hx).1] at hu
    injection hu with hu
    rw [← hu, fraction, div_eq_one_iff_eq (by simp; positivity), Nat.cast_inj,
      List.length_filter_eq_length_iff]
    simp

example : computeCumulativeError [(1 : ℚ), 3, 2, 3] [0, 2, 3] = .ok [0, 1/2, 1] := by
  decide +kernel

/-! ## C31: the failure rate -/

variable [FloorRing K]

/-- **C31** (partial: the step divides the range).  The failure rate is the fraction of
errors above `max_error`. -/
theorem C31_failure_partial (errors : List K) (hne : errors ≠ []) (step lo hi : K)
    (hs : 0 < step) (hlo : lo ≤ hi) (hdvd : ∃ k : Nat, hi - lo = k * step) :
    ∃ auc fr, aucAndFailureRate errors step hi lo = .ok (auc, fr) ∧
      fr = fraction (fun e => decide (hi < e)) errors := by
  obtain ⟨N, h1, h2, h3⟩ := arange_axis lo hi step hs hlo
  obtain ⟨k, hk⟩ := hdvd
  refine ⟨_, _, aucAndFailureRate_eq errors hne lo hi step N h1, ?_⟩
  rw [axis_end lo hi step hs k N hk h2 h3]
  have hpos : (0 : K) < errors.length := by
    exact_mod_cast List.length_pos_of_ne_nil hne
  have hsplit : (errors.length : K) = countLe errors hi +
      (errors.filter fun e => decide (hi < e)).length := by
    have := List.length_eq_countP_add_countP (fun e => decide (e ≤ hi)) (l := errors)
    rw [this, ← List.countP_eq_length_filter]
    push_cast
    congr 2
    apply List.countP_congr
    intro e _; simp
  rw [fraction]
  field_simp
  linarith

/-- **C31** (partial: any step).  The failure rate is the fraction of errors above some
threshold between `max_error` and `max_error + step`. -/
theorem C31_threshold_partial (errors : List K) (hne : errors ≠ []) (step lo hi : K)
    (hs : 0 < step) (hlo : lo ≤ hi) :
    ∃ auc fr x, aucAndFailureRate errors step hi lo = .ok (auc, fr) ∧ hi ≤ x ∧ x < hi + step ∧
      fr = fraction (fun e => decide (x < e)) errors := by
  obtain ⟨N, h1, h2, h3⟩ := arange_axis lo hi step hs hlo
  refine ⟨_, _, lo + N * step, aucAndFailureRate_eq errors hne lo hi step N h1, h2, h3, ?_⟩
  have hpos : (0 : K) < errors.length := by
    exact_mod_cast List.length_pos_of_ne_nil hne
  have hsplit : (errors.length : K) = countLe errors (lo + N * step) +
      (errors.filter fun e => decide (lo + N * step < e)).length := by
    have := List.length_eq_countP_add_countP (fun e => decide (e ≤ lo + N * step)) (l := errors)
    rw [this, ← List.countP_eq_length_filter]
    push_cast
    congr 2
    apply List.countP_congr
    intro e _; simp
  rw [fraction]
  field_simp
  linarith

/-- **C31** fails when the step does not divide the range: with errors `[1.1]`, `max_error`
1 and step 0.6 the reported failure rate is 0. -/
theorem C31_failure_violated :
    ∃ auc fr : ℚ, aucAndFailureRate [11/10] (3/5) 1 0 = .ok (auc, fr) ∧ fr = 0 ∧
      fraction (fun e => decide ((1 : ℚ) < e)) [11/10] = 1 :=
  ⟨1/5, 0, by decide +kernel, rfl, by decide +kernel⟩

example : ∃ auc fr : ℚ, aucAndFailureRate [1/10, 3/10, 2] (1/2) 1 0 = .ok (auc, fr) ∧
    fr = 1/3 := ⟨5/9, 1/3, by decide +kernel, rfl⟩

/-! ## C32: the area under the curve -/

omit [LinearOrder K] [IsStrictOrderedRing K] [FloorRing K] in
/-- **C32** (the quadrature): one panel integrates every parabola exactly, also for unequal
spacing. -/
theorem C32_panel_exact [CharZero K] (a b c x0 x1 x2 : K) (h0 : x0 ≠ x1) (h1 : x1 ≠ x2) :
    simpsPanel x0 (a * x0 ^ 2 + b * x0 + c) x1 (a * x1 ^ 2 + b * x1 + c) x2
        (a * x2 ^ 2 + b * x2 + c) =
      (a * x2 ^ 3 / 3 + b * x2 ^ 2 / 2 + c * x2) - (a * x0 ^ 3 / 3 + b * x0 ^ 2 / 2 + c * x0) := by
  have e0 : x1 - x0 ≠ 0 := sub_ne_zero.2 h0.symm
  have e1 : x2 - x1 ≠ 0 := sub_ne_zero.2 h1.symm
  unfold simpsPanel
  field_simp
  ring

example : (0 : ℚ) ≠ 1 ∧ (1 : ℚ) ≠ 3 := by norm_num

/-- **C32** (partial: the step divides the range).  The area is in `[0, 1]`. -/
theorem C32_unit_partial (errors : List K) (hne : errors ≠ []) (step lo hi : K) (hs : 0 < step)
    (hlo0 : 0 ≤ lo) (hlo : lo < hi) (hdvd : ∃ k : Nat, hi - lo = k * step) :
    ∃ auc fr, aucAndFailureRate errors step hi lo = .ok (auc, fr) ∧ 0 ≤ auc ∧ auc ≤ 1 := by
  obtain ⟨N, h1, h2, h3⟩ := arange_axis lo hi step hs hlo.le
  obtain ⟨k, hk⟩ := hdvd
  have hend := axis_end lo hi step hs k N hk h2 h3
  have hpos : (0 : K) < errors.length := by
    exact_mod_cast List.length_pos_of_ne_nil hne
  refine ⟨_, _, aucAndFailureRate_eq errors hne lo hi step N h1, ?_, ?_⟩
  · apply div_nonneg _ (by linarith)
    have := simps_mono lo step hs (fun _ => (0 : K))
      (fun i => (countLe errors (lo + i * step) : K) / errors.length) N
      (fun i => div_nonneg (Nat.cast_nonneg _) hpos.le)
    rw [simps_const lo step hs.ne'] at this
    linarith
  · rw [div_le_one (by linarith)]
    have := simps_mono lo step hs
      (fun i => (countLe errors (lo + i * step) : K) / errors.length) (fun _ => (1 : K)) N
      (fun i => by
        rw [div_le_one hpos]
        exact_mod_cast List.countP_le_length)
    rw [simps_const lo step hs.ne'] at this
    linarith

/-- **C32** (partial: any step).  The area exceeds 1 by less than one step. -/
theorem C32_bound_partial (errors : List K) (hne : errors ≠ []) (step lo hi : K) (hs : 0 < step)
    (hlo0 : 0 ≤ lo) (hlo : lo < hi) :
    ∃ auc fr, aucAndFailureRate errors step hi lo = .ok (auc, fr) ∧ 0 ≤ auc ∧
      auc < 1 + step / hi := by
  obtain ⟨N, h1, h2, h3⟩ := arange_axis lo hi step hs hlo.le
  have hpos : (0 : K) < errors.length := by
    exact_mod_cast List.length_pos_of_ne_nil hne
  have hhi : 0 < hi := by linarith
  refine ⟨_, _, aucAndFailureRate_eq errors hne lo hi step N h1, ?_, ?_⟩
  · apply div_nonneg _ (by linarith)
    have := simps_mono lo step hs (fun _ => (0 : K))
      (fun i => (countLe errors (lo + i * step) : K) / errors.length) N
      (fun i => div_nonneg (Nat.cast_nonneg _) hpos.le)
    rw [simps_const lo step hs.ne'] at this
    linarith
  · have e : 1 + step / hi = (hi + step) / hi := by field_simp
    rw [e]
    apply div_lt_div_of_pos_right _ hhi
    have := simps_mono lo step hs
      (fun i => (countLe errors (lo + i * step) : K) / errors.length) (fun _ => (1 : K)) N
      (fun i => by
        rw [div_le_one hpos]
        exact_mod_cast List.countP_le_length)
    rw [simps_const lo step hs.ne'] at this
    linarith

/-- **C32** (any step): decreasing errors does not decrease the area. -/
theorem C32_monotone (errors errors' : List K) (h : List.Forall₂ (fun e' e => e' ≤ e) errors' errors)
    (hne : errors ≠ []) (step lo hi : K) (hs : 0 < step) (hlo0 : 0 ≤ lo) (hlo : lo < hi) :
    ∃ auc fr auc' fr', aucAndFailureRate errors step hi lo = .ok (auc, fr) ∧
      aucAndFailureRate errors' step hi lo = .ok (auc', fr') ∧ auc ≤ auc' ∧ fr' ≤ fr := by
  obtain ⟨N, h1, -, -⟩ := arange_axis lo hi step hs hlo.le
  have hlen := h.length_eq
  have hne' : errors' ≠ [] := by
    intro h0; rw [h0] at hlen; exact hne (List.length_eq_zero_iff.mp hlen.symm)
  have hcount : ∀ x, countLe errors x ≤ countLe errors' x := by
    intro x
    clear hlen hne hne'
    unfold countLe
    induction h with
    | nil => simp
    | @cons a b _ _ hab _ ih =>
      rw [List.countP_cons, List.countP_cons]
      by_cases hb : b ≤ x
      · have ha := le_trans hab hb
        simp only [ha, hb, decide_true, if_true]; omega
      · simp only [hb, decide_false, Bool.false_eq_true, if_false]; omega
  have hle : ∀ x, (countLe errors x : K) / errors.length ≤ (countLe errors' x : K) / errors'.length := by
    intro x
    rw [hlen]
    exact div_le_div_of_nonneg_right (by exact_mod_cast hcount x) (Nat.cast_nonneg _)
  refine ⟨_, _, _, _, aucAndFailureRate_eq errors hne lo hi step N h1,
    aucAndFailureRate_eq errors' hne' lo hi step N h1, ?_, ?_⟩
  · exact div_le_div_of_nonneg_right (simps_mono lo step hs _ _ N (fun i => hle _)) (by linarith)
  · have := hle (lo + N * step); linarith

/-- **C32** fails when the step does not divide the range: with perfect fits, `max_error` 1
and step 0.6 the reported area is 1.2. -/
theorem C32_unit_violated :
    ∃ auc fr : ℚ, aucAndFailureRate [0, 0] (3/5) 1 0 = .ok (auc, fr) ∧ 1 < auc :=
  ⟨6/5, 0, by decide +kernel, by norm_num⟩

example : ∃ auc fr : ℚ, aucAndFailureRate [1/10, 3/10, 2] (1/3) 1 0 = .ok (auc, fr) ∧
    0 ≤ auc ∧ auc ≤ 1 := ⟨31/54, 1/3, by decide +kernel, by norm_num, by norm_num⟩

/-! ## C33: the median absolute deviation -/

omit [FloorRing K]

/-- **C33** (median): what `np.median` is modelled by is a median: at most half of the
entries are below and at most half above. -/
theorem C33_median (l : List K) (hl : l ≠ []) :
    2 * (l.filter fun x => decide (x < npMedian l)).length ≤ l.length ∧
    2 * (l.filter fun x => decide (npMedian l < x)).length ≤ l.length := by
  rw [← List.countP_eq_length_filter, ← List.countP_eq_length_filter]
  exact npMedian_half l hl

/-- **C33** (non-negative, at most the range). -/
theorem C33_bounds (errors : List K) (hne : errors ≠ []) (lo hi : K)
    (h : ∀ e ∈ errors, lo ≤ e ∧ e ≤ hi) : 0 ≤ mad errors ∧ mad errors ≤ hi - lo := by
  have hmed := npMedian_bounds errors hne lo hi h
  apply npMedian_bounds _ (by simpa using hne)
  intro x hx
  obtain ⟨e, he, rfl⟩ := List.mem_map.mp hx
  have := h e he
  exact ⟨abs_nonneg _, abs_le.mpr ⟨by linarith, by linarith⟩⟩

/-- **C33** (translation). -/
theorem C33_translation (errors : List K) (hne : errors ≠ []) (c : K) :
    mad (errors.map fun e => e + c) = mad errors := by
  unfold mad
  have h1 : npMedian (errors.map fun e => e + c) = npMedian errors + c :=
    npMedian_map_mono errors hne (fun e => e + c) (fun a b h => by simpa using h)
      (fun a b => by ring)
  simp only [h1, List.map_map]
  congr 1
  apply List.map_congr_left
  intro e _
  simp

/-- **C33** (scaling by any factor, also a negative one). -/
theorem C33_scaling (errors : List K) (hne : errors ≠ []) (s : K) :
    mad (errors.map fun e => s * e) = |s| * mad errors := by
  have hpos : ∀ s : K, 0 ≤ s → ∀ l : List K, l ≠ [] →
      npMedian (l.map fun e => s * e) = s * npMedian l := by
    intro s hs l hl
    exact npMedian_map_mono l hl (fun e => s * e) (fun a b h => mul_le_mul_of_nonneg_left h hs)
      (fun a b => by ring)
  have hall : ∀ s : K, ∀ l : List K, l ≠ [] → npMedian (l.map fun e => s * e) = s * npMedian l := by
    intro s l hl
    rcases le_total 0 s with hs | hs
    · exact hpos s hs l hl
    · have e : l.map (fun e => s * e) = (l.map fun e => (-s) * e).map fun x => -x := by
        rw [List.map_map]; apply List.map_congr_left; intro x _; simp
      rw [e, npMedian_neg _ (by simpa using hl), hpos (-s) (by linarith) l hl]; ring
  unfold mad
  simp only [hall s errors hne, List.map_map]
  rw [← hpos |s| (abs_nonneg s) _ (by simpa using hne), List.map_map]
  congr 1
  apply List.map_congr_left
  intro e _
  simp only [Function.comp_apply]
  rw [← abs_mul, mul_sub]

/-- **C33** (order). -/
theorem C33_order (errors errors' : List K) (h : errors.Perm errors') :
    mad errors = mad errors' := by
  unfold mad
  rw [npMedian_perm h]
  exact npMedian_perm (h.map _)

example : mad [(1 : ℚ), 5, 2, 10] = 2 := by
  have h1 : npMedian [(1 : ℚ), 5, 2, 10] = 7 / 2 := by
    rw [npMedian_eq (s := [1, 2, 5, 10]) (by decide +kernel) (by decide +kernel)]; norm_num
  unfold mad
  rw [h1, npMedian_eq (s := [3/2, 3/2, 5/2, 13/2]) (by decide +kernel) (by decide +kernel)]
  norm_num

/-! ## C71: statistics of several methods -/

/-- **C71**.  On a list of error lists every statistic is the list of the values for each
error list alone; the call succeeds exactly if the call for every method does. -/
theorem C71_per_method (es : List (List ℝ)) (hne : es ≠ []) (step hi lo : ℝ)
    (ms : List (Measures ℝ))
    (h : List.Forall₂ (fun e m => computeStatisticalMeasures (.one e) step hi lo =
      .ok (.scalars m)) es ms) :
    computeStatisticalMeasures (.many es) step hi lo = .ok (.lists
      ⟨ms.map (·.mean), ms.map (·.std), ms.map (·.median), ms.map (·.mad), ms.map (·.max),
        ms.map (·.auc), ms.map (·.fail)⟩) := by
  have hone : ∀ e m, computeStatisticalMeasures (.one e) step hi lo = .ok (.scalars m) →
      measuresOne e step hi lo = .ok m := by
    intro e m h
    cases e with
    | nil => cases h
    | cons a l =>
      simp only [computeStatisticalMeasures] at h
      obtain ⟨m', h1, h2⟩ := bind_ok h
      injection h2 with h2; injection h2 with h2
      rw [h1, h2]
  have hloop : ∀ (acc : Measures (List ℝ)),
      measuresLoop step hi lo acc es = .ok
        ⟨acc.mean ++ ms.map (·.mean), acc.std ++ ms.map (·.std), acc.median ++ ms.map (·.median),
          acc.mad ++ ms.map (·.mad), acc.max ++ ms.map (·.max), acc.auc ++ ms.map (·.auc),
          acc.fail ++ ms.map (·.fail)⟩ := by
    clear hne
    induction h with
    | nil => intro acc; simp [measuresLoop]
    | cons h1 _ ih =>
      intro acc
      simp only [measuresLoop, hone _ _ h1]
      simp only [bind, Except.bind]
      rw [ih]
      simp
  cases es with
  | nil => exact absurd rfl hne
  | cons e es =>
    simp only [computeStatisticalMeasures, hloop, bind, Except.bind, pure, Except.pure]
    simp

/-- **C71** (one method).  The seven values are what their names say: the mean is the sum
divided by the number of errors, the standard deviation the root mean square
distance to the mean, the median splits the errors in halves, the median absolute
deviation is `mad` of the errors, the maximum is the largest error, and the last
two values are those of `area_under_curve_and_failure_rate`. -/
theorem C71_measures (e : List ℝ) (step hi lo : ℝ) (m : Measures ℝ)
    (h : computeStatisticalMeasures (.one e) step hi lo = .ok (.scalars m)) :
    m.mean * e.length = e.sum ∧
    (0 ≤ m.std ∧ m.std ^ 2 * e.length = (e.map fun x => (x - m.mean) ^ 2).sum) ∧
    (2 * (e.filter fun x => decide (x < m.median)).length ≤ e.length ∧
      2 * (e.filter fun x => decide (m.median < x)).length ≤ e.length) ∧
    m.mad = mad e ∧
    (m.max ∈ e ∧ ∀ x ∈ e, x ≤ m.max) ∧
    aucAndFailureRate e step hi lo = .ok (m.auc, m.fail) := by
  cases e with
  | nil => cases h
  | cons a l =>
    have hne : a :: l ≠ [] := by simp
    have hpos : ((a :: l).length : ℝ) ≠ 0 := by simp; positivity
    simp only [computeStatisticalMeasures] at h
    obtain ⟨m', h1, h2⟩ := bind_ok h
    injection h2 with h2; injection h2 with h2
    subst h2
    rw [measuresOne, if_neg hne] at h1
    obtain ⟨x, h3, h4⟩ := bind_ok h1
    injection h4 with h4
    subst h4
    refine ⟨div_mul_cancel₀ _ hpos, ⟨Real.sqrt_nonneg _, ?_⟩, C33_median _ hne, rfl,
      ⟨npMax_mem hne, fun x hx => npMax_ge hx⟩, h3⟩
    have hnn : 0 ≤ npMean ((a :: l).map fun x => (x - npMean (a :: l)) ^ 2) := by
      apply div_nonneg _ (Nat.cast_nonneg _)
      apply List.sum_nonneg
      intro y hy
      obtain ⟨x, -, rfl⟩ := List.mem_map.mp hy
      positivity
    simp only [npStd]
    rw [Real.sq_sqrt hnn, npMean, List.length_map]
    exact div_mul_cancel₀ _ hpos

/-- **C71** (failures): if the call for some method raises, the call for all raises. -/
theorem C71_failure (es : List (List ℝ)) (step hi lo : ℝ) (e : List ℝ) (he : e ∈ es)
    (x : PyErr) (h : computeStatisticalMeasures (.one e) step hi lo = .error x) :
    ∃ y, computeStatisticalMeasures (.many es) step hi lo = .error y := by
  have hone : ∃ y, measuresOne e step hi lo = .error y := by
    cases e with
    | nil => exact ⟨.valueError, by simp [measuresOne]⟩
    | cons a l =>
      cases hm : measuresOne (a :: l) step hi lo with
      | error y => exact ⟨y, rfl⟩
      | ok m => simp [computeStatisticalMeasures, hm, bind, Except.bind, pure, Except.pure] at h
  have hloop : ∀ (es : List (List ℝ)), e ∈ es → ∀ acc,
      ∃ y, measuresLoop step hi lo acc es = .error y := by
    intro es
    induction es with
    | nil => intro h; simp at h
    | cons a es ih =>
      intro hmem acc
      simp only [measuresLoop]
      cases hm : measuresOne a step hi lo with
      | error y => exact ⟨y, rfl⟩
      | ok m =>
        simp only [bind, Except.bind]
        rcases List.mem_cons.mp hmem with rfl | hmem
        · obtain ⟨y, hy⟩ := hone; rw [hm] at hy; cases hy
        · exact ih hmem _
  cases es with
  | nil => simp at he
  | cons a es =>
    obtain ⟨y, hy⟩ := hloop _ he ⟨[], [], [], [], [], [], []⟩
    exact ⟨y, by simp [computeStatisticalMeasures, hy, bind, Except.bind]⟩

/-- The hypotheses of C71 are met by any non-empty error lists and a sensible axis. -/
example (e1 e2 : List ℝ) (h1 : e1 ≠ []) (h2 : e2 ≠ []) : ∃ ms,
    List.Forall₂ (fun e m => computeStatisticalMeasures (.one e) (1/2) 1 0 = .ok (.scalars m))
      [e1, e2] ms := by
  have key : ∀ e : List ℝ, e ≠ [] →
      ∃ m, computeStatisticalMeasures (.one e) (1/2) 1 0 = .ok (.scalars m) := by
    intro e he
    obtain ⟨auc, fr, h, -⟩ := C32_bound_partial e he (1/2 : ℝ) 0 1 (by norm_num) (by norm_num)
      (by norm_num)
    cases e with
    | nil => exact absurd rfl he
    | cons a l =>
      refine ⟨⟨npMean (a :: l), npStd (a :: l), npMedian (a :: l), mad (a :: l), npMax (a :: l),
        auc, fr⟩, ?_⟩
      simp only [computeStatisticalMeasures, measuresOne, if_neg he, h, bind,
        Except.bind, pure, Except.pure]
  obtain ⟨m1, hm1⟩ := key e1 h1
  obtain ⟨m2, hm2⟩ := key e2 h2
  exact ⟨[m1, m2], .cons hm1 (.cons hm2 .nil)⟩

end Menpofit
