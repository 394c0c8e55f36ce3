import Verif.Lemmas.Stats
import Verif.Lemmas.Simps
import Verif.Lemmas.Result
/-!
# Helper lemmas for comparing summary statistics
-/

namespace Menpofit
open Stats

section Order
variable {K : Type} [Field K] [LinearOrder K] [IsStrictOrderedRing K]

theorem countLe_mono {e' e : List K} (h : List.Forall₂ (fun a b => a ≤ b) e' e) (x : K) :
    countLe e x ≤ countLe e' x := by
  unfold countLe
  induction h with
  | nil => simp
  | @cons a b _ _ hab _ ih =>
    rw [List.countP_cons, List.countP_cons]
    by_cases hb : b ≤ x
    · have ha := le_trans hab hb
      simp only [ha, hb, decide_true, if_true]; omega
    · simp only [hb, decide_false, Bool.false_eq_true, if_false]; omega

/-- In a sorted list the element at `i` is at most `x` iff more than `i` elements are. -/
theorem sorted_le_iff {s : List K} (hs : s.Pairwise (· ≤ ·)) (i : Nat) (hi : i < s.length) (x : K) :
    s[i] ≤ x ↔ i < s.countP fun a => decide (a ≤ x) := by
  induction s generalizing i with
  | nil => simp at hi
  | cons a s ih =>
    rw [List.pairwise_cons] at hs
    rw [List.countP_cons]
    cases i with
    | zero =>
      simp only [List.getElem_cons_zero]
      by_cases ha : a ≤ x
      · simp [ha]
      · have : (s.countP fun a => decide (a ≤ x)) = 0 := by
          rw [List.countP_eq_zero]
          intro b hb hbx
          exact ha (le_trans (hs.1 b hb) (by simpa using hbx))
        simp [ha, this]
    | succ i =>
      have hi' : i < s.length := by simpa using hi
      simp only [List.getElem_cons_succ]
      rw [ih hs.2 i hi']
      by_cases ha : a ≤ x
      · simp [ha]
      · have : (s.countP fun a => decide (a ≤ x)) = 0 := by
          rw [List.countP_eq_zero]
          intro b hb hbx
          exact ha (le_trans (hs.1 b hb) (by simpa using hbx))
        simp [ha, this]

/-- Sorting keeps a pointwise order. -/
theorem sorted_mono {s' s e' e : List K} (h : List.Forall₂ (fun a b => a ≤ b) e' e) (hp' : s'.Perm e')
    (hp : s.Perm e) (hs' : s'.Pairwise (· ≤ ·)) (hs : s.Pairwise (· ≤ ·)) (i : Nat) :
    s'.getD i 0 ≤ s.getD i 0 := by
  have hl : s'.length = s.length := by rw [hp'.length_eq, hp.length_eq, h.length_eq]
  by_cases hi : i < s.length
  · have hi' : i < s'.length := by omega
    have e1 : s.getD i 0 = s[i] := by simp [List.getD, hi]
    have e2 : s'.getD i 0 = s'[i] := by simp [List.getD, hi']
    rw [e1, e2, sorted_le_iff hs' i hi']
    have h1 := (sorted_le_iff hs i hi s[i]).mp le_rfl
    rw [hp.countP_eq] at h1
    rw [hp'.countP_eq]
    exact lt_of_lt_of_le h1 (countLe_mono h _)
  · simp [List.getD, hi, show ¬ i < s'.length by omega]

theorem npMedian_mono {e' e : List K} (h : List.Forall₂ (fun a b => a ≤ b) e' e) :
    npMedian e' ≤ npMedian e := by
  obtain ⟨s', hp', hs'⟩ := exists_sorted e'
  obtain ⟨s, hp, hs⟩ := exists_sorted e
  have hl : s'.length = s.length := by rw [hp'.length_eq, hp.length_eq, h.length_eq]
  rw [npMedian_eq hp' hs', npMedian_eq hp hs, hl]
  have := sorted_mono h hp' hp hs' hs
  split
  · exact this _
  · have h1 := this (s.length / 2 - 1)
    have h2 := this (s.length / 2)
    linarith

theorem sum_mono {e' e : List K} (h : List.Forall₂ (fun a b => a ≤ b) e' e) : e'.sum ≤ e.sum := by
  induction h with
  | nil => simp
  | cons h _ ih => simp only [List.sum_cons]; linarith

theorem npMean_mono {e' e : List K} (h : List.Forall₂ (fun a b => a ≤ b) e' e) : npMean e' ≤ npMean e := by
  unfold npMean
  rw [h.length_eq]
  exact div_le_div_of_nonneg_right (sum_mono h) (Nat.cast_nonneg _)

theorem npMax_mono {e' e : List K} (h : List.Forall₂ (fun a b => a ≤ b) e' e) : npMax e' ≤ npMax e := by
  by_cases hne : e' = []
  · subst hne
    cases h
    exact le_rfl
  · have hm := npMax_mem hne
    obtain ⟨i, hi, he⟩ := List.mem_iff_getElem.mp hm
    have hi' : i < e.length := h.length_eq ▸ hi
    have := (List.forall₂_iff_get.mp h).2 i hi hi'
    simp only [List.get_eq_getElem] at this
    rw [← he]
    exact le_trans this (npMax_ge (List.getElem_mem hi'))

/-! ### Scaling -/

theorem simpsPanel_scale (c : K) (hc : c ≠ 0) (x0 y0 x1 y1 x2 y2 : K) :
    simpsPanel (c * x0) y0 (c * x1) y1 (c * x2) y2 = c * simpsPanel x0 y0 x1 y1 x2 y2 := by
  unfold simpsPanel
  simp only [← mul_sub, ← mul_add]
  rw [mul_div_mul_left _ _ hc, show c * (x1 - x0 + (x2 - x1)) * (c * (x1 - x0 + (x2 - x1))) =
    (c * c) * ((x1 - x0 + (x2 - x1)) * (x1 - x0 + (x2 - x1))) by ring,
    show c * (x1 - x0) * (c * (x2 - x1)) = (c * c) * ((x1 - x0) * (x2 - x1)) by ring,
    mul_div_mul_left _ _ (mul_ne_zero hc hc)]
  ring

theorem basicSimps_scale (c : K) (hc : c ≠ 0) : ∀ pts : List (K × K),
    basicSimps (pts.map fun p => (c * p.1, p.2)) = c * basicSimps pts
  | [] => by simp [basicSimps]
  | [_] => by simp [basicSimps]
  | [_, _] => by simp [basicSimps]
  | p0 :: p1 :: p2 :: rest => by
    have ih := basicSimps_scale c hc (p2 :: rest)
    simp only [List.map_cons] at ih ⊢
    rw [basicSimps, basicSimps, simpsPanel_scale c hc, ih]
    ring

theorem trapFirst_scale (c : K) : ∀ pts : List (K × K),
    trapFirst (pts.map fun p => (c * p.1, p.2)) = c * trapFirst pts
  | [] => by simp [trapFirst]
  | [_] => by simp [trapFirst]
  | p0 :: p1 :: rest => by
    simp only [List.map_cons, trapFirst]
    ring

theorem simps_scale (c : K) (hc : c ≠ 0) (pts : List (K × K)) :
    simps (pts.map fun p => (c * p.1, p.2)) = c * simps pts := by
  unfold simps
  rw [List.length_map]
  split
  · exact basicSimps_scale c hc pts
  · rw [← List.map_dropLast, ← List.map_tail, ← List.map_drop, basicSimps_scale c hc, basicSimps_scale c hc,
      trapFirst_scale, trapFirst_scale]
    ring

theorem countLe_scale (c : K) (hc : 0 < c) (e : List K) (x : K) :
    countLe (e.map fun y => c * y) (c * x) = countLe e x := by
  unfold countLe
  rw [List.countP_map]
  congr 1
  funext y
  simp only [Function.comp, mul_le_mul_iff_of_pos_left hc]

theorem arange_scale [FloorRing K] (c : K) (hc : 0 < c) (a b s : K) :
    arange (c * a) (c * b) (c * s) = (arange a b s).map fun l => l.map fun x => c * x := by
  unfold arange
  by_cases hs : s = 0
  · rw [if_pos hs, if_pos (by rw [hs, mul_zero])]; rfl
  · rw [if_neg hs, if_neg (mul_ne_zero hc.ne' hs), ← mul_sub, mul_div_mul_left _ _ hc.ne']
    simp only [Except.map, List.map_map]
    congr 1
    refine List.map_congr_left fun i _ => ?_
    simp only [Function.comp]
    ring

theorem ced_scale (c : K) (hc : 0 < c) (e b : List K) :
    computeCumulativeError (e.map fun y => c * y) (b.map fun x => c * x) = computeCumulativeError e b := by
  cases b with
  | nil => cases e <;> rfl
  | cons x b =>
    cases e with
    | nil => rfl
    | cons y e =>
      simp only [computeCumulativeError, List.map_cons]
      have h := fun z => countLe_scale c hc (y :: e) z
      simp only [List.map_cons] at h
      simp only [h, List.map_map, List.length_cons, List.length_map, Function.comp_def]

theorem auc_scale [FloorRing K] (c : K) (hc : 0 < c) (e : List K) (step hi lo : K) :
    aucAndFailureRate (e.map fun y => c * y) (c * step) (c * hi) (c * lo) = aucAndFailureRate e step hi lo := by
  unfold aucAndFailureRate
  rw [← mul_add, arange_scale c hc]
  cases arange lo (hi + step) step with
  | error x => rfl
  | ok ax =>
    simp only [Except.map, bind, Except.bind]
    rw [ced_scale c hc]
    cases computeCumulativeError e ax with
    | error x => rfl
    | ok ced =>
      simp only
      cases ced.getLast? with
      | none => rfl
      | some l =>
        simp only
        have : (ax.map fun x => c * x).zip ced = (ax.zip ced).map fun p => (c * p.1, p.2) := by
          rw [List.zip_map_left]; rfl
        rw [this, simps_scale c hc.ne', mul_div_mul_left _ _ hc.ne']

theorem npMean_scale (c : K) (e : List K) : npMean (e.map fun y => c * y) = c * npMean e := by
  unfold npMean
  rw [List.length_map, List.sum_map_mul_left, List.map_id', mul_div_assoc]

theorem npMax_scale (c : K) (hc : 0 < c) (e : List K) : npMax (e.map fun y => c * y) = c * npMax e := by
  by_cases hne : e = []
  · subst hne; simp [npMax]
  · apply npMax_unique
    · exact List.mem_map_of_mem (npMax_mem hne)
    · intro x hx
      obtain ⟨y, hy, rfl⟩ := List.mem_map.mp hx
      exact mul_le_mul_of_nonneg_left (npMax_ge hy) hc.le

theorem npMedian_scale (c : K) (hc : 0 ≤ c) (e : List K) (hne : e ≠ []) :
    npMedian (e.map fun y => c * y) = c * npMedian e :=
  npMedian_map_mono e hne (fun y => c * y) (fun _ _ h => mul_le_mul_of_nonneg_left h hc) (fun _ _ => by ring)

theorem mad_scale (c : K) (hc : 0 ≤ c) (e : List K) (hne : e ≠ []) : mad (e.map fun y => c * y) = c * mad e := by
  unfold mad
  simp only [npMedian_scale c hc e hne, List.map_map, Function.comp_def, ← mul_sub, abs_mul, abs_of_nonneg hc]
  rw [← npMedian_scale c hc _ (by simpa using hne), List.map_map]
  rfl

/-! ### Deviations -/

theorem sum_abs_median_le (e : List K) (hne : e ≠ []) (c : K) :
    (e.map fun x => |x - npMedian e|).sum ≤ (e.map fun x => |x - c|).sum := by
  obtain ⟨h1, h2⟩ := npMedian_half e hne
  obtain ⟨m, hm⟩ : ∃ m, m = npMedian e := ⟨_, rfl⟩
  rw [← hm] at h1 h2 ⊢
  have up : ∀ l : List K, m ≤ c → (c - m) * (l.length - 2 * (l.countP fun x => decide (m < x)) : K) ≤
      (l.map fun x => |x - c|).sum - (l.map fun x => |x - m|).sum := by
    intro l hc
    induction l with
    | nil => simp
    | cons a l ih =>
      simp only [List.map_cons, List.sum_cons, List.length_cons, List.countP_cons]
      by_cases ha : m < a
      · simp only [ha, decide_true, if_true]
        have : |a - m| ≤ |a - c| + (c - m) := by
          have := abs_sub_le a c m
          rwa [abs_of_nonneg (sub_nonneg.mpr hc)] at this
        push_cast
        linarith
      · simp only [ha, decide_false, Bool.false_eq_true, if_false]
        rw [abs_of_nonpos (by linarith : a - m ≤ 0), abs_of_nonpos (by linarith : a - c ≤ 0)]
        push_cast
        linarith
  have down : ∀ l : List K, c ≤ m → (m - c) * (l.length - 2 * (l.countP fun x => decide (x < m)) : K) ≤
      (l.map fun x => |x - c|).sum - (l.map fun x => |x - m|).sum := by
    intro l hc
    induction l with
    | nil => simp
    | cons a l ih =>
      simp only [List.map_cons, List.sum_cons, List.length_cons, List.countP_cons]
      by_cases ha : a < m
      · simp only [ha, decide_true, if_true]
        have : |a - m| ≤ |a - c| + (m - c) := by
          have := abs_sub_le a c m
          rwa [abs_sub_comm c m, abs_of_nonneg (sub_nonneg.mpr hc)] at this
        push_cast
        linarith
      · simp only [ha, decide_false, Bool.false_eq_true, if_false]
        rw [abs_of_nonneg (by linarith : 0 ≤ a - m), abs_of_nonneg (by linarith : 0 ≤ a - c)]
        push_cast
        linarith
  rcases le_total m c with hc | hc
  · have h3 : (0 : K) ≤ (e.length - 2 * (e.countP fun x => decide (m < x)) : K) := by
      have : ((2 * (e.countP fun x => decide (m < x)) : Nat) : K) ≤ (e.length : K) := by exact_mod_cast h2
      push_cast at this
      linarith
    have := up e hc
    have := mul_nonneg (sub_nonneg.mpr hc) h3
    linarith
  · have h3 : (0 : K) ≤ (e.length - 2 * (e.countP fun x => decide (x < m)) : K) := by
      have : ((2 * (e.countP fun x => decide (x < m)) : Nat) : K) ≤ (e.length : K) := by exact_mod_cast h1
      push_cast at this
      linarith
    have := down e hc
    have := mul_nonneg (sub_nonneg.mpr hc) h3
    linarith

end Order

theorem sum_sq_expand (a : ℝ) : ∀ l : List ℝ,
    (l.map fun x => (x - a) ^ 2).sum = (l.map fun x => x ^ 2).sum - 2 * a * l.sum + l.length * a ^ 2
  | [] => by simp
  | x :: l => by
    simp only [List.map_cons, List.sum_cons, List.length_cons, sum_sq_expand a l]
    push_cast
    ring

/-- The mean absolute deviation is at most the root mean square deviation. -/
theorem mean_abs_le_rms (l : List ℝ) : npMean (l.map fun x => |x|) ≤ Real.sqrt (npMean (l.map fun x => x ^ 2)) := by
  by_cases hne : l = []
  · subst hne; simp [npMean]
  have hpos : (0 : ℝ) < l.length := by exact_mod_cast List.length_pos_of_ne_nil hne
  apply Real.le_sqrt_of_sq_le
  have h := sum_sq_expand (npMean (l.map fun x => |x|)) (l.map fun x => |x|)
  have h0 : 0 ≤ ((l.map fun x => |x|).map fun x => (x - npMean (l.map fun x => |x|)) ^ 2).sum := by
    apply List.sum_nonneg
    intro y hy
    obtain ⟨x, -, rfl⟩ := List.mem_map.mp hy
    positivity
  rw [h, List.map_map] at h0
  have e1 : (l.map ((fun x => x ^ 2) ∘ fun x => |x|)) = l.map fun x => x ^ 2 := by
    refine List.map_congr_left fun x _ => ?_
    simp [sq_abs]
  rw [e1, List.length_map] at h0
  have e2 : (l.map fun x => |x|).sum = l.length * npMean (l.map fun x => |x|) := by
    unfold npMean
    rw [List.length_map]
    field_simp
  rw [e2] at h0
  have e3 : npMean (l.map fun x : ℝ => x ^ 2) = (l.map fun x : ℝ => x ^ 2).sum / (l.length : ℝ) := by
    unfold npMean; rw [List.length_map]
  rw [e3]
  rw [le_div_iff₀ hpos]
  nlinarith

end Menpofit
