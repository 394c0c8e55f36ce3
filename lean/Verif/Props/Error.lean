import Verif.Lemmas.Error
/-!
# Properties of the error functions (C26–C29)
-/

namespace Menpofit
open Error Stats

noncomputable section

variable {n d : Nat}

/-! ## C26: the Euclidean error is a metric -/

/-- **C26** (metric). -/
theorem C26_metric (hn : n ≠ 0) (a b c : Shape n d) :
    0 ≤ euclideanError a b ∧ (euclideanError a b = 0 ↔ a = b) ∧
    euclideanError a b = euclideanError b a ∧
    euclideanError a c ≤ euclideanError a b + euclideanError b c := by
  have hpos : (0 : ℝ) < n := by exact_mod_cast Nat.pos_of_ne_zero hn
  refine ⟨?_, ?_, ?_, ?_⟩
  · exact div_nonneg (Finset.sum_nonneg fun i _ => Real.sqrt_nonneg _) hpos.le
  · unfold euclideanError
    rw [div_eq_zero_iff, or_iff_left hpos.ne',
      Finset.sum_eq_zero_iff_of_nonneg (fun i _ => Real.sqrt_nonneg _)]
    constructor
    · intro h
      funext i
      exact (sqrt_sum_sq_zero _ _).mp (h i (Finset.mem_univ i))
    · rintro rfl i _
      exact (sqrt_sum_sq_zero _ _).mpr rfl
  · unfold euclideanError
    congr 1
    apply Finset.sum_congr rfl
    intro i _
    congr 1
    apply Finset.sum_congr rfl
    intro j _
    ring
  · unfold euclideanError
    rw [← add_div, ← Finset.sum_add_distrib]
    exact div_le_div_of_nonneg_right
      (Finset.sum_le_sum fun i _ => sqrt_sum_sq_triangle _ _ _) hpos.le

/-- **C26** (translating both shapes, reordering the points of both, scaling both). -/
theorem C26_invariance (a b : Shape n d) (t : Fin d → ℝ) (σ : Equiv.Perm (Fin n)) (s : ℝ) :
    euclideanError (fun i j => a i j + t j) (fun i j => b i j + t j) = euclideanError a b ∧
    euclideanError (fun i => a (σ i)) (fun i => b (σ i)) = euclideanError a b ∧
    euclideanError (fun i j => s * a i j) (fun i j => s * b i j) = |s| * euclideanError a b := by
  refine ⟨?_, ?_, ?_⟩
  · simp [euclideanError]
  · unfold euclideanError
    congr 1
    exact Equiv.sum_comp σ fun i => Real.sqrt (∑ j, (a i j - b i j) ^ 2)
  · unfold euclideanError
    rw [mul_div_assoc', Finset.mul_sum]
    congr 1
    apply Finset.sum_congr rfl
    intro i _
    exact sqrt_sum_sq_scale _ _ _

/-- **C26** (what is averaged): moving one point by `v` changes the error from zero to the
length of `v` divided by the number of points. -/
theorem C26_one_point (a : Shape n d) (k : Fin n) (v : Fin d → ℝ) :
    euclideanError (Function.update a k (fun j => a k j + v j)) a =
      Real.sqrt (∑ j, v j ^ 2) / n := by
  unfold euclideanError
  congr 1
  rw [Finset.sum_eq_single k]
  · simp
  · intro i _ hi
    rw [Function.update_of_ne hi]; simp
  · intro h; exact absurd (Finset.mem_univ k) h

example : euclideanError (n := 1) (d := 2) (fun _ j => if j = 0 then 3 else 4) (fun _ _ => 0) = 5 := by
  simp only [euclideanError, Finset.univ_unique, Finset.sum_singleton, Fin.sum_univ_two]
  norm_num
  rw [show (25 : ℝ) = 5 ^ 2 by norm_num, Real.sqrt_sq (by norm_num)]

/-! ## C27: the root mean square error is a metric -/

/-- **C27** (metric). -/
theorem C27_metric (hn : n ≠ 0) (hd : d ≠ 0) (a b c : Shape n d) :
    0 ≤ rootMeanSquareError a b ∧ (rootMeanSquareError a b = 0 ↔ a = b) ∧
    rootMeanSquareError a b = rootMeanSquareError b a ∧
    rootMeanSquareError a c ≤ rootMeanSquareError a b + rootMeanSquareError b c := by
  have hpos : (0 : ℝ) < (n * d : Nat) := by
    exact_mod_cast Nat.mul_pos (Nat.pos_of_ne_zero hn) (Nat.pos_of_ne_zero hd)
  have hs := Real.sqrt_pos.mpr hpos
  refine ⟨Real.sqrt_nonneg _, ?_, ?_, ?_⟩
  · rw [rms_flat, div_eq_zero_iff, or_iff_left hs.ne',
      sqrt_sum_sq_zero (fun p : Fin n × Fin d => a p.1 p.2) (fun p => b p.1 p.2)]
    constructor
    · intro h; funext i j; exact congrFun h (i, j)
    · rintro rfl; rfl
  · unfold rootMeanSquareError
    congr 2
    apply Finset.sum_congr rfl; intro i _
    apply Finset.sum_congr rfl; intro j _
    ring
  · rw [rms_flat, rms_flat, rms_flat, ← add_div]
    exact div_le_div_of_nonneg_right
      (sqrt_sum_sq_triangle (fun p : Fin n × Fin d => a p.1 p.2) (fun p => b p.1 p.2)
        (fun p => c p.1 p.2)) hs.le

/-- **C27** (scaling by any factor). -/
theorem C27_scaling (a b : Shape n d) (s : ℝ) :
    rootMeanSquareError (fun i j => s * a i j) (fun i j => s * b i j) =
      |s| * rootMeanSquareError a b := by
  rw [rms_flat, rms_flat, mul_div_assoc']
  congr 1
  exact sqrt_sum_sq_scale (fun p : Fin n × Fin d => a p.1 p.2) (fun p => b p.1 p.2) s

/-- **C27** (bound).  If no coordinate differs by more than `m`, the error is at most `m`;
if all differ by exactly `m` it is `m`. -/
theorem C27_bound (hn : n ≠ 0) (hd : d ≠ 0) (a b : Shape n d) (m : ℝ) (hm : 0 ≤ m) :
    ((∀ i j, |a i j - b i j| ≤ m) → rootMeanSquareError a b ≤ m) ∧
    ((∀ i j, |a i j - b i j| = m) → rootMeanSquareError a b = m) := by
  have hpos : (0 : ℝ) < (n * d : Nat) := by
    exact_mod_cast Nat.mul_pos (Nat.pos_of_ne_zero hn) (Nat.pos_of_ne_zero hd)
  have hconst : (∑ _i : Fin n, ∑ _j : Fin d, m ^ 2) = (n * d : Nat) * m ^ 2 := by
    simp; ring
  constructor
  · intro h
    unfold rootMeanSquareError
    rw [Real.sqrt_le_left hm, div_le_iff₀ hpos, mul_comm, ← hconst]
    apply Finset.sum_le_sum; intro i _
    apply Finset.sum_le_sum; intro j _
    rw [← sq_abs]
    exact pow_le_pow_left₀ (abs_nonneg _) (h i j) 2
  · intro h
    unfold rootMeanSquareError
    have : (∑ i : Fin n, ∑ j : Fin d, (a i j - b i j) ^ 2) = (n * d : Nat) * m ^ 2 := by
      rw [← hconst]
      apply Finset.sum_congr rfl; intro i _
      apply Finset.sum_congr rfl; intro j _
      rw [← sq_abs, h i j]
    rw [this, mul_div_cancel_left₀ _ hpos.ne', Real.sqrt_sq hm]

/-! ## C28: normalised errors do not depend on the unit of length -/

/-- Mapping a shape by a scaling with factor `c` followed by a translation by `t`. -/
def similar (c : ℝ) (t : Fin d → ℝ) (s : Shape n d) : Shape n d := fun i k => c * s i k + t k

/-- The invariance of one normaliser. -/
private theorem norm_similar (name : String)
    (hname : name ∈ ["avg_edge_length", "perimeter", "diagonal"]) (s : Shape n d) (c : ℝ)
    (hc : 0 < c) (t : Fin d → ℝ) : ∃ f : Shape n d → Except PyErr ℝ, bbNormType name = .ok f ∧
      f (similar c t s) = (f s).map fun v => c * v := by
  have hs := bbSides_similar s c hc t
  simp only [List.mem_cons, List.not_mem_nil, or_false] at hname
  rcases hname with rfl | rfl | rfl
  · refine ⟨bbAvgEdgeLength, rfl, ?_⟩
    unfold bbAvgEdgeLength similar
    rw [hs]
    cases bbSides s with
    | error e => rfl
    | ok v =>
      simp only [Except.map, bind, Except.bind, pure, Except.pure]
      congr 1; ring
  · refine ⟨bbPerimeter, rfl, ?_⟩
    unfold bbPerimeter similar
    rw [hs]
    cases bbSides s with
    | error e => rfl
    | ok v =>
      simp only [Except.map, bind, Except.bind, pure, Except.pure]
      congr 1; ring
  · refine ⟨bbDiagonal, rfl, ?_⟩
    unfold bbDiagonal similar
    rw [hs]
    cases bbSides s with
    | error e => rfl
    | ok v =>
      simp only [Except.map, bind, Except.bind, pure, Except.pure]
      congr 1
      rw [show (c * v.2) ^ 2 + (c * v.1) ^ 2 = c ^ 2 * (v.2 ^ 2 + v.1 ^ 2) by ring,
        Real.sqrt_mul (sq_nonneg c), Real.sqrt_sq hc.le]

/-- **C28** (bounding box).  With the average edge length, the perimeter or the diagonal as
normaliser, measuring all shapes in another unit and from another origin does
not change the normalised Euclidean or root mean square error. -/
theorem C28_bounding_box (name : String)
    (hname : name ∈ ["avg_edge_length", "perimeter", "diagonal"]) (shape gt : Shape n d)
    (normShape : Option (Shape n d)) (c : ℝ) (hc : 0 < c) (t : Fin d → ℝ) :
    euclideanBbNormalisedError (similar c t shape) (similar c t gt)
        (normShape.map (similar c t)) name =
      euclideanBbNormalisedError shape gt normShape name ∧
    rmsBbNormalisedError (similar c t shape) (similar c t gt)
        (normShape.map (similar c t)) name =
      rmsBbNormalisedError shape gt normShape name := by
  obtain ⟨f, hf, hv⟩ := norm_similar name hname (normShape.getD gt) c hc t
  have hget : (normShape.map (similar c t)).getD (similar c t gt) =
      similar c t (normShape.getD gt) := by cases normShape <;> rfl
  have key : ∀ err : Shape n d → Shape n d → ℝ,
      err (similar c t shape) (similar c t gt) = c * err shape gt →
      bbNormalisedError err (similar c t shape) (similar c t gt)
        (normShape.map (similar c t)) name = bbNormalisedError err shape gt normShape name := by
    intro err herr
    unfold bbNormalisedError
    rw [hf]
    simp only [bind, Except.bind]
    rw [hget, hv]
    cases f (normShape.getD gt) with
    | error e => rfl
    | ok v =>
      simp only [Except.map, pure, Except.pure]
      rw [herr, mul_div_mul_left _ _ hc.ne']
  exact ⟨key _ (euclid_similar shape gt c hc t), key _ (rms_similar shape gt c hc t)⟩

/-- **C28** (distance of two landmarks). -/
theorem C28_landmark_distance (i j : Int) (shape gt : Shape n d) (c : ℝ) (hc : 0 < c)
    (t : Fin d → ℝ) :
    euclideanDistanceIndexedNormalisedError (similar c t shape) (similar c t gt) i j =
      euclideanDistanceIndexedNormalisedError shape gt i j ∧
    rmsDistanceIndexedNormalisedError (similar c t shape) (similar c t gt) i j =
      rmsDistanceIndexedNormalisedError shape gt i j := by
  have hv : distanceTwoIndices i j (similar c t gt) =
      (distanceTwoIndices i j gt).map fun v => c * v := by
    unfold distanceTwoIndices
    cases rowIndex n i with
    | error e => rfl
    | ok a =>
      cases rowIndex n j with
      | error e => rfl
      | ok b =>
        simp only [bind, Except.bind, pure, Except.pure, Except.map]
        have : ∀ k, (similar c t gt a k - similar c t gt b k) = c * gt a k - c * gt b k := by
          intro k; simp [similar]
        simp only [this]
        rw [sqrt_sum_sq_scale, abs_of_pos hc]
  have key : ∀ err : Shape n d → Shape n d → ℝ,
      err (similar c t shape) (similar c t gt) = c * err shape gt →
      distanceIndexedNormalisedError err i j (similar c t shape) (similar c t gt) =
        distanceIndexedNormalisedError err i j shape gt := by
    intro err herr
    unfold distanceIndexedNormalisedError
    rw [hv]
    cases distanceTwoIndices i j gt with
    | error e => rfl
    | ok v =>
      simp only [Except.map, bind, Except.bind, pure, Except.pure]
      rw [herr, mul_div_mul_left _ _ hc.ne']
  exact ⟨key _ (euclid_similar shape gt c hc t), key _ (rms_similar shape gt c hc t)⟩

/-- **C28** (what the indices mean): an index from 0 counts landmarks from the first, a negative
one from the last, anything else raises `IndexError`; the normaliser is the distance of the
two landmarks of the ground truth. -/
theorem C28_landmark_indices (shape gt : Shape n d) (a b : Fin n) (i j : Int)
    (hi : i = a ∨ i = (a : Int) - n) (hj : j = b ∨ j = (b : Int) - n) :
    euclideanDistanceIndexedNormalisedError shape gt i j =
      .ok (euclideanError shape gt / Real.sqrt (∑ k, (gt a k - gt b k) ^ 2)) ∧
    ∀ k : Int, (k < -n ∨ (n : Int) ≤ k) →
      euclideanDistanceIndexedNormalisedError shape gt k j = .error .indexError ∧
      euclideanDistanceIndexedNormalisedError shape gt i k = .error .indexError := by
  have key : ∀ (i : Int) (a : Fin n), (i = a ∨ i = (a : Int) - n) → rowIndex n i = .ok a := by
    intro i a hi
    have ha := a.2
    unfold rowIndex
    have hj : (if i < 0 then i + n else i) = (a : Int) := by
      rcases hi with rfl | rfl
      · rw [if_neg (by omega)]
      · rw [if_pos (by omega)]; omega
    simp only [hj]
    rw [dif_pos ⟨by omega, by omega⟩]
    congr 1
  have bad : ∀ k : Int, (k < -n ∨ (n : Int) ≤ k) → rowIndex n k = .error .indexError := by
    intro k hk
    unfold rowIndex
    by_cases h0 : k < 0
    · simp only [if_pos h0]; rw [dif_neg (by omega)]
    · simp only [if_neg h0]; rw [dif_neg (by omega)]
  refine ⟨?_, fun k hk => ⟨?_, ?_⟩⟩
  · unfold euclideanDistanceIndexedNormalisedError distanceIndexedNormalisedError distanceTwoIndices
    rw [key i a hi, key j b hj]; rfl
  · unfold euclideanDistanceIndexedNormalisedError distanceIndexedNormalisedError distanceTwoIndices
    rw [bad k hk]; rfl
  · unfold euclideanDistanceIndexedNormalisedError distanceIndexedNormalisedError distanceTwoIndices
    rw [key i a hi, bad k hk]; rfl

example : ((2 : Int) = ((2 : Fin 3) : Nat) ∨ (2 : Int) = ((2 : Fin 3) : Nat) - (3 : Nat)) ∧
    ((-1 : Int) = ((2 : Fin 3) : Nat) ∨ (-1 : Int) = ((2 : Fin 3) : Nat) - (3 : Nat)) := by decide

/-- **C28** (any distance function): the same holds for every user-supplied distance that
is measured in the unit of the shapes. -/
theorem C28_distance_function (dist : Shape n d → Shape n d → Except PyErr ℝ)
    (shape gt : Shape n d) (c : ℝ) (hc : 0 < c) (t : Fin d → ℝ)
    (hdist : dist (similar c t shape) (similar c t gt) = (dist shape gt).map fun v => c * v) :
    distanceNormalisedError euclideanError dist (similar c t shape) (similar c t gt) =
      distanceNormalisedError euclideanError dist shape gt := by
  unfold distanceNormalisedError
  rw [hdist]
  cases dist shape gt with
  | error e => rfl
  | ok v =>
    simp only [Except.map, bind, Except.bind, pure, Except.pure]
    have := euclid_similar shape gt c hc t
    unfold similar
    rw [this, mul_div_mul_left _ _ hc.ne']

/-- **C28** (unknown names raise `ValueError`, the four known names never fall back to another
normaliser). -/
theorem C28_names (err : Shape n d → Shape n d → ℝ) (shape gt : Shape n d)
    (normShape : Option (Shape n d)) (name : String) :
    (name ∉ ["avg_edge_length", "perimeter", "diagonal", "area"] →
      bbNormalisedError err shape gt normShape name = .error .valueError) ∧
    (∀ f : Shape n d → Except PyErr ℝ, (name, f) ∈ [("avg_edge_length", bbAvgEdgeLength),
        ("perimeter", bbPerimeter), ("diagonal", bbDiagonal), ("area", bbArea)] →
      bbNormalisedError err shape gt normShape name =
        (f (normShape.getD gt)).map fun v => err shape gt / v) := by
  constructor
  · intro h
    simp only [List.mem_cons, List.not_mem_nil, or_false, not_or] at h
    simp [bbNormalisedError, bbNormType, h, bind, Except.bind]
  · intro f h
    simp only [List.mem_cons, List.not_mem_nil, or_false, Prod.mk.injEq] at h
    have hmap : ∀ (x : Except PyErr ℝ), (do let v ← x; pure (err shape gt / v)) =
        x.map fun v => err shape gt / v := by
      intro x; cases x <;> rfl
    rcases h with ⟨rfl, rfl⟩ | ⟨rfl, rfl⟩ | ⟨rfl, rfl⟩ | ⟨rfl, rfl⟩ <;>
    · rw [← hmap]; rfl

/-- A square of side 2: the average edge length is 2. -/
def square : Shape 4 2 := fun i j =>
  match i, j with
  | 0, 0 => 0 | 0, 1 => 0 | 1, 0 => 0 | 1, 1 => 2 | 2, 0 => 2 | 2, 1 => 0 | 3, 0 => 2 | 3, 1 => 2

example : bbAvgEdgeLength square = .ok 2 ∧ bbArea square = .ok 4 := by
  have h : bbSides square = .ok (2, 2) := by
    unfold bbSides
    rw [if_neg (by norm_num), dif_pos rfl]
    have h0 : ∀ j : Fin 2, extent square j = 2 := by
      intro j
      unfold extent
      have h1 : npMax (List.ofFn fun i => square i j) = 2 := by
        apply npMax_unique
        · rw [List.mem_ofFn]; exact ⟨3, by fin_cases j <;> rfl⟩
        · intro x hx
          rw [List.mem_ofFn] at hx
          obtain ⟨i, rfl⟩ := hx
          fin_cases i <;> fin_cases j <;> norm_num [square]
      have h2 : npMin (List.ofFn fun i => square i j) = 0 := by
        apply npMin_unique
        · rw [List.mem_ofFn]; exact ⟨0, by fin_cases j <;> rfl⟩
        · intro x hx
          rw [List.mem_ofFn] at hx
          obtain ⟨i, rfl⟩ := hx
          fin_cases i <;> fin_cases j <;> norm_num [square]
      rw [h1, h2]; norm_num
    rw [h0, h0]
  constructor
  · unfold bbAvgEdgeLength; rw [h]; simp only [bind, Except.bind, pure, Except.pure]; norm_num
  · unfold bbArea; rw [h]; simp only [bind, Except.bind, pure, Except.pure]; norm_num

/-! ## C29: the measures of a bounding box -/

/-- **C29** (all points are in the box).  The extent along an axis is the least width of a
strip that contains all points. -/
theorem C29_extent (hn : n ≠ 0) (s : Shape n d) (j : Fin d) :
    (∃ lo hi, extent s j = hi - lo ∧ ∀ i, lo ≤ s i j ∧ s i j ≤ hi) ∧
    (∀ lo hi, (∀ i, lo ≤ s i j ∧ s i j ≤ hi) → extent s j ≤ hi - lo) ∧
    (∃ i k, extent s j = s i j - s k j) := by
  have hne : List.ofFn (fun i => s i j) ≠ [] := by simpa [List.ofFn_eq_nil_iff] using hn
  have hmax := npMax_mem hne
  have hmin := npMin_mem hne
  rw [List.mem_ofFn] at hmax hmin
  obtain ⟨i, hi⟩ := hmax
  obtain ⟨k, hk⟩ := hmin
  have hmem : ∀ i, s i j ∈ List.ofFn (fun i => s i j) := fun i => List.mem_ofFn.mpr ⟨i, rfl⟩
  refine ⟨⟨_, _, rfl, fun i => ⟨npMin_le (hmem i), npMax_ge (hmem i)⟩⟩, ?_, ⟨i, k, ?_⟩⟩
  · intro lo hi' h
    unfold extent
    rw [← hi, ← hk]
    linarith [(h i).2, (h k).1]
  · unfold extent; rw [← hi, ← hk]

/-- **C29** (inequalities). -/
theorem C29_inequalities (s : Shape n d) (avg diag peri area : ℝ)
    (h1 : bbAvgEdgeLength s = .ok avg) (h2 : bbDiagonal s = .ok diag)
    (h3 : bbPerimeter s = .ok peri) (h4 : bbArea s = .ok area) :
    0 ≤ avg ∧ 0 ≤ area ∧ 0 ≤ peri ∧ avg ≤ diag ∧ diag ≤ peri / 2 ∧ area ≤ avg ^ 2 ∧
    peri = 4 * avg := by
  obtain ⟨v, hv, -⟩ := bind_ok h1
  obtain ⟨hn, hd, rfl⟩ := bbSides_ok hv
  simp only [bbAvgEdgeLength, bbDiagonal, bbPerimeter, bbArea, hv, bind, Except.bind, pure,
    Except.pure] at h1 h2 h3 h4
  injection h1 with h1; injection h2 with h2; injection h3 with h3; injection h4 with h4
  have ha := extent_nonneg hn s ⟨0, by omega⟩
  have hb := extent_nonneg hn s ⟨1, by omega⟩
  revert h1 h2 h3 h4 ha hb
  generalize extent s ⟨0, _⟩ = x
  generalize extent s ⟨1, _⟩ = y
  intro h1 h2 h3 h4 ha hb
  subst h1 h2 h3 h4
  have hs : Real.sqrt (y ^ 2 + x ^ 2) ≤ x + y := by
    rw [Real.sqrt_le_left (by linarith)]; nlinarith
  have hs2 : 1 / 2 * (x + y) ≤ Real.sqrt (y ^ 2 + x ^ 2) := by
    apply Real.le_sqrt_of_sq_le; nlinarith [sq_nonneg (x - y)]
  refine ⟨by linarith, mul_nonneg ha hb, by linarith, hs2, by linarith, ?_, by ring⟩
  nlinarith [sq_nonneg (x - y)]

/-- **C29**: the measures are defined for every shape with at least one point in two
dimensions, and raise `ValueError` for all others. -/
theorem C29_defined (s : Shape n d) :
    ((n ≠ 0 ∧ d = 2) → ∃ a b c e, bbAvgEdgeLength s = .ok a ∧ bbDiagonal s = .ok b ∧
      bbPerimeter s = .ok c ∧ bbArea s = .ok e) ∧
    (¬ (n ≠ 0 ∧ d = 2) → bbAvgEdgeLength s = .error .valueError ∧
      bbDiagonal s = .error .valueError ∧ bbPerimeter s = .error .valueError ∧
      bbArea s = .error .valueError) := by
  constructor
  · rintro ⟨hn, hd⟩
    have : bbSides s = .ok (extent s ⟨0, by omega⟩, extent s ⟨1, by omega⟩) := by
      unfold bbSides; rw [if_neg hn, dif_pos hd]
    simp [bbAvgEdgeLength, bbDiagonal, bbPerimeter, bbArea, this, bind, Except.bind, pure,
      Except.pure]
  · intro h
    have : bbSides s = .error .valueError := by
      unfold bbSides
      by_cases hn : n = 0
      · rw [if_pos hn]
      · rw [if_neg hn, dif_neg (fun hd => h ⟨hn, hd⟩)]
    simp [bbAvgEdgeLength, bbDiagonal, bbPerimeter, bbArea, this, bind, Except.bind]

end
end Menpofit
