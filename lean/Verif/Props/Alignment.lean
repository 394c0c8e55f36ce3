import Verif.Lemmas.Alignment
import Mathlib.Tactic.NormNum
/-!
# C115: the pose of the training shapes
-/

namespace Menpofit
open Gpa Spec

variable {n : Nat}

/-- **C115** (alignment).  If no training shape is a point, and neither is the mean of the centred
shapes, every shape comes out, in order, as a scaled, rotated and moved version of itself
(nothing is divided by zero on the way and nothing is mirrored), with its centre at the origin and
all of the same size. -/
theorem C115_alignment (shapes : List (CShape n)) (hs : ∀ s ∈ shapes, NotPoint s)
    (hm : NotPoint (mean (shapes.map centred))) :
    List.Forall₂ (fun s x => (∃ a b, PoseOf a b s x) ∧ CentredAtOrigin x ∧
      energy x = energy (mean (shapes.map centred))) shapes (alignShapes shapes) := by
  obtain ⟨c, hc⟩ : ∃ c, c = shapes.map centred := ⟨_, rfl⟩
  have hcc : ∀ s ∈ c, centre s = 0 := by
    intro s h; rw [hc] at h
    obtain ⟨s, -, rfl⟩ := List.mem_map.1 h
    exact centre_centred s
  have hcs : ∀ s ∈ c, size s ≠ 0 := by
    intro s h; rw [hc] at h
    obtain ⟨s, h', rfl⟩ := List.mem_map.1 h
    rw [size_centred]; exact notPoint_size (hs s h')
  have hmc := centre_mean c hcc
  rw [← hc] at hm ⊢
  have hms := notPoint_size hm
  have hme : energy (mean c) ≠ 0 := by
    rw [Ne, energy_eq_zero, ← size_eq_zero hmc]; exact hms
  obtain ⟨t, ht, e⟩ := procrustes_poses hms hcc hcs 100 _ (target_first hcc hme)
  have : alignShapes shapes = shapes.map fun s => alignTo t (centred s) := by
    show procrustes (size (mean (shapes.map centred))) (shapes.map centred) 100 _ = _
    rw [← hc, e, hc, List.map_map]; rfl
  rw [this, List.forall₂_map_right_iff, List.forall₂_same]
  intro s h
  have h1 : centre (centred s) = 0 := centre_centred s
  have h2 : size (centred s) ≠ 0 := by rw [size_centred]; exact notPoint_size (hs s h)
  obtain ⟨a, ha, hx⟩ := alignTo_pose hms ht h1 h2
  have h3 : centre (alignTo t (centred s)) = 0 := centre_alignTo h1 ht.centre
  refine ⟨⟨a, -(a * centre s), ha, fun i => ?_⟩, sum_of_centre h3, ?_⟩
  · rw [hx]; simp only [rot, centred]; ring
  · have h4 := size_alignTo h1 ht.centre h2
    rw [ht.size, size_of h3, size_of hmc] at h4
    exact (Real.sqrt_inj (energy_nonneg _) (energy_nonneg _)).1 h4

/-- **C115** (position).  Moving training shapes, each by its own amount, changes neither a shape
model nor any of its increments. -/
theorem C115_position (first first' : List (CShape n)) (increments increments' : List (List (CShape n)))
    (h : List.Forall₂ (fun s t => ∃ b, ∀ i, t i = s i + b) first first')
    (h' : List.Forall₂ (List.Forall₂ fun s t => ∃ b, ∀ i, t i = s i + b) increments increments') :
    modelData first' increments' = modelData first increments := by
  have key : ∀ l l' : List (CShape n), List.Forall₂ (fun s t => ∃ b, ∀ i, t i = s i + b) l l' →
      alignShapes l' = alignShapes l := by
    intro l l' h
    have : l'.map centred = l.map centred := by
      induction h with
      | nil => rfl
      | cons h _ ih =>
        obtain ⟨b, hb⟩ := h
        rw [List.map_cons, List.map_cons, ih, funext hb, centred_shift]
    unfold alignShapes
    rw [this]
  unfold modelData
  rw [key _ _ h]
  congr 2
  induction h' with
  | nil => rfl
  | cons h _ ih => rw [List.map_cons, List.map_cons, key _ _ h, ih]

/-- **C115** (orientation).  Turning all training shapes of a batch by the same angle turns the
aligned shapes by that angle. -/
theorem C115_orientation (shapes : List (CShape n)) (u : ℂ) (hu : ‖u‖ = 1) :
    alignShapes (shapes.map fun s i => u * s i) = (alignShapes shapes).map fun s i => u * s i := by
  have e : (shapes.map (rot u)).map centred = (shapes.map centred).map (rot u) := by
    rw [List.map_map, List.map_map]
    exact List.map_congr_left fun s _ => centred_rot u s
  show procrustes (size (mean ((shapes.map (rot u)).map centred)))
    ((shapes.map (rot u)).map centred) 100 (mean ((shapes.map (rot u)).map centred)) = _
  rw [e, mean_rot, size_rot, hu, one_mul, procrustes_rot u hu]
  rfl

/-- The targets of the rounds of the alignment: the mean, then the mean of the shapes aligned to the previous target, at the
size of the mean. -/
noncomputable def nthTarget (c : List (CShape n)) : Nat → CShape n
  | 0 => mean c
  | k + 1 => rescaleTo (size (mean c)) (mean (c.map (alignTo (nthTarget c k))))

/-- **C115** (settling).  The shapes are aligned to the mean of the centred shapes, then to the mean of the shapes so
aligned (at its first size), and so on; the shapes returned are those aligned to the first target that is within a
millionth of its successor, in the Euclidean distance, or to the hundredth successor of the first. -/
theorem C115_settled (shapes : List (CShape n)) :
    ∃ k ≤ 100, alignShapes shapes = (shapes.map centred).map (alignTo (nthTarget (shapes.map centred) k)) ∧
      (∀ i < k, 1 / 10 ^ 6 ≤ complexDistance (nthTarget (shapes.map centred) i) (nthTarget (shapes.map centred) (i + 1))) ∧
      (k < 100 → complexDistance (nthTarget (shapes.map centred) k) (nthTarget (shapes.map centred) (k + 1)) < 1 / 10 ^ 6) := by
  obtain ⟨c, hc⟩ : ∃ c, c = shapes.map centred := ⟨_, rfl⟩
  have hd : (complexDistance : CShape n → CShape n → ℝ) = distance := by
    funext a b
    simp [complexDistance, distance, EuclideanSpace.norm_eq]
  have key : ∀ m i : Nat, ∃ k, i ≤ k ∧ k ≤ i + m ∧
      procrustes (size (mean c)) c m (nthTarget c i) = c.map (alignTo (nthTarget c k)) ∧
      (∀ j, i ≤ j → j < k → 1 / 10 ^ 6 ≤ distance (nthTarget c j) (nthTarget c (j + 1))) ∧
      (k < i + m → distance (nthTarget c k) (nthTarget c (k + 1)) < 1 / 10 ^ 6) := by
    intro m
    induction m with
    | zero => exact fun i => ⟨i, le_refl _, le_refl _, rfl, fun j _ _ => by omega, fun _ => by omega⟩
    | succ m ih =>
      intro i
      have hstep : nthTarget c (i + 1) = rescaleTo (size (mean c)) (mean (c.map (alignTo (nthTarget c i)))) := rfl
      by_cases h : distance (nthTarget c i) (nthTarget c (i + 1)) < 1 / 10 ^ 6
      · refine ⟨i, le_refl _, by omega, ?_, fun j _ _ => by omega, fun _ => h⟩
        unfold procrustes
        simp only [← hstep, if_pos h]
      · obtain ⟨k, k1, k2, k3, k4, k5⟩ := ih (i + 1)
        refine ⟨k, by omega, by omega, ?_, fun j j1 j2 => ?_, fun hk => k5 (by omega)⟩
        · unfold procrustes
          simp only [← hstep, if_neg h, k3]
        · rcases Nat.lt_or_ge i j with h1 | h1
          · exact k4 j (by omega) j2
          · obtain rfl : j = i := by omega
            exact not_lt.1 h
  obtain ⟨k, -, k2, k3, k4, k5⟩ := key 100 0
  rw [hd, ← hc]
  refine ⟨k, by omega, ?_, fun i hi => k4 i (by omega) hi, fun h => k5 (by omega)⟩
  unfold alignShapes
  rw [← hc]
  exact k3

theorem similar_aligned {s : CShape n} (hs : NotPoint s) {as bs : List ℂ}
    (ha : ∀ a ∈ as, a ≠ 0) (hsum : as.sum ≠ 0) (hl : as.length = bs.length) :
    alignShapes (List.zipWith (fun a b i => a * s i + b) as bs) =
      List.replicate as.length (rot (as.sum / as.length) (centred s)) := by
  have hcz : (List.zipWith (fun a b i => a * s i + b) as bs).map centred =
      as.map fun a => rot a (centred s) := by
    clear hsum ha
    induction as generalizing bs with
    | nil => rfl
    | cons a as ih =>
      cases bs with
      | nil => cases hl
      | cons b bs =>
        rw [List.zipWith_cons_cons, List.map_cons, List.map_cons,
          ih (by simpa using hl)]
        congr 1
        rw [centred_shift]; exact centred_rot a s
  have hne : (as.length : ℂ) ≠ 0 := by
    apply Nat.cast_ne_zero.2
    intro h0; rw [List.length_eq_zero_iff.1 h0] at hsum; exact hsum rfl
  obtain ⟨c, hc⟩ : ∃ c, c = as.sum / (as.length : ℂ) := ⟨_, rfl⟩
  have hc0 : c ≠ 0 := by rw [hc]; exact div_ne_zero hsum hne
  have hmean : mean (as.map fun a => rot a (centred s)) = rot c (centred s) := by
    funext i
    unfold mean rot
    rw [List.map_map, List.length_map, hc]
    have : (as.map ((fun x : CShape n => x i) ∘ fun a i => a * centred s i)).sum =
        as.sum * centred s i := by
      have := List.sum_map_mul_right as id (centred s i)
      simpa [Function.comp_def] using this
    rw [this]; ring
  have h1 : centre (centred s) = 0 := centre_centred s
  have h2 : size (centred s) ≠ 0 := by rw [size_centred]; exact notPoint_size hs
  have hal : (as.map fun a => rot a (centred s)).map (alignTo (rot c (centred s))) =
      List.replicate as.length (rot c (centred s)) := by
    rw [List.map_map, List.eq_replicate_iff]
    refine ⟨by simp, fun x hx => ?_⟩
    obtain ⟨a, h, rfl⟩ := List.mem_map.1 hx
    exact alignTo_similar h1 h2 (ha a h) hc0
  have hmr : mean (List.replicate as.length (rot c (centred s))) = rot c (centred s) := by
    funext i
    unfold mean
    rw [List.map_replicate, List.sum_replicate, List.length_replicate, nsmul_eq_mul]
    field_simp
  have h3 : centre (rot c (centred s)) = 0 := by rw [centre_rot, h1, mul_zero]
  have h4 : size (rot c (centred s)) ≠ 0 := by
    rw [size_rot]; exact mul_ne_zero (norm_ne_zero_iff.2 hc0) h2
  have hres : rescaleTo (size (rot c (centred s))) (rot c (centred s)) = rot c (centred s) := by
    rw [rescaleTo_of h3, div_self h4]
    exact rot_one _
  show procrustes _ ((List.zipWith (fun a b i => a * s i + b) as bs).map centred) 100 _ = _
  rw [hcz, hmean]
  show procrustes _ _ (99 + 1) _ = _
  simp only [procrustes]
  rw [hal, hmr, hres, if_pos, ← hc]
  have : distance (rot c (centred s)) (rot c (centred s)) = 0 := by simp [distance]
  rw [this]; norm_num

theorem scatter_replicate (k : Nat) (x : CShape n) : scatter (List.replicate k x) = 0 := by
  by_cases hk : k = 0
  · subst hk; rfl
  have hm : mean (List.replicate k x) = x := by
    funext i
    have : (k : ℂ) ≠ 0 := Nat.cast_ne_zero.2 hk
    unfold mean
    rw [List.map_replicate, List.sum_replicate, List.length_replicate, nsmul_eq_mul]
    field_simp
  unfold scatter
  rw [hm, List.map_replicate, List.sum_replicate]
  simp

/-- **C115, partial** (copies).  A shape model built from copies of one shape in any sizes,
orientations and positions (that do not cancel) has no variance: pose is not mistaken for shape.
Missing: increments, see `C115_increment_violated`. -/
theorem C115_copies_partial (s : CShape n) (hs : NotPoint s) (as bs : List ℂ)
    (ha : ∀ a ∈ as, a ≠ 0) (hsum : as.sum ≠ 0) (hl : as.length = bs.length) :
    scatter (modelData (List.zipWith (fun a b i => a * s i + b) as bs) []) = 0 := by
  unfold modelData
  rw [similar_aligned hs ha hsum hl]
  simp only [List.map_nil, List.flatten_nil, List.append_nil]
  exact scatter_replicate _ _

/-- **C115, violated** (increments).  Each increment is aligned on its own: a model of a shape that is
incremented with the same shape turned by any angle has variance, although the model built from
the two together has none. -/
theorem C115_increment_violated (s : CShape n) (hs : NotPoint s) (u : ℂ) (h1 : ‖u‖ = 1)
    (hu : u ≠ 1) (hu' : u ≠ -1) :
    scatter (modelData [s, fun i => u * s i] []) = 0 ∧
    0 < scatter (modelData [s] [[fun i => u * s i]]) := by
  have hu0 : u ≠ 0 := by rintro rfl; simp at h1
  constructor
  · have := C115_copies_partial s hs [1, u] [0, 0] (by simp [hu0]) (by
      simp only [List.sum_cons, List.sum_nil, add_zero]
      intro h; exact hu' (eq_neg_of_add_eq_zero_right h)) rfl
    simpa using this
  · have e1 : alignShapes [s] = [centred s] := by
      have := similar_aligned hs (as := [1]) (bs := [0]) (by simp) (by simp) rfl
      simp only [List.zipWith_cons_cons, one_mul, add_zero, List.zipWith_nil_left] at this
      rw [this]
      simp [rot_one]
    have e2 : alignShapes [fun i => u * s i] = [rot u (centred s)] := by
      have := similar_aligned hs (as := [u]) (bs := [0]) (by simp [hu0]) (by simp [hu0]) rfl
      simp only [List.zipWith_cons_cons, add_zero, List.zipWith_nil_left] at this
      rw [this]
      simp
    have hne : ∃ i, centred s i ≠ 0 := by
      by_contra hcon
      push Not at hcon
      exact notPoint_size hs (by rw [← size_centred, size_eq_zero (centre_centred s)]; exact hcon)
    obtain ⟨i, hi⟩ := hne
    unfold modelData
    rw [e1]
    simp only [List.map_cons, List.map_nil, e2, List.flatten_cons, List.flatten_nil,
      List.append_nil, List.cons_append, List.nil_append]
    unfold scatter
    simp only [List.map_cons, List.map_nil, List.sum_cons, List.sum_nil, add_zero]
    refine add_pos_of_pos_of_nonneg ?_ (Finset.sum_nonneg fun _ _ => sq_nonneg _)
    refine Finset.sum_pos' (fun _ _ => sq_nonneg _) ⟨i, Finset.mem_univ _, ?_⟩
    refine pow_pos (norm_pos_iff.2 ?_) 2
    have : centred s i - mean [centred s, rot u (centred s)] i = (1 - u) / 2 * centred s i := by
      simp only [mean, rot, List.map_cons, List.map_nil, List.sum_cons, List.sum_nil, add_zero,
        List.length_cons, List.length_nil]
      push_cast
      ring
    rw [this]
    refine mul_ne_zero (div_ne_zero (sub_ne_zero.2 (Ne.symm hu)) two_ne_zero) hi

/-! Segments in the plane. -/

section example_

/-- A segment of length 2 along an axis, and one of length 4 along the other. -/
noncomputable def segmentC : CShape 2 := fun i => if i = 0 then 1 else -1

theorem segmentC_notPoint : NotPoint segmentC := ⟨0, 1, by simp [segmentC]; norm_num⟩

theorem segmentC_centred : centred segmentC = segmentC := by
  apply centred_of
  simp [centre, segmentC, Fin.sum_univ_two]

example : ∀ s ∈ [segmentC, fun i => (2 * Complex.I) * segmentC i + 5], NotPoint s := by
  intro s hs
  rcases List.mem_cons.1 hs with rfl | hs
  · exact segmentC_notPoint
  · rw [List.mem_singleton.1 hs]
    refine ⟨0, 1, ?_⟩
    simp only [segmentC]
    intro h
    have := congrArg Complex.im h
    norm_num at this

example : NotPoint (mean ([segmentC, fun i => (2 * Complex.I) * segmentC i + 5].map centred)) := by
  have e : centred (fun i => (2 * Complex.I) * segmentC i + 5) =
      rot (2 * Complex.I) segmentC := by
    rw [centred_shift]
    exact (centred_rot _ _).trans (by rw [segmentC_centred])
  refine ⟨0, 1, ?_⟩
  simp only [List.map_cons, List.map_nil, segmentC_centred, e]
  simp only [mean, rot, segmentC, List.map_cons, List.map_nil, List.sum_cons, List.sum_nil]
  intro h
  have := congrArg Complex.re h
  norm_num at this

example : ‖Complex.I‖ = 1 ∧ Complex.I ≠ 1 ∧ Complex.I ≠ -1 :=
  ⟨Complex.norm_I, fun h => by simpa using congrArg Complex.im h,
    fun h => by simpa using congrArg Complex.im h⟩

end example_
end Menpofit
