import Verif.Model.Alignment
import Verif.Spec.Alignment
import Mathlib.Tactic.Ring
import Mathlib.Tactic.FieldSimp
import Mathlib.Tactic.Linarith
import Mathlib.Tactic.Positivity
import Mathlib.Tactic.LinearCombination
import Mathlib.Analysis.Complex.Basic
import Mathlib.Algebra.BigOperators.Field
import Mathlib.Algebra.Order.BigOperators.Group.List
/-!
# Helper lemmas for the alignment of shapes
-/

namespace Menpofit
namespace Gpa
open Spec

variable {n : Nat}

/-- A shape scaled and rotated about the origin. -/
noncomputable def rot (a : ℂ) (s : CShape n) : CShape n := fun i => a * s i

theorem rot_rot (a b : ℂ) (s : CShape n) : rot a (rot b s) = rot (a * b) s := by
  funext i; simp [rot, mul_assoc]

theorem rot_one (s : CShape n) : rot 1 s = s := by funext i; simp [rot]

theorem centre_rot (a : ℂ) (s : CShape n) : centre (rot a s) = a * centre s := by
  unfold centre rot; rw [← Finset.mul_sum]; ring

theorem centred_rot (a : ℂ) (s : CShape n) : centred (rot a s) = rot a (centred s) := by
  funext i
  show a * s i - centre (rot a s) = a * (s i - centre s)
  rw [centre_rot]; ring

theorem centre_shift (s : CShape n) (b : ℂ) (hn : n ≠ 0) :
    centre (fun i => s i + b) = centre s + b := by
  have : (n : ℂ) ≠ 0 := Nat.cast_ne_zero.2 hn
  unfold centre
  rw [Finset.sum_add_distrib, Finset.sum_const, Finset.card_univ, Fintype.card_fin, nsmul_eq_mul]
  field_simp

theorem centred_shift (s : CShape n) (b : ℂ) : centred (fun i => s i + b) = centred s := by
  funext i
  have hn : n ≠ 0 := by rintro rfl; exact i.elim0
  unfold centred
  rw [centre_shift s b hn]; ring

theorem centre_centred (s : CShape n) : centre (centred s) = 0 := by
  by_cases hn : n = 0
  · subst hn; simp [centre]
  · have := centre_shift s (-centre s) hn
    have e : centred s = fun i => s i + -centre s := by funext i; simp [centred, sub_eq_add_neg]
    rw [e, this]; ring

theorem centred_of {s : CShape n} (h : centre s = 0) : centred s = s := by
  funext i; simp [centred, h]

theorem sum_of_centre {s : CShape n} (h : centre s = 0) : ∑ i, s i = 0 := by
  by_cases hn : n = 0
  · subst hn; simp
  · unfold centre at h
    rcases div_eq_zero_iff.1 h with h | h
    · exact h
    · exact absurd h (Nat.cast_ne_zero.2 hn)

theorem size_of {s : CShape n} (h : centre s = 0) : size s = Real.sqrt (energy s) := by
  unfold size energy; rw [centred_of h]

theorem size_nonneg (s : CShape n) : 0 ≤ size s := Real.sqrt_nonneg _

theorem energy_nonneg (s : CShape n) : 0 ≤ energy s :=
  Finset.sum_nonneg fun _ _ => sq_nonneg _

theorem energy_eq_zero {s : CShape n} : energy s = 0 ↔ ∀ i, s i = 0 := by
  unfold energy
  rw [Finset.sum_eq_zero_iff_of_nonneg fun _ _ => sq_nonneg _]
  simp

theorem size_eq_zero {s : CShape n} (h : centre s = 0) : size s = 0 ↔ ∀ i, s i = 0 := by
  rw [size_of h, Real.sqrt_eq_zero (energy_nonneg s), energy_eq_zero]

theorem size_rot (a : ℂ) (s : CShape n) : size (rot a s) = ‖a‖ * size s := by
  unfold size
  rw [centred_rot]
  have : ∑ i, ‖rot a (centred s) i‖ ^ 2 = ‖a‖ ^ 2 * ∑ i, ‖centred s i‖ ^ 2 := by
    rw [Finset.mul_sum]
    refine Finset.sum_congr rfl fun i _ => ?_
    simp [rot, mul_pow]
  rw [this, Real.sqrt_mul (sq_nonneg _), Real.sqrt_sq (norm_nonneg _)]

theorem size_centred (s : CShape n) : size (centred s) = size s := by
  unfold size; rw [centred_of (centre_centred s)]

theorem notPoint_size {s : CShape n} (h : NotPoint s) : size s ≠ 0 := by
  rw [← size_centred, Ne, size_eq_zero (centre_centred s)]
  obtain ⟨i, j, hij⟩ := h
  intro h0
  apply hij
  have h1 := h0 i
  have h2 := h0 j
  unfold centred at h1 h2
  rw [sub_eq_zero] at h1 h2
  rw [h1, h2]

theorem correlation_rot (a b : ℂ) (s t : CShape n) :
    correlation (rot a s) (rot b t) = (starRingEnd ℂ) a * b * correlation s t := by
  unfold correlation rot
  rw [Finset.mul_sum]
  refine Finset.sum_congr rfl fun i _ => ?_
  rw [map_mul]; ring

theorem correlation_self (s : CShape n) : correlation s s = (energy s : ℝ) := by
  unfold correlation energy
  push_cast
  refine Finset.sum_congr rfl fun i _ => ?_
  rw [mul_comm, Complex.mul_conj, Complex.normSq_eq_norm_sq]; push_cast; rfl

theorem norm_rotation (s t : CShape n) : ‖rotation s t‖ = 1 := by
  unfold rotation
  split
  · simp
  · next h =>
    have : ‖correlation s t‖ ≠ 0 := by simpa using h
    rw [norm_div, Complex.norm_real, Real.norm_eq_abs, abs_of_nonneg (norm_nonneg _), div_self this]

/-- For centred shapes alignment is a multiplication. -/
theorem alignTo_of {s t : CShape n} (hs : centre s = 0) (ht : centre t = 0) :
    alignTo t s = rot ((size t / size s : ℝ) * rotation s t) s := by
  funext i
  unfold alignTo rot
  rw [ht, centred_of hs, centred_of ht]; ring

theorem centre_alignTo {s t : CShape n} (hs : centre s = 0) (ht : centre t = 0) :
    centre (alignTo t s) = 0 := by
  rw [alignTo_of hs ht, centre_rot, hs, mul_zero]

theorem factor_norm (s t : CShape n) :
    ‖((size t / size s : ℝ) : ℂ) * rotation s t‖ = size t / size s := by
  rw [norm_mul, norm_rotation, mul_one, Complex.norm_real, Real.norm_eq_abs,
    abs_of_nonneg (div_nonneg (size_nonneg _) (size_nonneg _))]

theorem size_alignTo {s t : CShape n} (hs : centre s = 0) (ht : centre t = 0)
    (h : size s ≠ 0) : size (alignTo t s) = size t := by
  rw [alignTo_of hs ht, size_rot, factor_norm]
  field_simp

/-- The aligned shape correlates with the target by a non-negative real number. -/
theorem correlation_alignTo {s t : CShape n} (hs : centre s = 0) (ht : centre t = 0) :
    correlation (alignTo t s) t = ((size t / size s * ‖correlation s t‖ : ℝ) : ℂ) := by
  rw [alignTo_of hs ht]
  have := correlation_rot ((size t / size s : ℝ) * rotation s t) 1 s t
  rw [rot_one, mul_one] at this
  rw [this, map_mul, Complex.conj_ofReal]
  push_cast
  rw [mul_assoc]
  congr 1
  unfold rotation
  split
  · next h => rw [h]; simp
  · next h =>
    have h' : (‖correlation s t‖ : ℂ) ≠ 0 := by simpa using h
    rw [map_div₀, Complex.conj_ofReal]
    have := Complex.mul_conj (correlation s t)
    rw [Complex.normSq_eq_norm_sq] at this
    rw [div_mul_eq_mul_div, mul_comm, this]
    push_cast
    field_simp

theorem centre_sum (l : List (CShape n)) (h : ∀ s ∈ l, centre s = 0) :
    ∑ i, (l.map fun s => s i).sum = 0 := by
  induction l with
  | nil => simp
  | cons a l ih =>
    simp only [List.map_cons, List.sum_cons, Finset.sum_add_distrib]
    rw [ih fun s hs => h s (List.mem_cons_of_mem _ hs),
      sum_of_centre (h a (List.mem_cons_self ..)), add_zero]

theorem centre_mean (l : List (CShape n)) (h : ∀ s ∈ l, centre s = 0) : centre (mean l) = 0 := by
  unfold centre mean
  rw [← Finset.sum_div, centre_sum l h]; simp

theorem correlation_mean (l : List (CShape n)) (t : CShape n) :
    correlation (mean l) t = (l.map fun s => correlation s t).sum / l.length := by
  have key : ∀ l : List (CShape n), ∑ i, (starRingEnd ℂ) ((l.map fun s => s i).sum) * t i =
      (l.map fun s => correlation s t).sum := by
    intro l
    induction l with
    | nil => simp
    | cons a l ih =>
      simp only [List.map_cons, List.sum_cons, map_add, add_mul, Finset.sum_add_distrib, ih]
      rfl
  rw [← key l, Finset.sum_div]
  unfold correlation mean
  refine Finset.sum_congr rfl fun i _ => ?_
  rw [map_div₀, Complex.conj_natCast]; ring

theorem mean_rot (a : ℂ) (l : List (CShape n)) : mean (l.map (rot a)) = rot a (mean l) := by
  funext i
  unfold mean rot
  rw [List.map_map, List.length_map, ← mul_div_assoc, ← List.sum_map_mul_left]
  rfl

theorem rescaleTo_rot (a : ℂ) (h : ‖a‖ = 1) (r : ℝ) (s : CShape n) :
    rescaleTo r (rot a s) = rot a (rescaleTo r s) := by
  funext i
  unfold rescaleTo
  rw [centre_rot, size_rot, centred_rot, h, one_mul]
  unfold rot; ring

theorem alignTo_rot (a : ℂ) (h : ‖a‖ = 1) (t s : CShape n) :
    alignTo (rot a t) (rot a s) = rot a (alignTo t s) := by
  have hr : rotation (rot a (centred s)) (rot a (centred t)) =
      rotation (centred s) (centred t) := by
    have : correlation (rot a (centred s)) (rot a (centred t)) =
        correlation (centred s) (centred t) := by
      rw [correlation_rot, mul_comm ((starRingEnd ℂ) a), Complex.mul_conj,
        Complex.normSq_eq_norm_sq, h]; simp
    unfold rotation; rw [this]
  funext i
  unfold alignTo
  rw [centre_rot, size_rot, size_rot, centred_rot, centred_rot, hr, h, one_mul, one_mul]
  unfold rot; ring

theorem distance_rot (a : ℂ) (h : ‖a‖ = 1) (s t : CShape n) :
    distance (rot a s) (rot a t) = distance s t := by
  unfold distance
  congr 1
  refine Finset.sum_congr rfl fun i _ => ?_
  unfold rot
  rw [← mul_sub, norm_mul, h, one_mul]

theorem procrustes_rot (a : ℂ) (h : ‖a‖ = 1) (r : ℝ) (l : List (CShape n)) : ∀ k t,
    procrustes r (l.map (rot a)) k (rot a t) = (procrustes r l k t).map (rot a) := by
  have hm : ∀ t, (l.map (rot a)).map (alignTo (rot a t)) = (l.map (alignTo t)).map (rot a) := by
    intro t
    rw [List.map_map, List.map_map]
    exact List.map_congr_left fun s _ => alignTo_rot a h t s
  intro k
  induction k with
  | zero => intro t; exact hm t
  | succ k ih =>
    intro t
    simp only [procrustes]
    rw [hm, mean_rot, rescaleTo_rot a h, distance_rot a h]
    split
    · rfl
    · exact ih _

/-- What holds of the target throughout. -/
structure Target (r : ℝ) (l : List (CShape n)) (t : CShape n) : Prop where
  centre : centre t = 0
  size : size t = r
  seen : ∃ s ∈ l, correlation s t ≠ 0

theorem exists_of_sum_ne_zero {α : Type} (f : α → ℂ) :
    ∀ l : List α, (l.map f).sum ≠ 0 → ∃ x ∈ l, f x ≠ 0
  | [], h => absurd rfl h
  | a :: l, h => by
    by_cases ha : f a = 0
    · obtain ⟨x, hx, h'⟩ := exists_of_sum_ne_zero f l (by simpa [ha] using h)
      exact ⟨x, List.mem_cons_of_mem _ hx, h'⟩
    · exact ⟨a, List.mem_cons_self .., ha⟩

/-- Some shape correlates with a mean that is not 0. -/
theorem seen_of_mean {l : List (CShape n)} {c : ℂ} (hc : c ≠ 0)
    (h : energy (mean l) ≠ 0) : ∃ s ∈ l, correlation s (rot c (mean l)) ≠ 0 := by
  refine exists_of_sum_ne_zero (fun s => correlation s (rot c (mean l))) l fun h0 => ?_
  have := correlation_mean l (rot c (mean l))
  rw [h0, zero_div] at this
  have h1 := correlation_rot 1 c (mean l) (mean l)
  rw [rot_one, this, correlation_self, map_one, one_mul] at h1
  rcases mul_eq_zero.1 h1.symm with h1 | h1
  · exact hc h1
  · exact h (by exact_mod_cast h1)

theorem rescaleTo_of {r : ℝ} {s : CShape n} (h : centre s = 0) :
    rescaleTo r s = rot ((r / size s : ℝ) : ℂ) s := by
  funext i
  unfold rescaleTo rot
  rw [h, centred_of h, zero_add]

theorem target_first {l : List (CShape n)} (hl : ∀ s ∈ l, centre s = 0)
    (h : energy (mean l) ≠ 0) : Target (size (mean l)) l (mean l) := by
  refine ⟨centre_mean l hl, rfl, ?_⟩
  have := seen_of_mean (l := l) one_ne_zero h
  rwa [rot_one] at this

theorem target_next {r : ℝ} (hr : r ≠ 0) {l : List (CShape n)} (hl : ∀ s ∈ l, centre s = 0)
    (hs : ∀ s ∈ l, size s ≠ 0) {t : CShape n} (h : Target r l t) :
    Target r l (rescaleTo r (mean (l.map (alignTo t)))) := by
  obtain ⟨m, hm⟩ : ∃ m, m = mean (l.map (alignTo t)) := ⟨_, rfl⟩
  have hac : ∀ x ∈ l.map (alignTo t), centre x = 0 := by
    intro x hx
    obtain ⟨s, h1, rfl⟩ := List.mem_map.1 hx
    exact centre_alignTo (hl s h1) h.centre
  have hmc : centre m = 0 := by rw [hm]; exact centre_mean _ hac
  have hsz : size t ≠ 0 := by rw [h.size]; exact hr
  have hrp : 0 < size t := lt_of_le_of_ne (size_nonneg _) (Ne.symm hsz)
  obtain ⟨s0, hs0, hc0⟩ := h.seen
  -- the mean correlates with the old target
  have hcm : correlation m t ≠ 0 := by
    rw [hm, correlation_mean, List.map_map]
    have e : (l.map ((fun s => correlation s t) ∘ alignTo t)) =
        l.map fun s => ((size t / size s * ‖correlation s t‖ : ℝ) : ℂ) :=
      List.map_congr_left fun s h' => correlation_alignTo (hl s h') h.centre
    have e2 : (l.map fun s => ((size t / size s * ‖correlation s t‖ : ℝ) : ℂ)).sum =
        (((l.map fun s => size t / size s * ‖correlation s t‖).sum : ℝ) : ℂ) := by
      generalize l = l'
      induction l' with
      | nil => simp
      | cons a l' ih =>
        simp only [List.map_cons, List.sum_cons]; rw [ih]; push_cast; rfl
    rw [e, e2]
    have hpos : 0 < (l.map fun s => size t / size s * ‖correlation s t‖).sum := by
      have hmem : size t / size s0 * ‖correlation s0 t‖ ∈
          l.map fun s => size t / size s * ‖correlation s t‖ :=
        List.mem_map.2 ⟨s0, hs0, rfl⟩
      refine lt_of_lt_of_le ?_ (List.single_le_sum (fun x hx => ?_) _ hmem)
      · exact mul_pos (div_pos hrp (lt_of_le_of_ne (size_nonneg _) (Ne.symm (hs s0 hs0))))
          (norm_pos_iff.2 hc0)
      · obtain ⟨s, -, rfl⟩ := List.mem_map.1 hx
        exact mul_nonneg (div_nonneg (size_nonneg _) (size_nonneg _)) (norm_nonneg _)
    have hlen : ((l.map (alignTo t)).length : ℂ) ≠ 0 := by
      rw [List.length_map]
      exact Nat.cast_ne_zero.2 (by intro h0; rw [List.length_eq_zero_iff.1 h0] at hs0; cases hs0)
    exact div_ne_zero (by exact_mod_cast hpos.ne') hlen
  have hme : energy m ≠ 0 := by
    intro h0
    apply hcm
    have := energy_eq_zero.1 h0
    unfold correlation
    exact Finset.sum_eq_zero fun i _ => by rw [this i]; simp
  have hms : size m ≠ 0 := by
    rw [Ne, size_eq_zero hmc, ← energy_eq_zero]; exact hme
  have hf : ((r / size m : ℝ) : ℂ) ≠ 0 := by exact_mod_cast div_ne_zero hr hms
  rw [← hm, rescaleTo_of hmc]
  refine ⟨by rw [centre_rot, hmc, mul_zero], ?_, ?_⟩
  · have hr0 : 0 ≤ r := by rw [← h.size]; exact size_nonneg _
    rw [size_rot, Complex.norm_real, Real.norm_eq_abs,
      abs_of_nonneg (div_nonneg hr0 (size_nonneg _))]
    field_simp
  · have := seen_of_mean (l := l.map (alignTo t)) (c := ((r / size m : ℝ) : ℂ)) hf (by
      rw [← hm]; exact hme)
    rw [← hm] at this
    obtain ⟨x, hx, hxc⟩ := this
    obtain ⟨s, h1, rfl⟩ := List.mem_map.1 hx
    refine ⟨s, h1, fun h0 => hxc ?_⟩
    rw [alignTo_of (hl s h1) h.centre]
    have := correlation_rot ((size t / size s : ℝ) * rotation s t) 1 s (rot ((r / size m : ℝ) : ℂ) m)
    rw [rot_one] at this
    rw [this, h0, mul_zero]

/-- Every shape comes out as a rotated and scaled version of itself of the common size. -/
theorem procrustes_poses {r : ℝ} (hr : r ≠ 0) {l : List (CShape n)} (hl : ∀ s ∈ l, centre s = 0)
    (hs : ∀ s ∈ l, size s ≠ 0) : ∀ k t, Target r l t →
    ∃ t', Target r l t' ∧ procrustes r l k t = l.map (alignTo t') := by
  intro k
  induction k with
  | zero => intro t h; exact ⟨t, h, rfl⟩
  | succ k ih =>
    intro t h
    simp only [procrustes]
    split
    · exact ⟨t, h, rfl⟩
    · exact ih _ (target_next hr hl hs h)

theorem alignTo_pose {r : ℝ} (hr : r ≠ 0) {l : List (CShape n)} {t s : CShape n}
    (h : Target r l t) (hc : centre s = 0) (hs : size s ≠ 0) :
    ∃ a : ℂ, a ≠ 0 ∧ alignTo t s = rot a s := by
  refine ⟨_, ?_, alignTo_of hc h.centre⟩
  intro h0
  have := factor_norm s t
  rw [h0, norm_zero, h.size] at this
  exact div_ne_zero hr hs this.symm

/-- A target that is a rotated and scaled version of the shape is reached exactly. -/
theorem alignTo_similar {s : CShape n} (hc : centre s = 0) (hs : size s ≠ 0) {a c : ℂ}
    (ha : a ≠ 0) (hcc : c ≠ 0) : alignTo (rot c s) (rot a s) = rot c s := by
  have he : energy s ≠ 0 := by
    rw [Ne, energy_eq_zero, ← size_eq_zero hc]; exact hs
  have h1 : centre (rot a s) = 0 := by rw [centre_rot, hc, mul_zero]
  have h2 : centre (rot c s) = 0 := by rw [centre_rot, hc, mul_zero]
  rw [alignTo_of h1 h2, rot_rot, size_rot, size_rot]
  congr 1
  have hw : correlation (rot a s) (rot c s) = (starRingEnd ℂ) a * c * (energy s : ℝ) := by
    rw [correlation_rot, correlation_self]
  have hE : (energy s : ℂ) ≠ 0 := by exact_mod_cast he
  have hw0 : correlation (rot a s) (rot c s) ≠ 0 := by
    rw [hw]
    exact mul_ne_zero (mul_ne_zero ((map_ne_zero _).2 ha) hcc) hE
  unfold rotation
  rw [if_neg hw0, hw, norm_mul, norm_mul, Complex.norm_conj, Complex.norm_real,
    Real.norm_eq_abs, abs_of_nonneg (energy_nonneg s)]
  have hna : (‖a‖ : ℂ) ≠ 0 := by simpa using ha
  have hnc : (‖c‖ : ℂ) ≠ 0 := by simpa using hcc
  have hss : (size s : ℂ) ≠ 0 := by exact_mod_cast hs
  have hconj : (starRingEnd ℂ) a * a = (‖a‖ : ℂ) ^ 2 := by
    rw [mul_comm, Complex.mul_conj, Complex.normSq_eq_norm_sq]; push_cast; rfl
  push_cast
  field_simp
  linear_combination hconj

end Gpa
end Menpofit
