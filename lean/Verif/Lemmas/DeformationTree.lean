import Verif.Spec.DeformationTree
import Mathlib.Tactic.FieldSimp
import Mathlib.Tactic.Linarith
/-!
# Lemmas for the default deformation graph
-/

namespace Menpofit
namespace Mst
open MI Spec

variable {n N : Nat}

theorem cov_eq (hN : N ≠ 0) (x y : Fin N → ℝ) :
    cov x y = (∑ k, x k * y k - (∑ k, x k) * (∑ k, y k) / N) / (N - 1) := by
  have hN' : (N : ℝ) ≠ 0 := Nat.cast_ne_zero.2 hN
  unfold cov
  congr 1
  have : ∀ mx my : ℝ, ∑ k, (x k - mx) * (y k - my) =
      ∑ k, x k * y k - mx * ∑ k, y k - my * ∑ k, x k + N * (mx * my) := by
    intro mx my
    have h : ∀ k, (x k - mx) * (y k - my) = x k * y k - mx * y k - my * x k + mx * my := fun k => by ring
    rw [Finset.sum_congr rfl fun k _ => h k]
    simp only [Finset.sum_add_distrib, Finset.sum_sub_distrib, ← Finset.mul_sum, Finset.sum_const,
      Finset.card_univ, Fintype.card_fin, nsmul_eq_mul]
    ring
  rw [this, mean, mean]
  generalize ∑ k, x k = a
  generalize ∑ k, y k = b
  field_simp
  ring

theorem spread_eq (hN : N ≠ 0) (shapes : Fin N → Pts n 2) (i j : Fin n) :
    cov (diff shapes i j 0) (diff shapes i j 0) * cov (diff shapes i j 1) (diff shapes i j 1) -
      cov (diff shapes i j 0) (diff shapes i j 1) * cov (diff shapes i j 0) (diff shapes i j 1) =
      relativeSpread shapes i j := by
  rw [cov_eq hN, cov_eq hN, cov_eq hN]
  have f : ∀ d k, shapes k (i, d) - shapes k (j, d) = diff shapes i j d k := fun d k => rfl
  simp only [relativeSpread, f]
  generalize diff shapes i j 0 = x
  generalize diff shapes i j 1 = y
  have e : ∀ z : Fin N → ℝ, ∑ k, z k ^ 2 = ∑ k, z k * z k := fun z =>
    Finset.sum_congr rfl fun k _ => pow_two _
  rw [e x, e y]
  generalize ∑ k, x k * x k = a
  generalize ∑ k, y k * y k = b
  generalize ∑ k, x k * y k = c
  generalize ∑ k, x k = u
  generalize ∑ k, y k = v
  generalize (N : ℝ) - 1 = m
  ring

theorem cov_comm (x y : Fin N → ℝ) : cov x y = cov y x := by
  unfold cov
  congr 1
  exact Finset.sum_congr rfl fun k _ => mul_comm _ _

/-- The log-likelihood of the data under their own Gaussian. -/
theorem edge_value (hN : 2 ≤ N) (x y : Fin N → ℝ) (hd : cov x x * cov y y - cov x y * cov x y ≠ 0) :
    ∑ k, -Real.log (pdf (x k) (y k) (mean x) (mean y) (cov x x) (cov x y) (cov y y)) =
      N * Real.log (2 * Real.pi) + N / 2 * Real.log (cov x x * cov y y - cov x y * cov x y) + (N - 1) := by
  obtain ⟨D, hD⟩ : ∃ D, D = cov x x * cov y y - cov x y * cov x y := ⟨_, rfl⟩
  rw [← hD] at hd ⊢
  have hN1 : (N : ℝ) - 1 ≠ 0 := by
    have : (2 : ℝ) ≤ N := by exact_mod_cast hN
    linarith
  have e : ∀ k, -Real.log (pdf (x k) (y k) (mean x) (mean y) (cov x x) (cov x y) (cov y y)) =
      (Real.log (2 * Real.pi) + 1 / 2 * Real.log D) +
      (1 / 2 / D) * (cov y y * ((x k - mean x) * (x k - mean x)) -
        2 * cov x y * ((x k - mean x) * (y k - mean y)) + cov x x * ((y k - mean y) * (y k - mean y))) := by
    intro k
    simp only [pdf, Real.log_exp, ← hD]
    field_simp
  simp only [e, Finset.sum_add_distrib, Finset.sum_sub_distrib, ← Finset.mul_sum, Finset.sum_const,
    Finset.card_univ, Fintype.card_fin, nsmul_eq_mul]
  have s1 : ∑ k, (x k - mean x) * (x k - mean x) = cov x x * (N - 1) := by
    unfold cov; rw [div_mul_cancel₀ _ hN1]
  have s2 : ∑ k, (x k - mean x) * (y k - mean y) = cov x y * (N - 1) := by
    unfold cov; rw [div_mul_cancel₀ _ hN1]
  have s3 : ∑ k, (y k - mean y) * (y k - mean y) = cov y y * (N - 1) := by
    unfold cov; rw [div_mul_cancel₀ _ hN1]
  rw [s1, s2, s3]
  have : cov y y * (cov x x * ((N : ℝ) - 1)) - 2 * cov x y * (cov x y * (N - 1)) +
      cov x x * (cov y y * (N - 1)) = 2 * D * (N - 1) := by rw [hD]; ring
  rw [this]
  field_simp

theorem spread_symm (shapes : Fin N → Pts n 2) (i j : Fin n) : relativeSpread shapes i j = relativeSpread shapes j i := by
  simp only [relativeSpread]
  have e : ∀ d k, shapes k (i, d) - shapes k (j, d) = -(shapes k (j, d) - shapes k (i, d)) := fun d k => by ring
  simp only [e 0, e 1, neg_sq, Finset.sum_neg_distrib, neg_mul_neg]

/-- The weight of an edge in closed form. -/
noncomputable def closedWeight (shapes : Fin N → Pts n 2) (i j : Fin n) : ℝ :=
  N * Real.log (2 * Real.pi) + N / 2 * Real.log (relativeSpread shapes i j) + (N - 1)

theorem edge_eq (hN : N ≠ 0) (shapes : Fin N → Pts n 2) (i j : Fin n) :
    edge shapes i j = if N = 1 then .error .valueError else if relativeSpread shapes i j = 0 then .error .linAlgError
      else .ok (closedWeight shapes i j) := by
  simp only [edge]
  rw [spread_eq hN]
  split
  · rfl
  · split
    · rfl
    · rename_i h1 h2
      rw [← spread_eq hN] at h2
      rw [edge_value (by omega) _ _ h2, spread_eq hN]
      rfl

theorem mem_pairs (i j : Fin n) : (i, j) ∈ pairs n ↔ i < j := by
  simp [pairs]

theorem loop_ok (shapes : Fin N → Pts n 2) (hN : N ≠ 0) :
    ∀ (ps : List (Fin n × Fin n)) (W W' : Fin n → Fin n → ℝ), weightsLoop shapes ps W = .ok W' →
      (∀ p ∈ ps, edge shapes p.1 p.2 = .ok (closedWeight shapes p.1 p.2)) ∧
      ∀ a b, W' a b = if (a, b) ∈ ps ∨ (b, a) ∈ ps then closedWeight shapes a b else W a b := by
  intro ps
  induction ps with
  | nil => intro W W' h; injection h with h; subst h; simp
  | cons p ps ih =>
    intro W W' h
    obtain ⟨i, j⟩ := p
    simp only [weightsLoop] at h
    cases he : edge shapes i j with
    | error e => rw [he] at h; cases h
    | ok w =>
      rw [he] at h
      have hw : w = closedWeight shapes i j := by
        rw [edge_eq hN] at he
        split at he
        · cases he
        · split at he
          · cases he
          · injection he with he; exact he.symm
      obtain ⟨h1, h2⟩ := ih _ _ h
      refine ⟨?_, ?_⟩
      · intro p hp
        rcases List.mem_cons.1 hp with rfl | hp
        · rw [he, hw]
        · exact h1 p hp
      · intro a b
        rw [h2]
        have hs : closedWeight shapes j i = closedWeight shapes i j := by
          rw [closedWeight, closedWeight, spread_symm]
        by_cases hm : (a, b) ∈ ps ∨ (b, a) ∈ ps
        · rw [if_pos hm, if_pos]
          rcases hm with hm | hm
          · exact .inl (List.mem_cons_of_mem _ hm)
          · exact .inr (List.mem_cons_of_mem _ hm)
        · rw [if_neg hm]
          simp only [setWeight]
          push Not at hm
          by_cases h1 : a = i ∧ b = j
          · obtain ⟨rfl, rfl⟩ := h1
            simp [hw]
          · rw [if_neg h1]
            by_cases h2 : a = j ∧ b = i
            · obtain ⟨rfl, rfl⟩ := h2
              simp [hw, hs]
            · rw [if_neg h2, if_neg]
              simp only [List.mem_cons, Prod.mk.injEq, hm.1, hm.2, or_false]
              tauto

theorem loop_error (shapes : Fin N → Pts n 2) :
    ∀ (ps : List (Fin n × Fin n)) (W : Fin n → Fin n → ℝ) e, weightsLoop shapes ps W = .error e →
      ∃ p ∈ ps, edge shapes p.1 p.2 = .error e := by
  intro ps
  induction ps with
  | nil => intro W e h; cases h
  | cons p ps ih =>
    intro W e h
    obtain ⟨i, j⟩ := p
    simp only [weightsLoop] at h
    cases he : edge shapes i j with
    | error e' => rw [he] at h; injection h with h; subst h; exact ⟨(i, j), by simp, he⟩
    | ok w =>
      rw [he] at h
      obtain ⟨p, hp, h'⟩ := ih _ _ h
      exact ⟨p, List.mem_cons_of_mem _ hp, h'⟩

/-- The matrix of weights in closed form. -/
theorem weights_ok {shapes : Fin N → Pts n 2} {W} (h : weights shapes = .ok W) :
    N ≠ 0 ∧ (∀ i, W i i = 0) ∧ ∀ i j, i ≠ j → W i j = closedWeight shapes i j := by
  unfold weights at h
  split at h
  · cases h
  · rename_i hN
    obtain ⟨-, h2⟩ := loop_ok shapes hN _ _ _ h
    refine ⟨hN, fun i => ?_, fun i j hij => ?_⟩
    · rw [h2]; simp [mem_pairs]
    · rw [h2, if_pos]
      rw [mem_pairs, mem_pairs]
      exact lt_or_gt_of_ne hij

theorem weights_iff (shapes : Fin N → Pts n 2) (hN : 2 ≤ N) :
    (∃ W, weights shapes = .ok W) ↔ ∀ i j, i ≠ j → relativeSpread shapes i j ≠ 0 := by
  have hN0 : N ≠ 0 := by omega
  constructor
  · rintro ⟨W, h⟩ i j hij
    unfold weights at h
    rw [if_neg hN0] at h
    have h1 := (loop_ok shapes hN0 _ _ _ h).1
    have key : ∀ i j, i < j → relativeSpread shapes i j ≠ 0 := by
      intro i j hlt h0
      have := h1 (i, j) ((mem_pairs i j).2 hlt)
      rw [edge_eq hN0, if_neg (by omega), if_pos h0] at this
      cases this
    rcases lt_or_gt_of_ne hij with hlt | hlt
    · exact key i j hlt
    · rw [spread_symm]; exact key j i hlt
  · intro h
    unfold weights
    rw [if_neg hN0]
    cases hw : weightsLoop shapes (pairs n) fun _ _ => 0 with
    | ok W => exact ⟨W, rfl⟩
    | error e =>
      obtain ⟨⟨i, j⟩, hp, he⟩ := loop_error shapes _ _ _ hw
      rw [edge_eq hN0, if_neg (by omega), if_neg (h i j (ne_of_lt ((mem_pairs i j).1 hp)))] at he
      cases he

/-- Two shapes: the differences lie on a line. -/
theorem spread_two (shapes : Fin 2 → Pts n 2) (i j : Fin n) : relativeSpread shapes i j = 0 := by
  simp only [relativeSpread, Fin.sum_univ_two]
  push_cast
  ring

theorem spread_moved (a b c d : ℝ) (t : Fin N → Fin 2 → ℝ) (shapes : Fin N → Pts n 2) (i j : Fin n) :
    relativeSpread (Moved a b c d t shapes) i j = (a * d - b * c) ^ 2 * relativeSpread shapes i j := by
  obtain ⟨x, hx⟩ : ∃ x : Fin N → ℝ, x = fun k => shapes k (i, 0) - shapes k (j, 0) := ⟨_, rfl⟩
  obtain ⟨y, hy⟩ : ∃ y : Fin N → ℝ, y = fun k => shapes k (i, 1) - shapes k (j, 1) := ⟨_, rfl⟩
  have e0 : ∀ k, Moved a b c d t shapes k (i, 0) - Moved a b c d t shapes k (j, 0) = a * x k + b * y k := by
    intro k; simp [Moved, hx, hy]; ring
  have e1 : ∀ k, Moved a b c d t shapes k (i, 1) - Moved a b c d t shapes k (j, 1) = c * x k + d * y k := by
    intro k; simp [Moved, hx, hy]; ring
  have f0 : ∀ k, shapes k (i, 0) - shapes k (j, 0) = x k := fun k => by rw [hx]
  have f1 : ∀ k, shapes k (i, 1) - shapes k (j, 1) = y k := fun k => by rw [hy]
  simp only [relativeSpread, e0, e1, f0, f1]
  have g : ∀ p q r s : ℝ, ∑ k, (p * x k + q * y k) * (r * x k + s * y k) =
      p * r * ∑ k, x k ^ 2 + (p * s + q * r) * ∑ k, x k * y k + q * s * ∑ k, y k ^ 2 := by
    intro p q r s
    simp only [Finset.mul_sum, ← Finset.sum_add_distrib]
    exact Finset.sum_congr rfl fun k _ => by ring
  simp only [pow_two (_ * x _ + _ * y _), g, Finset.sum_add_distrib, ← Finset.mul_sum]
  ring

theorem spread_perm (σ : Equiv.Perm (Fin N)) (shapes : Fin N → Pts n 2) (i j : Fin n) :
    relativeSpread (shapes ∘ σ) i j = relativeSpread shapes i j := by
  simp only [relativeSpread, Function.comp]
  rw [Equiv.sum_comp σ fun k => (shapes k (i, 0) - shapes k (j, 0)) ^ 2,
    Equiv.sum_comp σ fun k => shapes k (i, 0) - shapes k (j, 0),
    Equiv.sum_comp σ fun k => (shapes k (i, 1) - shapes k (j, 1)) ^ 2,
    Equiv.sum_comp σ fun k => shapes k (i, 1) - shapes k (j, 1),
    Equiv.sum_comp σ fun k => (shapes k (i, 0) - shapes k (j, 0)) * (shapes k (i, 1) - shapes k (j, 1))]

/-- Adding a constant to all weights adds a constant to the weight of all trees. -/
theorem totalWeight_shift {W W' : Fin n → Fin n → ℝ} {c : ℝ} (h : ∀ i j, i ≠ j → W' i j = W i j + c)
    {T : SimpleGraph (Fin n)} (hT : T.IsTree) : totalWeight W' T = totalWeight W T + (n - 1) * c := by
  classical
  have hcard := hT.card_edgeFinset
  have hdeg := T.sum_degrees_eq_twice_card_edges
  have e : ∑ i, ∑ j, (if T.Adj i j then W' i j else 0) =
      ∑ i, ∑ j, (if T.Adj i j then W i j else 0) + (∑ i, T.degree i : ℕ) * c := by
    push_cast
    rw [Finset.sum_mul, ← Finset.sum_add_distrib]
    refine Finset.sum_congr rfl fun i _ => ?_
    have : (T.degree i : ℝ) * c = ∑ j, if T.Adj i j then c else 0 := by
      rw [← Finset.sum_filter, Finset.sum_const, nsmul_eq_mul, ← T.card_neighborFinset_eq_degree]
      congr 2
      apply congrArg Finset.card
      ext j; simp
    rw [this, ← Finset.sum_add_distrib]
    refine Finset.sum_congr rfl fun j _ => ?_
    split
    · rename_i hadj; exact h i j hadj.ne
    · simp
  have e2 : ((∑ i, T.degree i : ℕ) : ℝ) = 2 * (n - 1) := by
    rw [hdeg]
    rw [Fintype.card_fin] at hcard
    have : (T.edgeFinset.card : ℝ) + 1 = n := by exact_mod_cast hcard
    push_cast
    linarith
  unfold totalWeight
  have e3 : ∀ V : Fin n → Fin n → ℝ, ∑ i, ∑ j, (open Classical in if T.Adj i j then V i j else 0) =
      ∑ i, ∑ j, (if T.Adj i j then V i j else 0) := by
    intro V
    refine Finset.sum_congr rfl fun i _ => Finset.sum_congr rfl fun j _ => ?_
    congr
  rw [e3, e3, e, e2]
  ring

theorem minimumTree_shift {W W' : Fin n → Fin n → ℝ} {c : ℝ} (h : ∀ i j, i ≠ j → W' i j = W i j + c)
    (h0 : ∀ i j, i ≠ j → W i j ≠ 0) (h0' : ∀ i j, i ≠ j → W' i j ≠ 0) (T : SimpleGraph (Fin n)) :
    IsMinimumTree W T ↔ IsMinimumTree W' T := by
  have ht : ∀ T, IsTreeOf W T ↔ T.IsTree := fun T => ⟨fun h => h.1, fun h => ⟨h, fun i j hij => h0 i j hij.ne⟩⟩
  have ht' : ∀ T, IsTreeOf W' T ↔ T.IsTree := fun T => ⟨fun h => h.1, fun h => ⟨h, fun i j hij => h0' i j hij.ne⟩⟩
  simp only [IsMinimumTree, ht, ht']
  refine and_congr_right fun hT => forall_congr' fun T' => forall_congr' fun hT' => ?_
  rw [totalWeight_shift h hT, totalWeight_shift h hT']
  exact (add_le_add_iff_right _).symm

end Mst
end Menpofit
