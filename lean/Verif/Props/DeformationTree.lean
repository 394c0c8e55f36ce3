import Verif.Lemmas.DeformationTree
import Mathlib.Analysis.SpecialFunctions.Pow.Real
/-!
# C106: the default deformation graph of an APS
-/

namespace Menpofit
open MI Mst Spec

variable {n N : Nat}

/-- **C106** (weights): the weights are symmetric, zero on the diagonal, and off the diagonal a fixed
increasing function of the relativeSpread of the two points' relative position over the shapes. -/
theorem C106_weights {shapes : Fin N → Pts n 2} {W} (h : weights shapes = .ok W) :
    (∀ i, W i i = 0) ∧ (∀ i j, W i j = W j i) ∧
    ∀ i j, i ≠ j → relativeSpread shapes i j ≠ 0 ∧
      W i j = N * Real.log (2 * Real.pi) + N / 2 * Real.log (relativeSpread shapes i j) + (N - 1) := by
  obtain ⟨hN, h1, h2⟩ := weights_ok h
  refine ⟨h1, fun i j => ?_, fun i j hij => ⟨?_, h2 i j hij⟩⟩
  · by_cases e : i = j
    · rw [e]
    · rw [h2 i j e, h2 j i (Ne.symm e), closedWeight, closedWeight, spread_symm]
  · by_cases h1 : N = 1
    · exfalso
      subst h1
      unfold weights at h
      rw [if_neg one_ne_zero] at h
      have h1 := (loop_ok shapes one_ne_zero _ _ _ h).1
      have key : ∀ i j : Fin n, i < j → False := by
        intro i j hlt
        have := h1 (i, j) ((mem_pairs i j).2 hlt)
        rw [edge_eq one_ne_zero, if_pos rfl] at this
        cases this
      rcases lt_or_gt_of_ne hij with hlt | hlt
      · exact key i j hlt
      · exact key j i hlt
    · exact (weights_iff shapes (by omega)).1 ⟨W, h⟩ i j hij

/-- **C106** (refusals): with at least three shapes, the graph can be made exactly when no relative
position of two points is confined to a line over the shapes. -/
theorem C106_accepts (shapes : Fin N → Pts n 2) (hN : 3 ≤ N) :
    (∃ W, weights shapes = .ok W) ↔ ∀ i j, i ≠ j → relativeSpread shapes i j ≠ 0 :=
  weights_iff shapes (by omega)

/-- **C106** (refusals): with at most two shapes of at least two points it is always refused. -/
theorem C106_refuses (shapes : Fin N → Pts n 2) (hN : N ≤ 2) (hn : 2 ≤ n) : ∃ e, weights shapes = .error e := by
  cases h : weights shapes with
  | error e => exact ⟨e, rfl⟩
  | ok W =>
    exfalso
    have hne : (⟨0, by omega⟩ : Fin n) ≠ ⟨1, by omega⟩ := by simp
    have hs := ((C106_weights h).2.2 _ _ hne).1
    obtain rfl | rfl | rfl : N = 0 ∨ N = 1 ∨ N = 2 := by omega
    · simp [weights] at h
    · apply hs; simp [relativeSpread]
    · exact hs (spread_two shapes _ _)

/-- **C106** (invariance of the weights): neither the order of the shapes nor moving every shape by a
translation of its own changes the weights; a linear map of all shapes adds the same constant to all of
them. -/
theorem C106_moved (shapes : Fin N → Pts n 2) (a b c d : ℝ) (hA : a * d - b * c ≠ 0)
    (t : Fin N → Fin 2 → ℝ) (σ : Equiv.Perm (Fin N)) {W} (h : weights shapes = .ok W) :
    ∃ W', weights (Moved a b c d t (shapes ∘ σ)) = .ok W' ∧
      (∀ i, W' i i = 0) ∧ ∀ i j, i ≠ j → W' i j = W i j + N * Real.log |a * d - b * c| := by
  obtain ⟨hN, h1, h2⟩ := weights_ok h
  have hs : ∀ i j, relativeSpread (Moved a b c d t (shapes ∘ σ)) i j = (a * d - b * c) ^ 2 * relativeSpread shapes i j := by
    intro i j; rw [spread_moved, spread_perm]
  have hsp : ∀ i j, i ≠ j → relativeSpread shapes i j ≠ 0 := fun i j hij => ((C106_weights h).2.2 i j hij).1
  have hex : ∃ W', weights (Moved a b c d t (shapes ∘ σ)) = .ok W' := by
    by_cases h2N : 2 ≤ N
    · rw [weights_iff _ h2N]
      intro i j hij
      rw [hs]
      exact mul_ne_zero (pow_ne_zero 2 hA) (hsp i j hij)
    · have hN1 : N = 1 := by omega
      subst hN1
      have hnp : pairs n = [] := by
        rw [List.eq_nil_iff_forall_not_mem]
        rintro ⟨i, j⟩ hp
        have := (mem_pairs i j).1 hp
        exact hsp i j (ne_of_lt this) (by simp [relativeSpread])
      exact ⟨fun _ _ => 0, by simp [weights, hnp, weightsLoop]⟩
  obtain ⟨W', hW'⟩ := hex
  obtain ⟨-, g1, g2⟩ := weights_ok hW'
  refine ⟨W', hW', g1, fun i j hij => ?_⟩
  rw [g2 i j hij, h2 i j hij, closedWeight, closedWeight, hs,
    Real.log_mul (pow_ne_zero 2 hA) (hsp i j hij), Real.log_pow, Real.log_abs]
  push_cast
  ring

/-- **C106** (tree, part): the minimum spanning trees are the same for shapes given in another order,
each moved by its own translation, and all by the same linear map, provided no weight happens to be
zero before or after. -/
theorem C106_tree_partial (shapes : Fin N → Pts n 2) (a b c d : ℝ) (hA : a * d - b * c ≠ 0)
    (t : Fin N → Fin 2 → ℝ) (σ : Equiv.Perm (Fin N)) {W W'} (h : weights shapes = .ok W)
    (h' : weights (Moved a b c d t (shapes ∘ σ)) = .ok W')
    (h0 : ∀ i j, i ≠ j → W i j ≠ 0) (h0' : ∀ i j, i ≠ j → W' i j ≠ 0) (T : SimpleGraph (Fin n)) :
    IsMinimumTree W T ↔ IsMinimumTree W' T := by
  obtain ⟨V, hV, -, hc⟩ := C106_moved shapes a b c d hA t σ h
  rw [h'] at hV
  injection hV with hV
  subst hV
  exact minimumTree_shift hc h0 h0' T

/-- Three shapes of two points: the second point is at the origin, the first at `(0, 0)`, `(s, 0)` and
`(0, s)`. -/
noncomputable def movingCorner (s : ℝ) : Fin 3 → Pts 2 2 := fun k ij =>
  if (k = 1 ∧ ij = (0, 0)) ∨ (k = 2 ∧ ij = (0, 1)) then s else 0

theorem spread_corner (s : ℝ) : relativeSpread (movingCorner s) 0 1 = s ^ 4 / 12 := by
  simp [relativeSpread, movingCorner, Fin.sum_univ_three]
  ring

theorem corner_ok {s : ℝ} (hs : s ≠ 0) : ∃ W, weights (movingCorner s) = .ok W := by
  rw [C106_accepts _ (le_refl 3)]
  have h : relativeSpread (movingCorner s) 0 1 ≠ 0 := by rw [spread_corner]; positivity
  intro i j hij
  match i, j with
  | 0, 1 => exact h
  | 1, 0 => rw [spread_symm]; exact h
  | 0, 0 => exact absurd rfl hij
  | 1, 1 => exact absurd rfl hij

/-- The scale at which the weight of the edge is zero. -/
noncomputable def vanishingEdges : ℝ :=
  Real.exp ((Real.log 12 - 2 * Real.log (2 * Real.pi) - 4 / 3) / 4)

theorem vanishing_pos : 0 < vanishingEdges := Real.exp_pos _

theorem corner_weight {s : ℝ} (hs : 0 < s) {W} (h : weights (movingCorner s) = .ok W) :
    W 0 1 = 6 * (Real.log s - Real.log vanishingEdges) := by
  rw [((C106_weights h).2.2 0 1 (by decide)).2, spread_corner, Real.log_div (by positivity) (by norm_num),
    Real.log_pow, vanishingEdges, Real.log_exp]
  push_cast
  ring

theorem two_points_top {T : SimpleGraph (Fin 2)} (h : T.Connected) : T = ⊤ := by
  have hadj : T.Adj 0 1 := by
    obtain ⟨p⟩ := h.preconnected 0 1
    have := p.adj_snd (SimpleGraph.Walk.not_nil_of_ne (by decide))
    obtain ⟨v, hv⟩ : ∃ v, v = p.snd := ⟨_, rfl⟩
    rw [← hv] at this
    match v, this with
    | 0, h => exact absurd h (T.irrefl)
    | 1, h => exact h
  ext a b
  rw [SimpleGraph.top_adj]
  match a, b with
  | 0, 0 => simp
  | 1, 1 => simp
  | 0, 1 => simp [hadj]
  | 1, 0 => simp [hadj.symm]

/-- The only tree on two points. -/
theorem two_points (W : Fin 2 → Fin 2 → ℝ) (hsym : W 0 1 = W 1 0) :
    (∃ T, IsMinimumTree W T) ↔ W 0 1 ≠ 0 := by
  constructor
  · rintro ⟨T, ⟨hT, h⟩, -⟩
    have := two_points_top hT.1
    subst this
    exact h 0 1 (by simp)
  · intro h
    have htree : (⊤ : SimpleGraph (Fin 2)).IsTree :=
      SimpleGraph.isTree_of_minimal_connected
        ⟨SimpleGraph.connected_top, fun T hT _ => (two_points_top hT).ge⟩
    refine ⟨⊤, ⟨htree, ?_⟩, ?_⟩
    · intro i j hij
      match i, j with
      | 0, 1 => exact h
      | 1, 0 => rw [← hsym]; exact h
      | 0, 0 => exact absurd rfl hij.ne
      | 1, 1 => exact absurd rfl hij.ne
    · intro T' hT'
      rw [two_points_top hT'.1.1]

/-- The hypotheses of the theorems above are met by three shapes of two points. -/
example : ∃ W, weights (movingCorner (2 * vanishingEdges)) = .ok W ∧ W 0 1 ≠ 0 := by
  have hp : 0 < 2 * vanishingEdges := mul_pos two_pos vanishing_pos
  obtain ⟨W, hW⟩ := corner_ok hp.ne'
  refine ⟨W, hW, ?_⟩
  rw [corner_weight hp hW, Real.log_mul two_ne_zero vanishing_pos.ne', add_sub_cancel_right]
  exact mul_ne_zero (by norm_num) (Real.log_pos one_lt_two).ne'

/-- **C106** (tree, violated): a weight can be exactly zero, and zero stands for "no edge".  Three
shapes of two points have a deformation tree, and after halving them they have none. -/
theorem C106_tree_violated :
    ∃ (s : ℝ) (W W' : Fin 2 → Fin 2 → ℝ), 0 < s ∧ weights (movingCorner (2 * s)) = .ok W ∧
      weights (movingCorner s) = .ok W' ∧ (∃ T, IsMinimumTree W T) ∧ ¬ ∃ T, IsMinimumTree W' T := by
  have hp : 0 < 2 * vanishingEdges := mul_pos two_pos vanishing_pos
  obtain ⟨W, hW⟩ := corner_ok hp.ne'
  obtain ⟨W', hW'⟩ := corner_ok vanishing_pos.ne'
  refine ⟨vanishingEdges, W, W', vanishing_pos, hW, hW', ?_, ?_⟩
  · rw [two_points W ((C106_weights hW).2.1 0 1), corner_weight hp hW,
      Real.log_mul two_ne_zero vanishing_pos.ne', add_sub_cancel_right]
    exact mul_ne_zero (by norm_num) (Real.log_pos one_lt_two).ne'
  · rw [two_points W' ((C106_weights hW').2.1 0 1), corner_weight vanishing_pos hW', sub_self, mul_zero]
    simp

end Menpofit
