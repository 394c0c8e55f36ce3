import Verif.Lemmas.CorrelationFilter
import Mathlib.Tactic.FieldSimp
/-!
# C38, C39: correlation filters
-/

namespace Menpofit
open Matrix ComplexConjugate Cf Spec

variable {F : Type} {k D : Nat}

/-! ## C38 -/

/-- At every frequency of every channel the single-channel (MOSSE) filter is the unique minimiser
of the summed squared response error plus the regulariser. -/
theorem C38_mosse_minimises (back : Spectrum k D → F) (X : List (Spectrum k D)) (y : Fin D → ℂ)
    (l : ℝ) (hl : 0 < l) :
    ∃ f : Spectrum k D, (mosse back X y l).f = back f ∧ ∀ c j,
      OnlyMin (filterCost l (X.map fun x (_ : Fin 1) => x c j) (y j)) (fun _ => f c j) := by
  refine ⟨_, rfl, fun c j => filterCost_min hl _ _ _ (fun _ => ?_)⟩
  rw [mosseSums_eq]
  simp only [mosseFilter, List.map_map, Function.comp_def, Finset.univ_unique,
    Finset.sum_singleton]
  set S : ℂ := (X.map fun x => conj (x c j) * y j).sum with hS
  have e : ∀ z : ℂ, (X.map fun x => conj (x c j) * (z * x c j - y j)).sum =
      z * (X.map fun x => conj (x c j) * x c j).sum - S := by
    intro z
    rw [hS]
    clear hS S
    induction X with
    | nil => simp
    | cons x X ih =>
      simp only [List.map_cons, List.sum_cons]
      rw [ih]
      ring
  rw [e]
  set B : ℂ := (X.map fun x => conj (x c j) * x c j).sum with hB
  have hBr : B = (((X.map fun x => Complex.normSq (x c j)).sum : ℝ) : ℂ) := by
    rw [hB]
    clear hB B e hS S
    induction X with
    | nil => simp
    | cons x X ih =>
      simp only [List.map_cons, List.sum_cons, Complex.ofReal_add]
      rw [ih, Complex.normSq_eq_conj_mul_self]
  have hne : B + (l : ℂ) ≠ 0 := by
    rw [hBr, ← Complex.ofReal_add]
    have := list_sum_nonneg X (fun x => Complex.normSq (x c j)) (fun x => Complex.normSq_nonneg _)
    exact Complex.ofReal_ne_zero.mpr (by linarith)
  field_simp
  ring

/-- At every frequency the multi-channel filter is the unique minimiser of the summed squared
error of the response (summed over channels) plus the regulariser. -/
theorem C38_mccf_minimises (back : (Ix k D → ℂ) → F) (X : List (Spectrum k D)) (y : Fin D → ℂ)
    (l : ℝ) (hl : 0 < l) :
    ∃ f : Ix k D → ℂ, (mccf back X y l).f = back f ∧ ∀ j,
      OnlyMin (filterCost l (X.map fun x c => x c j) (y j)) (fun c => f (c, j)) := by
  refine ⟨_, rfl, fun j => filterCost_min hl _ _ _ (fun c => ?_)⟩
  have hd := mccf_det X y hl (w := 1) zero_le_one
  rw [Complex.ofReal_one, one_smul] at hd
  have hs : ((mccfSums X y).2 + (l : ℂ) • (1 : Matrix (Ix k D) (Ix k D) ℂ)) *ᵥ
      mccfFilter (mccfSums X y).1 (mccfSums X y).2 l = (mccfSums X y).1 := by
    unfold mccfFilter
    rw [mulVec_mulVec, mul_nonsing_inv _ (isUnit_iff_ne_zero.mpr hd), one_mulVec]
  have := mccf_normal X y l (mccfFilter (mccfSums X y).1 (mccfSums X y).2 l) c j
  rw [hs, sub_self] at this
  rw [List.map_map]
  exact this.symm

/-- The outputs of training depend on the images only as a multiset. -/
theorem C38_order_irrelevant (back : Spectrum k D → F) (back' : (Ix k D → ℂ) → F)
    {X Z : List (Spectrum k D)} (h : X.Perm Z) (y : Fin D → ℂ) (l : ℝ) :
    mosse back X y l = mosse back Z y l ∧ mccf back' X y l = mccf back' Z y l := by
  have h1 : mosseSums X y = mosseSums Z y := by
    rw [mosseSums_eq, mosseSums_eq]
    congr 1
    · funext c j; exact (h.map _).sum_eq
    · funext c j; exact (h.map _).sum_eq
  have h2 : mccfSums X y = mccfSums Z y := by
    rw [mccfSums_eq, mccfSums_eq]
    congr 1
    · exact (h.map _).sum_eq
    · exact (h.map _).sum_eq
  unfold mosse mccf
  rw [h1, h2]
  exact ⟨rfl, rfl⟩

/-- Non-vacuity: the cost distinguishes filters (one image, one channel, value 1, target 1). -/
example : filterCost 1 [fun _ : Fin 1 => (1 : ℂ)] 1 (fun _ => 0) ≠
    filterCost 1 [fun _ : Fin 1 => (1 : ℂ)] 1 (fun _ => 1 / 2) := by
  simp only [filterCost, List.map_cons, List.map_nil, List.sum_cons, List.sum_nil,
    Finset.univ_unique, Finset.sum_const, Finset.card_singleton, one_smul]
  norm_num [Complex.normSq_apply]

/-! ## C39 -/

/-- A client that trains on one image and increments with one image at a time. -/
noncomputable def mosseOneByOne (back : Spectrum k D → F) (y : Fin D → ℂ) (l : ℝ)
    (first : Spectrum k D) (rest : List (Spectrum k D)) : ℕ × MosseOut F k D :=
  rest.foldl (fun s z => (s.1 + 1, imosse back s.2.sXY s.2.sXX s.1 [z] y l 1))
    (1, mosse back [first] y l)

/-- Training on one image and incrementing with single images yields the batch filter on all of
them for the regulariser `n * l`, where `n` is the number of images.  (Missing: the same
regulariser, and sets of several images, see `C39_increment_eq_batch_violated`.) -/
theorem C39_one_by_one_partial (back : Spectrum k D → F) (y : Fin D → ℂ) (l : ℝ)
    (first : Spectrum k D) (rest : List (Spectrum k D)) :
    (mosseOneByOne back y l first rest).2.f =
      (mosse back (first :: rest) y ((rest.length + 1) * l)).f := by
  have key : ∀ (rest pre : List (Spectrum k D)) (o : MosseOut F k D), pre ≠ [] →
      (∀ c j, (pre.length : ℂ) * o.sXY c j = (mosseSums pre y).1 c j) →
      (∀ c j, (pre.length : ℂ) * o.sXX c j = (mosseSums pre y).2 c j) →
      o.f = back (mosseFilter o.sXY o.sXX l) →
      (rest.foldl (fun (s : ℕ × MosseOut F k D) z =>
        (s.1 + 1, imosse back s.2.sXY s.2.sXX s.1 [z] y l 1)) (pre.length, o)).2.f =
      (mosse back (pre ++ rest) y ((pre ++ rest).length * l)).f := by
    intro rest
    induction rest with
    | nil =>
      intro pre o hp h1 h2 h3
      rw [List.foldl_nil, h3, List.append_nil]
      unfold mosse
      simp only
      congr 1
      funext c j
      have hn : (pre.length : ℂ) ≠ 0 := by
        rw [Nat.cast_ne_zero]; exact fun h => hp (List.length_eq_zero_iff.mp h)
      simp only [mosseFilter]
      rw [← h1, ← h2]
      push_cast
      rw [← mul_add, mul_div_mul_left _ _ hn]
    | cons z rest ih =>
      intro pre o hp h1 h2 h3
      rw [List.foldl_cons]
      simp only
      have hlen : (pre ++ [z]).length = pre.length + 1 := by simp
      have := ih (pre ++ [z]) (imosse back o.sXY o.sXX pre.length [z] y l 1) (by simp) ?_ ?_ rfl
      · rw [hlen] at this
        rw [this, List.append_assoc]
        simp
      · intro c j
        rw [mosseSums_append, hlen]
        simp only [Pi.add_apply, ← h1, imosse]
        have hn : (pre.length : ℂ) + 1 ≠ 0 := by
          have : ((pre.length + 1 : ℕ) : ℂ) ≠ 0 := by
            rw [Nat.cast_ne_zero]; omega
          simpa using this
        simp
        field_simp
      · intro c j
        rw [mosseSums_append, hlen]
        simp only [Pi.add_apply, ← h2, imosse]
        have hn : (pre.length : ℂ) + 1 ≠ 0 := by
          have : ((pre.length + 1 : ℕ) : ℂ) ≠ 0 := by
            rw [Nat.cast_ne_zero]; omega
          simpa using this
        simp
        field_simp
  have := key rest [first] (mosse back [first] y l) (by simp)
    (fun c j => by simp [mosse]) (fun c j => by simp [mosse]) rfl
  unfold mosseOneByOne
  simp only [List.length_singleton, List.singleton_append, List.length_cons] at this
  refine Eq.trans this ?_
  push_cast
  rfl

/-- Already for two one-pixel images, training on the first and incrementing with the second (with
the right count and no forgetting) differs from training on both, for every regulariser. -/
theorem C39_increment_eq_batch_violated (l : ℝ) (hl : 0 < l) :
    ∃ (x : Spectrum 1 1) (y : Fin 1 → ℂ),
      (imosse id (mosse id [x] y l).sXY (mosse id [x] y l).sXX 1 [x] y l 1).f ≠
        (mosse id [x, x] y l).f := by
  refine ⟨fun _ _ => 1, fun _ => 1, fun h => ?_⟩
  have h2 := congrFun (congrFun h 0) 0
  simp only [imosse, mosse, mosseSums_eq, mosseFilter, id] at h2
  simp at h2
  have h3 : (1 / (1 + l) : ℝ) = 2 / (2 + l) := by
    have e : ((1 / (1 + l) : ℝ) : ℂ) = ((2 / (2 + l) : ℝ) : ℂ) := by
      push_cast
      norm_num at h2
      rw [one_div]
      exact h2
    exact_mod_cast e
  rw [div_eq_div_iff (by linarith) (by linarith)] at h3
  linarith

/-- The ensemble of experts: training on one example and incrementing with a second one succeeds and
differs from training on both, for every regulariser. -/
theorem C39_ensemble_violated (l : ℝ) (hl : 0 < l) :
    ∃ (x : Spectrum 1 1) (y : Fin 1 → ℂ) (st st' batch : Ensemble (Ix 1 1 → ℂ) 1 1),
      trainEnsemble id y l [[x]] = .ok st ∧ incrementEnsemble id y l st [[x]] = .ok st' ∧
      trainEnsemble id y l [[x], [x]] = .ok batch ∧
      st'.nImages = batch.nImages ∧ st'.experts.map (·.f) ≠ batch.experts.map (·.f) := by
  obtain ⟨x, hx⟩ : ∃ x : Spectrum 1 1, x = fun _ _ => 1 := ⟨_, rfl⟩
  obtain ⟨y, hy⟩ : ∃ y : Fin 1 → ℂ, y = fun _ => 1 := ⟨_, rfl⟩
  refine ⟨x, y, ⟨1, [mccf id [x] y l]⟩, ⟨1 + 1, [imccf id (mccf id [x] y l).sXY
    (mccf id [x] y l).sXX ((1 + 1 : ℕ) : ℝ) [x] y l 1]⟩, ⟨1 + 1, [mccf id [x, x] y l]⟩,
    rfl, rfl, rfl, rfl, fun h => ?_⟩
  simp only [List.map_cons, List.map_nil, List.cons.injEq, and_true] at h
  have hq : ∀ (X : List (Spectrum 1 1)), (∀ z ∈ X, z = x) →
      (mccfSums X y).1 = (fun _ => (X.length : ℂ)) ∧
      (mccfSums X y).2 = (X.length : ℂ) • (1 : Matrix (Ix 1 1) (Ix 1 1) ℂ) := by
    intro X hX
    rw [mccfSums_eq]
    have e1 : (diagX x)ᴴ *ᵥ y = fun _ => (1 : ℂ) := by
      funext ⟨c, j⟩
      rw [diagXH_mulVec, hx, hy]; simp
    have e2 : (diagX x)ᴴ * diagX x = (1 : Matrix (Ix 1 1) (Ix 1 1) ℂ) := by
      ext ⟨c, j⟩ ⟨c', j'⟩
      rw [Subsingleton.elim c 0, Subsingleton.elim j 0, Subsingleton.elim c' 0,
        Subsingleton.elim j' 0]
      simp [Matrix.mul_apply, diagX, hx]
    induction X with
    | nil => exact ⟨by funext; simp, by simp⟩
    | cons z X ih =>
      obtain ⟨i1, i2⟩ := ih (fun w hw => hX w (List.mem_cons_of_mem _ hw))
      simp only at i1 i2
      rw [hX z (by simp)]
      simp only [List.map_cons, List.sum_cons, e1, e2]
      rw [i1, i2]
      constructor
      · funext i; simp [add_comm]
      · rw [List.length_cons]; push_cast; rw [add_smul, one_smul, add_comm]
  have hf : ∀ (a b : ℂ), b + (l : ℂ) ≠ 0 →
      mccfFilter (fun _ => a) (b • (1 : Matrix (Ix 1 1) (Ix 1 1) ℂ)) l = fun _ => a / (b + l) := by
    intro a b hb
    unfold mccfFilter
    rw [← add_smul]
    have : ((b + (l : ℂ)) • (1 : Matrix (Ix 1 1) (Ix 1 1) ℂ))⁻¹ = (b + (l : ℂ))⁻¹ • 1 := by
      apply Matrix.inv_eq_left_inv
      rw [smul_mul_smul_comm, inv_mul_cancel₀ hb, Matrix.one_mul, one_smul]
    rw [this, smul_mulVec, one_mulVec]
    funext i
    simp [div_eq_inv_mul]
  have n1 : (1 : ℂ) + l ≠ 0 := by
    have : ((1 + l : ℝ) : ℂ) ≠ 0 := Complex.ofReal_ne_zero.mpr (by linarith)
    simpa using this
  have n2 : (2 : ℂ) + l ≠ 0 := by
    have : ((2 + l : ℝ) : ℂ) ≠ 0 := Complex.ofReal_ne_zero.mpr (by linarith)
    simpa using this
  obtain ⟨a1, b1⟩ := hq [x] (by simp)
  obtain ⟨a2, b2⟩ := hq [x, x] (by simp)
  simp only [imccf, mccf, a1, b1, a2, b2, id] at h
  have w1 : ((((1 + 1 : ℕ) : ℝ) * 1 / (((1 + 1 : ℕ) : ℝ) * 1 + ((1 : ℕ) : ℝ)) : ℝ) : ℂ) = 2 / 3 := by
    push_cast; norm_num
  have w2 : ((((1 : ℕ) : ℝ) / (((1 + 1 : ℕ) : ℝ) * 1 + ((1 : ℕ) : ℝ)) : ℝ) : ℂ) = 1 / 3 := by
    push_cast; norm_num
  simp only [List.length_cons, List.length_nil, Nat.zero_add] at h
  rw [w1, w2] at h
  have l1 : ((2 / 3 : ℂ) • (fun _ : Ix 1 1 => ((1 : ℕ) : ℂ)) + (1 / 3 : ℂ) • fun _ => ((1 : ℕ) : ℂ)) =
      fun _ => (1 : ℂ) := by
    funext i; simp; norm_num
  have l2 : ((2 / 3 : ℂ) • ((1 : ℕ) : ℂ) • (1 : Matrix (Ix 1 1) (Ix 1 1) ℂ) +
      (1 / 3 : ℂ) • ((1 : ℕ) : ℂ) • (1 : Matrix (Ix 1 1) (Ix 1 1) ℂ)) = (1 : ℂ) • 1 := by
    rw [Nat.cast_one, one_smul, ← add_smul]; norm_num
  rw [l1, l2, hf 1 1 n1, hf _ _ (by push_cast; norm_num; exact n2)] at h
  have h2 := congrFun h (0, 0)
  push_cast at h2
  norm_num at h2
  rw [inv_eq_one_div, div_eq_div_iff n1 n2] at h2
  have h3 : (l : ℂ) = 0 := by linear_combination -h2
  exact hl.ne' (Complex.ofReal_eq_zero.mp h3)

end Menpofit
