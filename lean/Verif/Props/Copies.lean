import Verif.Lemmas.Copies
import Verif.Model.Builder
/-!
# C144: how often the whole training set is listed does not matter
-/

namespace Menpofit
open Spec

noncomputable section

/-- C144 (reference shape): the reference shape of a training set that is listed several times is that of the training set. -/
theorem C144_reference_shape {n : Nat} (m : Nat) (hm : 0 < m) (shapes : List (Error.Shape n 2)) (diagonal : Option ℝ) :
    Builder.computeReferenceShape (copies m shapes) diagonal = Builder.computeReferenceShape shapes diagonal := by
  have h : Builder.meanShape (copies m shapes) = Builder.meanShape shapes := by
    unfold Builder.meanShape
    rw [Copies.length]
    have hm' : (m : ℝ) ≠ 0 := Nat.cast_ne_zero.2 (by omega)
    by_cases h0 : shapes.length = 0
    · rw [if_pos h0, if_pos (by rw [h0, Nat.mul_zero])]
    · rw [if_neg h0, if_neg (Nat.mul_ne_zero (by omega) h0)]
      congr 1
      funext i j
      rw [Copies.map, Copies.sum_mul, Nat.cast_mul, mul_div_mul_left _ _ hm']
  unfold Builder.computeReferenceShape
  rw [h]

/-- C144 (alignment): each copy of the training set is aligned as the training set alone. -/
theorem C144_aligned {n : Nat} (m : Nat) (hm : 0 < m) (shapes : List (Gpa.CShape n)) :
    Gpa.alignShapes (copies m shapes) = copies m (Gpa.alignShapes shapes) := by
  have mean : ∀ l : List (Gpa.CShape n), Gpa.mean (copies m l) = Gpa.mean l := by
    intro l
    unfold Gpa.mean
    have hm' : (m : ℂ) ≠ 0 := Nat.cast_ne_zero.2 (by omega)
    funext i
    rw [Copies.map, Copies.sum_mul, Copies.length, Nat.cast_mul, mul_div_mul_left _ _ hm']
  have key : ∀ (r : ℝ) (c : List (Gpa.CShape n)) (k : Nat) (t : Gpa.CShape n),
      Gpa.procrustes r (copies m c) k t = copies m (Gpa.procrustes r c k t) := by
    intro r c k
    induction k with
    | zero => intro t; exact Copies.map _ _ _
    | succ k ih =>
      intro t
      unfold Gpa.procrustes
      simp only [Copies.map, mean, ih]
      split_ifs <;> rfl
  unfold Gpa.alignShapes
  simp only [Copies.map, mean, key]

section Regression
open Reg SdmReg Sdm GN Matrix

variable {K : Type} [Field K] [DecidableEq K] [CharZero K] {d q : Nat}

/-- C144 (regression, part): a regularised linear regressor trained on the samples listed `m` times, with `m` times the
regularisation, has the same coefficients (or raises the same exception) as one trained on the samples.  Without
regularisation the number of copies does not matter at all. -/
theorem C144_regression_partial (m : Nat) (hm : 0 < m) (alpha : K) (bias incrementable : Bool)
    (P : List ((Fin d → K) × (Fin q → K))) :
    ((irlOps (m * alpha) bias incrementable d q).train (copies m (P.map Prod.fst)) (copies m (P.map Prod.snd))).map (·.W) =
      ((irlOps alpha bias incrementable d q).train (P.map Prod.fst) (P.map Prod.snd)).map (·.W) ∧
    ((irlOps 0 bias incrementable d q).train (copies m (P.map Prod.fst)) (copies m (P.map Prod.snd))).map (·.W) =
      ((irlOps (0 : K) bias incrementable d q).train (P.map Prod.fst) (P.map Prod.snd)).map (·.W) :=
  ⟨Copies.train_copies m hm alpha bias incrementable P, by
    have := Copies.train_copies m hm 0 bias incrementable P
    rwa [mul_zero] at this⟩

/-- C144 (supervised descent, part): a cascade of regularised linear regressors (the default) trained on the images listed
`m` times, with `m` times the regularisation, has the same coefficients as one trained on the images, and leaves each copy
of an image with the same shapes. -/
theorem C144_supervised_descent_partial {V I : Type} (m : Nat) (hm : 0 < m) (alpha : K) (bias incrementable : Bool)
    (co : Coord V (Fin q → K)) (feat : I → V → Fin d → K) (junk : Nat → Fin q → K) (nIterations : Nat)
    (T : List (I × V × List V)) (s : Nat) (hs : 0 < s) (hlen : ∀ t ∈ T, t.2.2.length = s) (r)
    (h : Sdm.train (irlOps alpha bias incrementable d q) co feat junk nIterations false []
      (T.map (·.1)) (T.map (·.2.1)) (T.map (·.2.2)) = .ok r) :
    ∃ r', Sdm.train (irlOps (m * alpha) bias incrementable d q) co feat junk nIterations false []
        (copies m (T.map (·.1))) (copies m (T.map (·.2.1))) (copies m (T.map (·.2.2))) = .ok r' ∧
      r'.1.map (·.W) = r.1.map (·.W) ∧ r'.2.1 = copies m r.2.1 := by
  have hT0 : T ≠ [] := by
    rintro rfl
    unfold Sdm.train at h
    split at h
    · cases h
    · cases h
  have hT0' : copies m T ≠ [] := Copies.ne_nil hm hT0
  have hlen' : ∀ t ∈ copies m T, t.2.2.length = s := fun t ht => hlen t (Copies.mem ht)
  rw [← Copies.map, ← Copies.map, ← Copies.map]
  unfold Sdm.train at h ⊢
  simp only [Bool.false_eq_true, false_and, if_false] at h ⊢
  rw [OrderSdm.computeDelta_start co junk T s hT0 hlen] at h
  rw [OrderSdm.computeDelta_start co junk (copies m T) s hT0' hlen']
  simp only [bind, Except.bind] at h ⊢
  rw [← OrderSdm.stages_tag _ co (fun t : I × V × List V => t.1) feat] at h
  have hfst : ∀ T : List (I × V × List V), T = (OrderSdm.start co T).map Prod.fst := by
    intro T; simp [OrderSdm.start, Function.comp_def]
  have hcur : ∀ T : List (I × V × List V), T.map (·.2.2) = OrderSdm.cur (OrderSdm.start co T) := by
    intro T; simp [OrderSdm.start, OrderSdm.cur, Function.comp_def]
  have hne : ∀ x ∈ OrderSdm.start co T, x.2.2 ≠ [] := by
    intro x hx
    simp only [OrderSdm.start, List.mem_map] at hx
    obtain ⟨t, ht, rfl⟩ := hx
    have h1 := hlen t ht
    intro h0
    have h2 : t.2.2 = [] := by simpa using h0
    rw [h2] at h1
    simp at h1
    omega
  have hst : OrderSdm.start co (copies m T) = copies m (OrderSdm.start co T) := Copies.map _ _ _
  rw [hcur T] at h
  have h' : stages (irlOps alpha bias incrementable d q) co (fun t : I × V × List V => feat t.1)
      ((OrderSdm.start co T).map Prod.fst) (OrderSdm.gtRows (OrderSdm.start co T)) false nIterations 0 []
      (OrderSdm.delta (OrderSdm.start co T)) (OrderSdm.cur (OrderSdm.start co T)) = .ok r := by
    rw [← hfst T]; exact h
  obtain ⟨r', a1, a2, a3⟩ := Copies.stages_copies (ops' := irlOps (m * alpha) bias incrementable d q)
    (fun st l => Copies.predictRows_map bias st l alpha incrementable)
    (fun st l => Copies.predictRows_map bias st l (m * alpha) incrementable) (m := m)
    (Q := fun st st' => st'.W = st.W) (fun st st' e => by simp only [Reg.predict, e])
    (fun P st hst => by
      have e := Copies.train_copies m hm alpha bias incrementable P
      rw [hst] at e
      cases ht : (irlOps (m * alpha) bias incrementable d q).train (copies m (P.map Prod.fst)) (copies m (P.map Prod.snd)) with
      | error x => rw [ht] at e; cases e
      | ok st' =>
        rw [ht] at e
        exact ⟨st', rfl, Except.ok.inj e⟩)
    co _ nIterations 0 0 [] [] (OrderSdm.start co T) hne .nil r h'
  rw [← hst, ← hfst (copies m T)] at a1
  refine ⟨r', ?_, ?_, a3⟩
  · rw [← OrderSdm.stages_tag _ co (fun t : I × V × List V => t.1) feat, hcur (copies m T)]
    exact a1
  · have : ∀ (l : List (Irl K (width bias d) q)) (l' : List (Irl K (width bias d) q)),
        List.Forall₂ (fun st st' => st'.W = st.W) l l' → l'.map (·.W) = l.map (·.W) := by
      intro l l' hl
      induction hl with
      | nil => rfl
      | cons h1 _ ih => rw [List.map_cons, List.map_cons, h1, ih]
    exact this _ _ a2

end Regression

section Violated
open Reg SdmReg Sdm GN Matrix

variable {K : Type} [Field K] [LinearOrder K] [IsStrictOrderedRing K] {d q : Nat}

/-- C144 is violated by regularised linear regression, the default regressor of supervised descent: with any positive
regularisation, listing the samples twice or more often changes the coefficients, whatever the samples are, unless the
features are uncorrelated with the targets (all coefficients are then zero). -/
theorem C144_regularisation_violated (m : Nat) (hm : 2 ≤ m) (alpha : K) (ha : 0 < alpha) (bias incrementable : Bool)
    (P : List ((Fin d → K) × (Fin q → K))) (a : Fin (width bias d)) (b : Fin q)
    (hP : (P.map fun p => addBias1 bias p.1 a * p.2 b).sum ≠ 0) :
    ∃ st st', (irlOps alpha bias incrementable d q).train (P.map Prod.fst) (P.map Prod.snd) = .ok st ∧
      (irlOps alpha bias incrementable d q).train (copies m (P.map Prod.fst)) (copies m (P.map Prod.snd)) = .ok st' ∧
      st'.W ≠ st.W := by
  obtain ⟨st, W, h1, h2, h3⟩ := Copies.train_runs alpha ha bias incrementable P
  obtain ⟨st', W', h1', h2', h3'⟩ := Copies.train_runs alpha ha bias incrementable (copies m P)
  rw [Copies.map, Copies.map] at h1'
  refine ⟨st, st', h1, h1', fun e => hP ?_⟩
  rw [h2, h2'] at e
  obtain rfl := Option.some.inj e
  have hN : Reg.normal alpha (addBias bias (stack ((copies m P).map Prod.fst))) =
      (m : K) • Reg.normal alpha (addBias bias (stack (P.map Prod.fst))) - ((m - 1) * alpha) • 1 := by
    rw [normal_eq, normal_eq]
    ext i j
    rw [Matrix.sub_apply, Matrix.smul_apply, Matrix.smul_apply, Matrix.add_apply, Matrix.add_apply, Copies.gram, Copies.gram,
      Copies.map, Copies.map, Copies.sum_mul, smul_eq_mul, smul_eq_mul, Matrix.one_apply, diagonal_apply]
    split_ifs <;> ring
  rw [hN, Matrix.sub_mul, Matrix.smul_mul, h3, Matrix.smul_mul, Matrix.one_mul] at h3'
  have hW : W' = 0 := by
    ext i j
    have h4 := congrFun (congrFun h3' i) j
    rw [Matrix.sub_apply, Matrix.smul_apply, Matrix.smul_apply, of_apply, of_apply, Copies.map, Copies.sum_mul, smul_eq_mul,
      smul_eq_mul] at h4
    have h5 : ((m : K) - 1) * alpha * W' i j = 0 := by linarith
    have h6 : (0 : K) < (m : K) - 1 := by
      have : (2 : K) ≤ (m : K) := by exact_mod_cast hm
      linarith
    rcases mul_eq_zero.1 h5 with h7 | h7
    · exact absurd h7 (mul_pos h6 ha).ne'
    · exact h7
  rw [hW, Matrix.mul_zero] at h3
  have := congrFun (congrFun h3 a) b
  rw [of_apply] at this
  exact this.symm

end Violated

section Filters
open Cf Matrix ComplexConjugate

variable {F : Type} {k D : Nat}

/-- C144 (correlation filters, part): a filter trained on the images listed `m` times, with `m` times the regularisation,
is the filter trained on the images. -/
theorem C144_filters_partial (m : Nat) (hm : 0 < m) (X : List (Spectrum k D)) (y : Fin D → ℂ) (l : ℝ)
    (back : Spectrum k D → F) (back' : (Ix k D → ℂ) → F) :
    (mosse back (copies m X) y (m * l)).f = (mosse back X y l).f ∧
    (mccf back' (copies m X) y (m * l)).f = (mccf back' X y l).f := by
  have hm' : (m : ℂ) ≠ 0 := Nat.cast_ne_zero.2 (by omega)
  constructor
  · show back _ = back _
    congr 1
    rw [mosseSums_eq, mosseSums_eq]
    funext c j
    simp only [mosseFilter, Copies.map, Copies.sum_mul, Complex.ofReal_mul, Complex.ofReal_natCast]
    rw [← mul_add, mul_div_mul_left _ _ hm']
  · show back' _ = back' _
    congr 1
    rw [mccfSums_eq, mccfSums_eq]
    simp only [mccfFilter, Copies.map, Copies.sum, Complex.ofReal_mul, Complex.ofReal_natCast]
    rw [← Nat.cast_smul_eq_nsmul ℂ, ← Nat.cast_smul_eq_nsmul ℂ, mul_smul, ← smul_add, Matrix.mulVec_smul]
    generalize (X.map fun x => (diagX x)ᴴ * diagX x).sum + (l : ℂ) • (1 : Matrix (Ix k D) (Ix k D) ℂ) = N
    by_cases hN : IsUnit N.det
    · have := Matrix.inv_smul' N (Units.mk0 (m : ℂ) hm') hN
      rw [show (Units.mk0 (m : ℂ) hm') • N = (m : ℂ) • N from rfl] at this
      rw [this, show ((Units.mk0 (m : ℂ) hm')⁻¹ • N⁻¹ : Matrix _ _ ℂ) = (m : ℂ)⁻¹ • N⁻¹ from rfl, Matrix.smul_mulVec,
        smul_smul, mul_inv_cancel₀ hm', one_smul]
    · have h1 : ¬ IsUnit ((m : ℂ) • N).det := by
        rw [Matrix.det_smul, isUnit_iff_ne_zero, not_not]
        rw [isUnit_iff_ne_zero, not_not] at hN
        rw [hN, mul_zero]
      rw [Matrix.nonsing_inv_apply_not_isUnit _ hN, Matrix.nonsing_inv_apply_not_isUnit _ h1]
      simp

/-- C144 is violated by correlation filters: with any positive regularisation, listing the images twice or more often changes
the filter, at every frequency at which the images are correlated with the response. -/
theorem C144_filters_violated (m : Nat) (hm : 2 ≤ m) (X : List (Spectrum k D)) (y : Fin D → ℂ) (l : ℝ) (hl : 0 < l)
    (c : Fin k) (j : Fin D) (h : (X.map fun x => conj (x c j) * y j).sum ≠ 0) :
    (mosse id (copies m X) y l).f c j ≠ (mosse id X y l).f c j := by
  obtain ⟨e, he, hee⟩ : ∃ e : ℝ, 0 ≤ e ∧ (X.map fun x => conj (x c j) * x c j).sum = (e : ℂ) := by
    clear h
    induction X with
    | nil => exact ⟨0, le_refl _, by simp⟩
    | cons x X ih =>
      obtain ⟨e, he, hee⟩ := ih
      refine ⟨Complex.normSq (x c j) + e, add_nonneg (Complex.normSq_nonneg _) he, ?_⟩
      rw [List.map_cons, List.sum_cons, hee, Complex.ofReal_add, Complex.normSq_eq_conj_mul_self]
  show mosseFilter _ _ _ _ _ ≠ mosseFilter _ _ _ _ _
  rw [mosseSums_eq, mosseSums_eq]
  simp only [mosseFilter, Copies.map, Copies.sum_mul, hee]
  have hm2 : (2 : ℝ) ≤ m := by exact_mod_cast hm
  have h1 : ((e : ℂ) + (l : ℂ)) ≠ 0 := by
    rw [← Complex.ofReal_add, Complex.ofReal_ne_zero]
    positivity
  have h2 : ((m : ℂ) * (e : ℂ) + (l : ℂ)) ≠ 0 := by
    rw [← Complex.ofReal_natCast, ← Complex.ofReal_mul, ← Complex.ofReal_add, Complex.ofReal_ne_zero]
    have : 0 ≤ (m : ℝ) * e := by positivity
    linarith
  rw [Ne, div_eq_div_iff h2 h1]
  intro h3
  have h4 : (X.map fun x => conj (x c j) * y j).sum * (((m : ℂ) - 1) * (l : ℂ)) = 0 := by linear_combination h3
  rcases mul_eq_zero.1 h4 with h5 | h5
  · exact h h5
  · rcases mul_eq_zero.1 h5 with h6 | h6
    · have : (m : ℝ) - 1 = 0 := by exact_mod_cast h6
      linarith
    · exact hl.ne' (Complex.ofReal_eq_zero.1 h6)

/-- An image correlated with the response: the filter changes from 1/2 to 2/3. -/
example : (mosse id [(fun _ _ => 1 : Spectrum 1 1)] (fun _ => 1) 1).f 0 0 = 1 / 2 ∧
    (mosse id (copies 2 [(fun _ _ => 1 : Spectrum 1 1)]) (fun _ => 1) 1).f 0 0 = 2 / 3 ∧
    (mosse id (copies 2 [(fun _ _ => 1 : Spectrum 1 1)]) (fun _ => 1) (2 * 1)).f 0 0 = 1 / 2 := by
  refine ⟨?_, ?_, ?_⟩ <;>
    simp [mosse, mosseSums_eq, mosseFilter, copies, List.replicate_succ] <;> norm_num

end Filters

section Examples
open Reg SdmReg Sdm GN Matrix

/-- A copied training set of two samples. -/
example : copies 3 [(1 : Nat), 2] = [1, 2, 1, 2, 1, 2] := rfl

/-- A sample correlated with its target. -/
example : (([((fun _ => 2), (fun _ => 3))] : List ((Fin 1 → ℚ) × (Fin 1 → ℚ))).map fun p =>
    addBias1 false p.1 (0 : Fin 1) * p.2 0).sum ≠ 0 := by
  simp [addBias1]

/-- Training sets with an equal, positive number of start shapes on which training succeeds. -/
example (V I : Type) (co : Coord V (Fin 1 → ℚ)) (feat : I → V → Fin 1 → ℚ) (i i' : I) (g g' v v' : V) :
    ∃ r, Sdm.train (irlOps 1 false true 1 1) co feat (fun _ => 0) 1 false []
      ([(i, g, [v]), (i', g', [v'])].map (·.1)) ([(i, g, [v]), (i', g', [v'])].map (·.2.1))
      ([(i, g, [v]), (i', g', [v'])].map (·.2.2)) = .ok r := by
  obtain ⟨st, W, h1, h2, -⟩ := Copies.train_runs (K := ℚ) (d := 1) (q := 1) 1 one_pos false true
    [(feat i v, co.proj g - co.proj v), (feat i' v', co.proj g' - co.proj v')]
  have h1' : (irlOps (1 : ℚ) false true 1 1).train [feat i v, feat i' v']
    [co.proj g - co.proj v, co.proj g' - co.proj v'] = .ok st := h1
  unfold Sdm.train
  simp only [Bool.false_eq_true, false_and, if_false]
  rw [OrderSdm.computeDelta_start co _ [(i, g, [v]), (i', g', [v'])] 1 (by simp) (by simp)]
  show ∃ r, stages _ _ _ [i, i'] _ _ 1 0 [] [co.proj g - co.proj v, co.proj g' - co.proj v'] [[v], [v']] = .ok r
  unfold stages
  have hf : featureRows feat [i, i'] [[v], [v']] = .ok [feat i v, feat i' v'] := rfl
  simp only [hf, bind, Except.bind, Bool.false_eq_true, if_false, h1', Copies.predictRows_map]
  exact ⟨_, rfl⟩

end Examples

end

end Menpofit
