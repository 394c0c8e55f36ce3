import Verif.Spec.GaussNewton
import Verif.Lemmas.GaussNewton
import Mathlib.LinearAlgebra.Matrix.Adjugate
/-!
# Properties of the Gauss-Newton algorithms (C16–C19)
-/

set_option linter.unusedSectionVars false

namespace Menpofit
open Matrix GN Optim Spec

section

variable {K : Type} [Field K] [LinearOrder K] [IsStrictOrderedRing K]
variable {n m : Nat} {S Im W E : Type}

/-! ## C17: the regularised step minimises the regularised cost -/

/-- **C17** (AAM project-out and ATM, forward).  Whenever the forward algorithm with
a prior computes an increment, that increment is the only minimiser of the
squared norm of the projected linearised residual plus the prior energy of the
updated parameters. -/
theorem C17_forward_map (env : Env n m K S Im W E) (hQs : env.Qᵀ = env.Q)
    (hQi : env.Q * env.Q = env.Q) (hprior : ∀ i, 0 ≤ env.prior i) (s : PState n m K W)
    (d : Fin n → K) (h : solveForward env true s = .ok d) :
    UniqueMin (fun x => sqNorm (env.Q *ᵥ ((env.mask s.i - env.aBar) + env.jac s.i *ᵥ x)) +
      priorEnergy env.prior (s.p + x)) d := by
  intro d'
  obtain ⟨h1, h2⟩ := mapStep_ok (solveShapeMap_ok h)
  have hH : (env.Q * env.jac s.i)ᵀ * env.jac s.i = (env.jac s.i)ᵀ * env.Q * env.jac s.i := by
    rw [transpose_mul, hQs]
  have hJ : (env.Q * env.jac s.i)ᵀ *ᵥ (env.mask s.i - env.aBar) =
      (env.jac s.i)ᵀ *ᵥ (env.Q *ᵥ (env.mask s.i - env.aBar)) := by
    rw [transpose_mul, hQs, mulVec_mulVec]
  rw [hH] at h1 h2
  rw [hJ] at h2
  have hQp : ∀ x, 0 ≤ x ⬝ᵥ (env.Q *ᵥ x) := fun x => by
    rw [proj_quad hQs hQi]; exact dot_self_nonneg _
  have key := regEnergy_min hQs hQp (env.jac s.i) (env.mask s.i - env.aBar)
    (diagonal_transpose env.prior) (diag_psd hprior) s.p d h1 h2 d'
  have conv : ∀ x, sqNorm (env.Q *ᵥ ((env.mask s.i - env.aBar) + env.jac s.i *ᵥ x)) +
      priorEnergy env.prior (s.p + x) =
      regEnergy env.Q (env.jac s.i) (env.mask s.i - env.aBar) (diagonal env.prior) s.p x := by
    intro x
    unfold regEnergy sqNorm priorEnergy
    rw [proj_quad hQs hQi, diag_quad]
    congr 1
    exact Finset.sum_congr rfl (fun i _ => by ring)
  simp only [conv]
  exact key

/-- **C17** (AAM project-out and ATM, forward), for the update of the parameters: after one
iteration with a prior the new parameters are the only minimiser of the
linearised residual energy plus the prior energy. -/
theorem C17_forward_update (env : Env n m K S Im W E) (hQs : env.Qᵀ = env.Q)
    (hQi : env.Q * env.Q = env.Q) (hprior : ∀ i, 0 ≤ env.prior i) (im : Im)
    (s : PState n m K W) (eps : E) (h : (poStep env false true im s).2 = .ok eps) :
    UniqueMin (fun q => sqNorm (env.Q *ᵥ ((env.mask s.i - env.aBar) + env.jac s.i *ᵥ (q - s.p))) +
      priorEnergy env.prior q) (poStep env false true im s).1.p := by
  unfold poStep at h ⊢
  simp only [Bool.false_eq_true, if_false] at h ⊢
  cases hd : solveForward env true s with
  | error e => rw [hd] at h; cases h
  | ok d =>
    rw [hd] at h
    simp only at h ⊢
    have key := C17_forward_map env hQs hQi hprior s d hd
    have key2 : UniqueMin (fun q => sqNorm (env.Q *ᵥ ((env.mask s.i - env.aBar) +
        env.jac s.i *ᵥ (q - s.p))) + priorEnergy env.prior q) (s.p + d) := by
      intro q
      have k := key (q - s.p)
      simp only [add_sub_cancel, add_sub_cancel_left] at k ⊢
      exact ⟨k.1, fun hq => by rw [← k.2 hq]; abel⟩
    split <;> exact key2

/-- **C17** (AAM simultaneous): appearance and shape increments together minimise the
linearised residual energy plus both prior energies.  The Hessian is `JᵀJ`
(`/repo/menpofit/aam/algorithm/lk.py:1071-1085`). -/
theorem C17_simultaneous_map {k a : Nat} (J : Matrix (Fin k) (Fin (a + n)) K) (e : Fin k → K)
    (priorA c : Fin a → K) (priorS p : Fin n → K) (hA : ∀ i, 0 ≤ priorA i)
    (hS : ∀ i, 0 ≤ priorS i) (dc : Fin a → K) (dp : Fin (a + n - a) → K)
    (h : solveAllMap (Jᵀ * J) J e priorA c priorS p = .ok (dc, dp)) :
    UniqueMin (fun q => sqNorm (e + J *ᵥ q) +
      priorEnergy priorA (fun i => c i + q (Fin.castAdd n i)) +
      priorEnergy priorS (fun i => p i + q (Fin.natAdd a i)))
      (Fin.append dc (fun i => dp (Fin.cast (by omega) i))) := by
  -- the priors and parameters side by side
  set w := Fin.append priorA priorS
  set v := Fin.append c p
  have hstep : ∃ d, (mapStep (Jᵀ * J) J e w v).2 = .ok d ∧
      Fin.append dc (fun i => dp (Fin.cast (by omega) i)) = d := by
    unfold solveAllMap at h
    have fin : ∀ d : Fin (a + n) → K,
        (fun i : Fin a => d (Fin.castLE (by omega) i)) = dc →
        (fun i : Fin (a + n - a) => d ⟨a + i, by omega⟩) = dp →
        Fin.append dc (fun i => dp (Fin.cast (by omega) i)) = d := by
      intro d h1 h2
      funext i
      refine Fin.addCases (fun i => ?_) (fun i => ?_) i
      · rw [Fin.append_left, ← h1]; rfl
      · rw [Fin.append_right, ← h2]; rfl
    by_cases hn : n ≤ 256
    · have hp : pyIs n (a + n - a) = true := by simp [pyIs, hn]
      simp only [hp, if_true, dite_true, Fin.cast_eq_self] at h
      cases hm : (mapStep (Jᵀ * J) J e w v).2 with
      | error e' => rw [hm] at h; cases h
      | ok d =>
        rw [hm] at h
        simp only [Except.map] at h
        injection h with h
        obtain ⟨h1, h2⟩ := Prod.mk.inj h
        exact ⟨d, rfl, fin d h1 h2⟩
    · have hp : pyIs n (a + n - a) = false := by simp [pyIs, hn]
      have h3 : ¬ n = n + n := by omega
      have h3' : ¬ a + n = a + (n + n) := by omega
      simp only [hp, h3', dite_false, Bool.false_eq_true, if_false] at h
      cases h
  obtain ⟨d, hd, he⟩ := hstep
  rw [he]
  intro d'
  obtain ⟨h1, h2⟩ := mapStep_ok hd
  have hw : ∀ i, 0 ≤ w i := by
    intro i
    refine Fin.addCases (fun i => ?_) (fun i => ?_) i
    · simp [w, hA]
    · simp [w, hS]
  have key := regEnergy_min (W := (1 : Matrix (Fin k) (Fin k) K)) transpose_one
    (fun x => by rw [one_mulVec]; exact dot_self_nonneg _) J e (diagonal_transpose w)
    (diag_psd hw) v d (by rwa [Matrix.mul_one]) (by rwa [Matrix.mul_one, one_mulVec]) d'
  have conv : ∀ q, sqNorm (e + J *ᵥ q) +
      priorEnergy priorA (fun i => c i + q (Fin.castAdd n i)) +
      priorEnergy priorS (fun i => p i + q (Fin.natAdd a i)) =
      regEnergy 1 J e (diagonal w) v q := by
    intro q
    unfold regEnergy sqNorm priorEnergy
    rw [diag_quad, one_mulVec, Fin.sum_univ_add]
    simp only [w, v, Fin.append_left, Fin.append_right, Pi.add_apply]
    rw [add_assoc]
    congr 1
    exact Finset.sum_congr rfl (fun i _ => by rw [Pi.add_apply, sq])
  simp only [conv]
  exact key

/-- **C17** (APS, forward): the increment minimises the Mahalanobis energies of the
linearised residual and of the updated parameters. -/
theorem C17_aps_forward (J : Matrix (Fin m) (Fin n) K) (Qa : Matrix (Fin m) (Fin m) K)
    (Hs : Matrix (Fin n) (Fin n) K) (e : Fin m → K) (p d : Fin n → K)
    (hQ : Qaᵀ = Qa) (hQp : ∀ x, 0 ≤ x ⬝ᵥ (Qa *ᵥ x))
    (hH : Hsᵀ = Hs) (hHp : ∀ x, 0 ≤ x ⬝ᵥ (Hs *ᵥ x))
    (h : apsForwardStep J Qa Hs e p = .ok d) :
    UniqueMin (fun x => (e + J *ᵥ x) ⬝ᵥ (Qa *ᵥ (e + J *ᵥ x)) +
      (p + x) ⬝ᵥ (Hs *ᵥ (p + x))) d := by
  intro d'
  obtain ⟨h1, h2⟩ := npSolve_ok (map_neg_ok h)
  rw [transpose_mul, hQ] at h1 h2
  refine regEnergy_min hQ hQp J e hH hHp p d h1 ?_ d'
  rw [mulVec_mulVec, ← h2, mulVec_neg, neg_neg]

/-- **C17** (CLM, with prior): the increment minimises the distance of the linearised
shape change to the wanted one plus the prior energy of the updated parameters. -/
theorem C17_clm_map (J : Matrix (Fin m) (Fin n) K) (prior : Fin n → K) (error : Fin m → K)
    (p d : Fin n → K) (hprior : ∀ i, 0 ≤ prior i) (h : clmMapStep J prior error p = .ok d) :
    UniqueMin (fun x => sqNorm (error - J *ᵥ x) + priorEnergy prior (p + x)) d := by
  intro d'
  unfold clmMapStep at h
  cases hi : npInv (Jᵀ * J + diagonal prior) with
  | error e => rw [hi] at h; cases h
  | ok G =>
    rw [hi] at h
    simp only [bind, Except.bind, pure, Except.pure] at h
    injection h with h
    obtain ⟨h1, h2⟩ := npInv_ok hi
    have key := regEnergy_min (W := (1 : Matrix (Fin m) (Fin m) K)) transpose_one
      (fun x => by rw [one_mulVec]; exact dot_self_nonneg _) J (-error)
      (diagonal_transpose prior) (diag_psd hprior) p d (by rwa [Matrix.mul_one])
      (by
        rw [Matrix.mul_one, one_mulVec, ← h, mulVec_neg, mulVec_mulVec, h2, one_mulVec, mulVec_neg]
        congr 1
        have : diagonal prior *ᵥ p = prior * p := by funext i; simp [mulVec_diagonal]
        rw [this]; abel) d'
    have conv : ∀ x, sqNorm (error - J *ᵥ x) + priorEnergy prior (p + x) =
        regEnergy 1 J (-error) (diagonal prior) p x := by
      intro x
      unfold regEnergy sqNorm priorEnergy
      rw [diag_quad, one_mulVec]
      congr 1
      simp only [dotProduct, Pi.sub_apply, Pi.add_apply, Pi.neg_apply]
      exact Finset.sum_congr rfl (fun i _ => by ring)
    simp only [conv]
    exact key

/-! ## C18: with zero residual a prior never pushes the parameters away -/

/-- **C18** (partial: forward algorithms; AAM and ATM).  With a zero residual one update
with a prior does not increase the prior energy of the parameters. -/
theorem C18_prior_forward_partial (env : Env n m K S Im W E) (hQs : env.Qᵀ = env.Q)
    (hQi : env.Q * env.Q = env.Q) (hprior : ∀ i, 0 ≤ env.prior i) (im : Im)
    (s : PState n m K W) (h0 : env.mask s.i = env.aBar) (eps : E)
    (h : (poStep env false true im s).2 = .ok eps) :
    priorEnergy env.prior (poStep env false true im s).1.p ≤ priorEnergy env.prior s.p := by
  have key := (C17_forward_update env hQs hQi hprior im s eps h s.p).1
  simp only [h0, sub_self, zero_add, mulVec_zero] at key
  have h1 : (0 : K) ≤ sqNorm (env.Q *ᵥ (env.jac s.i *ᵥ ((poStep env false true im s).1.p - s.p))) :=
    Finset.sum_nonneg (fun i _ => sq_nonneg _)
  have h2 : sqNorm (0 : Fin m → K) = 0 := by simp [sqNorm]
  linarith

/-- **C18** (partial: CLM). -/
theorem C18_prior_clm_partial (J : Matrix (Fin m) (Fin n) K) (prior : Fin n → K)
    (p d : Fin n → K) (hprior : ∀ i, 0 ≤ prior i) (h : clmMapStep J prior 0 p = .ok d) :
    priorEnergy prior (p + d) ≤ priorEnergy prior p := by
  have key := (C17_clm_map J prior 0 p d hprior h 0).1
  simp only [mulVec_zero, sub_self, add_zero] at key
  have h1 : (0 : K) ≤ sqNorm (0 - J *ᵥ d) := Finset.sum_nonneg (fun i _ => sq_nonneg _)
  have h2 : sqNorm (0 : Fin m → K) = 0 := by simp [sqNorm]
  linarith

/-- **C18** (partial: APS, forward). -/
theorem C18_prior_aps_forward_partial (J : Matrix (Fin m) (Fin n) K)
    (Qa : Matrix (Fin m) (Fin m) K) (Hs : Matrix (Fin n) (Fin n) K) (p d : Fin n → K)
    (hQ : Qaᵀ = Qa) (hQp : ∀ x, 0 ≤ x ⬝ᵥ (Qa *ᵥ x))
    (hH : Hsᵀ = Hs) (hHp : ∀ x, 0 ≤ x ⬝ᵥ (Hs *ᵥ x))
    (h : apsForwardStep J Qa Hs 0 p = .ok d) :
    (p + d) ⬝ᵥ (Hs *ᵥ (p + d)) ≤ p ⬝ᵥ (Hs *ᵥ p) := by
  have key := (C17_aps_forward J Qa Hs 0 p d hQ hQp hH hHp h 0).1
  simp only [mulVec_zero, zero_add, add_zero, dotProduct_zero] at key
  have := hQp (J *ᵥ d)
  linarith

/-- **C18** (partial: APS, inverse, without the Procrustes option).  The inverse APS
algorithm subtracts its increment and has the matching sign. -/
theorem C18_prior_aps_inverse_partial (J : Matrix (Fin m) (Fin n) K)
    (Qa : Matrix (Fin m) (Fin m) K) (Hs : Matrix (Fin n) (Fin n) K) (p p' : Fin n → K)
    (hQ : Qaᵀ = Qa) (hQp : ∀ x, 0 ≤ x ⬝ᵥ (Qa *ᵥ x))
    (hH : Hsᵀ = Hs) (hHp : ∀ x, 0 ≤ x ⬝ᵥ (Hs *ᵥ x))
    (h : apsInverseUpdate J Qa Hs 0 p p = .ok p') :
    p' ⬝ᵥ (Hs *ᵥ p') ≤ p ⬝ᵥ (Hs *ᵥ p) := by
  unfold apsInverseUpdate at h
  simp only at h
  cases hi : npInv ((Qa * J)ᵀ * J + Hs) with
  | error e => rw [hi] at h; cases h
  | ok G =>
    rw [hi] at h
    simp only [bind, Except.bind, pure, Except.pure] at h
    injection h with h
    obtain ⟨h1, h2⟩ := npInv_ok hi
    rw [transpose_mul, hQ] at h1 h2
    have key := (regEnergy_min hQ hQp J 0 hH hHp p (p' - p) h1 (by
      rw [← h, sub_sub_cancel_left, mulVec_neg, mulVec_mulVec, h2]; simp) 0).1
    unfold regEnergy at key
    simp only [mulVec_zero, zero_add, add_zero, dotProduct_zero, add_sub_cancel] at key
    have := hQp (J *ᵥ (p' - p))
    linarith

/-- **C18** fails for the inverse AAM and ATM algorithms, always: whatever runs were made
before with the algorithm object, with a zero residual and a positive prior one
iteration strictly increases the prior energy, unless the parameters are already
zero. -/
theorem C18_prior_inverse_violated [LinearOrder E] (env : Env n m K S Im W E)
    (hQs : env.Qᵀ = env.Q) (hQi : env.Q * env.Q = env.Q) (hprior : ∀ i, 0 < env.prior i)
    (J : Matrix (Fin m) (Fin n) K) (cache : Cache n m K) (hc : precompute env.Q J = .ok cache)
    (tol : E) (hist : List (Input S Im E)) (im : Im) (s : PState n m K W)
    (hs : s.cache = afterRuns env true tol cache hist) (h0 : env.mask s.i = env.aBar)
    (hp : s.p ≠ 0) (hn : n ≤ 256) :
    priorEnergy env.prior s.p < priorEnergy env.prior (poStep env true true im s).1.p := by
  have hHp : ∀ x, 0 ≤ x ⬝ᵥ (s.cache.JQJ *ᵥ x) := by
    rw [hs]
    exact afterRuns_psd env hQs hQi (fun i => (hprior i).le) tol hc hist
  have hpd : ∀ x, x ≠ 0 → 0 < x ⬝ᵥ ((s.cache.JQJ + diagonal env.prior) *ᵥ x) := by
    intro x hx
    rw [add_mulVec, dotProduct_add]
    have := hHp x
    have := diag_pos hprior x hx
    linarith
  have hdet := det_ne_zero_of_pos hpd
  have hok : ∃ d, (mapStep s.cache.JQJ s.cache.QJ (env.mask s.i - env.aBar) env.prior s.p).2 =
      .ok d := by
    unfold mapStep npSolve
    simp only [hdet, if_false, Except.map]
    exact ⟨_, rfl⟩
  obtain ⟨d, hd⟩ := hok
  have hstep : (poStep env true true im s).1.p = s.p - d := by
    unfold poStep
    simp only [if_true, solveInverse]
    rw [solveShapeMap_same hn, hd]
    simp only
    split <;> rfl
  rw [hstep]
  obtain ⟨-, h2⟩ := mapStep_ok hd
  rw [h0, sub_self, mulVec_zero, zero_add] at h2
  -- u = -d solves (H + Λ) u = Λ p
  set M := s.cache.JQJ + diagonal env.prior
  set u := -d with hu
  have h3 : M *ᵥ u = diagonal env.prior *ᵥ s.p := by rw [hu, mulVec_neg, h2, neg_neg]
  have hu0 : u ≠ 0 := by
    intro h; rw [h, mulVec_zero] at h3
    have := diag_pos hprior s.p hp
    rw [← h3, dotProduct_zero] at this
    exact lt_irrefl _ this
  have e1 : s.p - d = s.p + (1 : K) • u := by rw [hu, one_smul, sub_eq_add_neg]
  have conv : ∀ x, priorEnergy env.prior x = x ⬝ᵥ (diagonal env.prior *ᵥ x) := by
    intro x; rw [diag_quad]; rfl
  rw [conv, conv, e1, psd_add_smul (diagonal_transpose env.prior), ← h3]
  have := hpd u hu0
  have := diag_pos hprior u hu0
  nlinarith

/-! ## C19: the MAP solver and the number of parameters -/

/-- **C19** fails: with more than 256 parameters the regularised AAM/ATM step raises
`ValueError`, for the forward and the inverse algorithms, whatever the image. -/
theorem C19_map_violated (env : Env n m K S Im W E) (hn : 256 < n) (s : PState n m K W) :
    solveForward env true s = .error .valueError ∧
    (solveInverse env true s).2 = .error .valueError := by
  constructor
  · simp only [solveForward, if_true]; rw [solveShapeMap_big hn]
  · simp only [solveInverse, if_true]; rw [solveShapeMap_big hn]

/-- **C19** fails for the simultaneous algorithms in the same way. -/
theorem C19_map_simultaneous_violated {k a : Nat} (hn : 256 < n)
    (J : Matrix (Fin k) (Fin (a + n)) K) (e : Fin k → K) (priorA c : Fin a → K)
    (priorS p : Fin n → K) :
    solveAllMap (Jᵀ * J) J e priorA c priorS p = .error .valueError := by
  have h1 : ¬ n ≤ 256 := by omega
  have h2 : ¬ a + n = a + (n + n) := by omega
  unfold solveAllMap pyIs
  simp [h1, h2]
  omega

/-- **C19** (partial: at most 256 shape parameters).  With a positive prior the forward and
simultaneous regularised steps always succeed. -/
theorem C19_map_partial (env : Env n m K S Im W E) (hQs : env.Qᵀ = env.Q)
    (hQi : env.Q * env.Q = env.Q) (hprior : ∀ i, 0 < env.prior i) (hn : n ≤ 256)
    (s : PState n m K W) : ∃ d, solveForward env true s = .ok d := by
  have hH : (env.Q * env.jac s.i)ᵀ * env.jac s.i = (env.jac s.i)ᵀ * env.Q * env.jac s.i := by
    rw [transpose_mul, hQs]
  have hpd : ∀ x, x ≠ 0 → 0 < x ⬝ᵥ (((env.Q * env.jac s.i)ᵀ * env.jac s.i +
      diagonal env.prior) *ᵥ x) := by
    intro x hx
    rw [hH, add_mulVec, dotProduct_add, ← mulVec_mulVec, ← mulVec_mulVec, dot_transpose,
      proj_quad hQs hQi]
    have := dot_self_nonneg (env.Q *ᵥ (env.jac s.i *ᵥ x))
    have := diag_pos hprior x hx
    linarith
  have hdet := det_ne_zero_of_pos hpd
  simp only [solveForward, if_true]
  rw [solveShapeMap_same hn]
  unfold mapStep npSolve
  simp only [hdet, if_false, Except.map]
  exact ⟨_, rfl⟩

/-- **C19** (partial: at most 256 shape parameters, any number of appearance parameters). -/
theorem C19_map_simultaneous_partial {k a : Nat} (hn : n ≤ 256)
    (J : Matrix (Fin k) (Fin (a + n)) K) (e : Fin k → K) (priorA c : Fin a → K)
    (priorS p : Fin n → K) (hA : ∀ i, 0 < priorA i) (hS : ∀ i, 0 < priorS i) :
    ∃ r, solveAllMap (Jᵀ * J) J e priorA c priorS p = .ok r := by
  have hp : pyIs n (a + n - a) = true := by simp [pyIs, hn]
  have hw : ∀ i, 0 < Fin.append priorA priorS i := by
    intro i
    refine Fin.addCases (fun i => ?_) (fun i => ?_) i
    · simp [hA]
    · simp [hS]
  have hpd : ∀ x, x ≠ 0 → 0 < x ⬝ᵥ ((Jᵀ * J + diagonal (Fin.append priorA priorS)) *ᵥ x) := by
    intro x hx
    rw [add_mulVec, dotProduct_add, ← mulVec_mulVec, dot_transpose]
    have := dot_self_nonneg (J *ᵥ x)
    have := diag_pos hw x hx
    linarith
  have hdet := det_ne_zero_of_pos hpd
  unfold solveAllMap
  simp only [hp, if_true, dite_true, Fin.cast_eq_self]
  unfold mapStep npSolve
  simp only [hdet, if_false, Except.map]
  exact ⟨_, rfl⟩

/-! ## C16: fits are repeatable -/

/-- **C16** (partial: every case except a MAP run of an inverse algorithm after an earlier
MAP run).  What a run returns does not depend on the runs made before with the
same algorithm object. -/
theorem C16_repeatable_partial [LinearOrder E] (env : Env n m K S Im W E) (inverse : Bool)
    (tol : E) (cache : Cache n m K) (hist : List (Input S Im E)) (x : Input S Im E)
    (hok : inverse = false ∨ x.map = false ∨ ∀ y ∈ hist, y.map = false) :
    (poRun env inverse tol (afterRuns env inverse tol cache hist) x).2 =
      (poRun env inverse tol cache x).2 := by
  -- a run that is forward or without prior leaves the cache alone
  have clean : ∀ (y : Input S Im E) (c : Cache n m K), (inverse = false ∨ y.map = false) →
      (poRun env inverse tol c y).1 = c := by
    intro y c hy
    unfold poRun
    simp only
    cases hw : env.warp y.im (env.setTarget y.init) with
    | error e => rfl
    | ok i =>
      simp only
      refine loop_inv _ false y.maxIters tol (fun st : PState n m K W => st.cache = c) ?_ _ 0 none _ _ rfl rfl
      intro a ha
      have hr : (if inverse then solveInverse env y.map a else (a.cache, solveForward env y.map a)).1
          = c := by
        rcases hy with rfl | hy
        · exact ha
        · rw [hy]; cases inverse <;> simp [solveInverse, ha]
      show (poStep env inverse y.map y.im a).1.cache = c
      unfold poStep
      simp only
      split
      · exact hr
      · split <;> exact hr
  -- every run leaves the pseudo-inverse alone
  have pinv : ∀ (y : Input S Im E) (c : Cache n m K),
      (poRun env inverse tol c y).1.pinvQJ = c.pinvQJ := by
    intro y c
    unfold poRun
    simp only
    cases hw : env.warp y.im (env.setTarget y.init) with
    | error e => rfl
    | ok i =>
      simp only
      refine loop_inv _ false y.maxIters tol (fun st : PState n m K W => st.cache.pinvQJ = c.pinvQJ) ?_ _ 0 none _ _
        rfl rfl
      intro a ha
      have hr : (if inverse then solveInverse env y.map a
          else (a.cache, solveForward env y.map a)).1.pinvQJ = c.pinvQJ := by
        cases inverse
        · exact ha
        · cases y.map <;> simp [solveInverse, ha]
      show (poStep env inverse y.map y.im a).1.cache.pinvQJ = c.pinvQJ
      unfold poStep
      simp only
      split
      · exact hr
      · split <;> exact hr
  by_cases hclean : inverse = false ∨ ∀ y ∈ hist, y.map = false
  · have : afterRuns env inverse tol cache hist = cache := by
      unfold afterRuns
      induction hist with
      | nil => rfl
      | cons y ys ih =>
        rw [List.foldl_cons, clean y cache (by
          rcases hclean with h | h
          · exact Or.inl h
          · exact Or.inr (h y (by simp)))]
        refine ih ?_ ?_
        · rcases hclean with h | h
          · exact Or.inl h
          · exact Or.inr (Or.inr fun z hz => h z (by simp [hz]))
        · rcases hclean with h | h
          · exact Or.inl h
          · exact Or.inr fun z hz => h z (by simp [hz])
    rw [this]
  · have hx : x.map = false := by
      rcases hok with h | h | h
      · exact absurd (Or.inl h) hclean
      · exact h
      · exact absurd (Or.inr h) hclean
    have hinv : inverse = true := by
      cases inverse
      · exact absurd (Or.inl rfl) hclean
      · rfl
    have hpinv : (afterRuns env inverse tol cache hist).pinvQJ = cache.pinvQJ := by
      unfold afterRuns
      clear hok hclean
      induction hist generalizing cache with
      | nil => rfl
      | cons y ys ih => rw [List.foldl_cons, ih, pinv]
    unfold poRun
    simp only
    cases hw : env.warp x.im (env.setTarget x.init) with
    | error e => rfl
    | ok i =>
      simp only
      refine (loop_sim _ false x.maxIters tol
        (fun a b => a.p = b.p ∧ a.i = b.i ∧ a.cache.pinvQJ = b.cache.pinvQJ) ?_ ?_ _ 0 none _ _ _
        rfl ⟨rfl, rfl, hpinv⟩).2
      · rintro a b ⟨h1, h2, -⟩
        simp [poMachine, h1, h2]
      · rintro ⟨ca, pa, ia⟩ ⟨cb, pb, ib⟩ ⟨h1, h2, h3⟩
        simp only at h1 h2 h3
        subst h1 h2 hinv
        simp only [poMachine, hx, poStep, solveInverse, if_true, Bool.false_eq_true, if_false, h3]
        cases env.warp x.im (pa - -(cb.pinvQJ *ᵥ (env.mask ia - env.aBar))) with
        | error e => simp [h3]
        | ok i' => simp [h3]

end

/-! ### Witnesses -/

/-- One parameter, one pixel whose value is the parameter; template 0, prior 1. -/
def toyEnv : Env 1 1 Rat Rat Unit Rat Rat where
  setTarget s := fun _ => s
  target p := p 0
  warp _ p := .ok (p 0)
  mask w := fun _ => w
  jac _ := 1
  aBar := 0
  Q := 1
  prior := 1
  dist a b := |a - b|

/-- The one-by-one matrix with entry `a`. -/
def one1 (a : Rat) : Matrix (Fin 1) (Fin 1) Rat := Matrix.of fun _ _ => a

theorem one1_ext {A B : Matrix (Fin 1) (Fin 1) Rat} (h : A 0 0 = B 0 0) : A = B := by
  ext i j; fin_cases i; fin_cases j; exact h

theorem one1_one : (1 : Matrix (Fin 1) (Fin 1) Rat) = one1 1 := one1_ext (by simp [one1])

theorem inv_one1 (a : Rat) : (one1 a)⁻¹ = one1 a⁻¹ := by
  rw [Matrix.inv_def]
  apply one1_ext
  simp [one1, Matrix.det_fin_one]

theorem mapStep_toy (h x p : Rat) (hh : h + 1 ≠ 0) :
    mapStep (one1 h) (one1 1) (fun _ => x) (1 : Fin 1 → Rat) (fun _ => p) =
    (one1 (h + 1), .ok (fun _ => -((p + x) / (h + 1)))) := by
  have e : one1 h + diagonal 1 = one1 (h + 1) := one1_ext (by simp [one1])
  have hd : (one1 (h + 1)).det ≠ 0 := by
    rw [Matrix.det_fin_one]; exact hh
  unfold mapStep npSolve
  simp only [e]
  rw [if_neg hd, inv_one1]
  simp only [Except.map]
  congr 2
  funext i
  simp [one1, mulVec, dotProduct]
  field_simp
  try ring

/-- The cache of the toy problem with Hessian `h`. -/
def toyCache (h : Rat) : Cache 1 1 Rat := ⟨one1 1, one1 h, one1 1⟩

/-- One MAP iteration from the shape `1`. -/
def toyInput : Input Rat Unit Rat := ⟨(), 1, 1, false, true⟩

theorem toy_run (h : Rat) (hh : h + 1 ≠ 0) :
    poRun toyEnv true 0 (toyCache h) toyInput =
      (toyCache (h + 1), .ok ⟨[1, 1 + 2 / (h + 1)], [fun _ => 1, fun _ => 1 + 2 / (h + 1)], none⟩) := by
  have hstep : (poMachine toyEnv true true ()).step ⟨toyCache h, fun _ => 1, 1⟩ =
      (⟨toyCache (h + 1), fun _ => 1 + 2 / (h + 1), 1 + 2 / (h + 1)⟩,
        .ok |1 - (1 + 2 / (h + 1))|) := by
    have hm := mapStep_toy h 1 1 hh
    simp only [poMachine, poStep, solveInverse, if_true, toyCache, toyEnv, sub_zero]
    rw [solveShapeMap_same (by norm_num), hm]
    have e : (fun _ => 1 : Fin 1 → Rat) - (fun _ => -((1 + 1) / (h + 1))) =
        fun _ => 1 + 2 / (h + 1) := by
      funext i; simp; norm_num
    simp only [e]
  unfold poRun run toyInput
  simp only [toyEnv]
  rw [loop_unfold]
  simp only [goOn, and_true]
  have := hstep
  unfold toyEnv at this
  rw [if_pos (by norm_num), this]
  simp only
  rw [loop_unfold, if_neg (by norm_num)]
  simp [poMachine]

theorem toy_precompute : precompute toyEnv.Q 1 = .ok (toyCache 1) := by
  simp [precompute, npSolveMat, toyEnv, bind, Except.bind, pure, Except.pure, toyCache,
    ← one1_one]

/-- **C16** fails for MAP fits with an inverse algorithm: the second of two identical
runs returns something else, because the first one changed the cached Hessian. -/
theorem C16_repeatable_violated :
    ∃ (env : Env 1 1 Rat Rat Unit Rat Rat) (J : Matrix (Fin 1) (Fin 1) Rat)
      (cache : Cache 1 1 Rat) (x : Input Rat Unit Rat),
      precompute env.Q J = .ok cache ∧
      (poRun env true 0 (afterRuns env true 0 cache [x]) x).2 ≠ (poRun env true 0 cache x).2 := by
  refine ⟨toyEnv, 1, toyCache 1, toyInput, ?_, ?_⟩
  · exact toy_precompute
  · simp only [afterRuns, List.foldl_cons, List.foldl_nil]
    rw [toy_run 1 (by norm_num), toy_run (1 + 1) (by norm_num)]
    intro h
    injection h with h
    injection h with h1 h2 h3
    norm_num at h1

/-- The hypotheses of the C17/C18/C19 theorems are met by the toy problem: a projection,
a positive prior, a step that succeeds, and a nonzero parameter at zero residual. -/
example : toyEnv.Qᵀ = toyEnv.Q ∧ toyEnv.Q * toyEnv.Q = toyEnv.Q ∧ (∀ i, 0 < toyEnv.prior i) ∧
    ∃ d, solveForward toyEnv true ⟨toyCache 1, fun _ => 1, 1⟩ = .ok d := by
  refine ⟨by simp [toyEnv], by simp [toyEnv], by simp [toyEnv], ?_⟩
  exact C19_map_partial toyEnv (by simp [toyEnv]) (by simp [toyEnv]) (by simp [toyEnv])
    (by norm_num) _

example : ∃ (s : PState 1 1 Rat Rat), precompute toyEnv.Q 1 = .ok (toyCache 1) ∧
    s.cache = afterRuns toyEnv true 0 (toyCache 1) [toyInput] ∧
    toyEnv.mask s.i = toyEnv.aBar ∧ s.p ≠ 0 := by
  refine ⟨⟨afterRuns toyEnv true 0 (toyCache 1) [toyInput], fun _ => 1, 0⟩, toy_precompute, rfl,
    rfl, ?_⟩
  intro h; have := congrFun h 0; simp at this

example : ∃ d : Fin 1 → Rat, clmMapStep (1 : Matrix (Fin 1) (Fin 1) Rat) 1 0 1 = .ok d := by
  have : (1 + 1 : Matrix (Fin 1) (Fin 1) Rat).det ≠ 0 := by simp [Matrix.det_fin_one]
  have e : (1ᵀ * 1 + diagonal 1 : Matrix (Fin 1) (Fin 1) Rat) = 1 + 1 := by simp
  simp only [clmMapStep, npInv, e, this, if_false, bind, Except.bind, pure, Except.pure]
  exact ⟨_, rfl⟩

example : ∃ d : Fin 1 → Rat,
    apsForwardStep (1 : Matrix (Fin 1) (Fin 1) Rat) 1 1 0 1 = .ok d := by
  have : (1 + 1 : Matrix (Fin 1) (Fin 1) Rat).det ≠ 0 := by simp [Matrix.det_fin_one]
  have e : ((1 * 1)ᵀ * 1 + 1 : Matrix (Fin 1) (Fin 1) Rat) = 1 + 1 := by simp
  simp only [apsForwardStep, npSolve, e, this, if_false, Except.map]
  exact ⟨_, rfl⟩

end Menpofit
