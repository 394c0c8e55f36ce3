import Verif.Lemmas.Unified
import Verif.Lemmas.Result
import Mathlib.LinearAlgebra.Matrix.Notation
/-!
# C57: unified holistic and part-based fitting
-/

namespace Menpofit
open Matrix GN Unified Spec

variable {K : Type} [Field K] [LinearOrder K] [IsStrictOrderedRing K] {n m l : Nat}

/-- C57 (alternating): the increment is the only minimiser of the energy that weighs the holistic term
with `a` and the part-based term with `1 - a` (plus, with a prior, the prior energy of the new
parameters). -/
theorem C57_alternating (Ja : Matrix (Fin m) (Fin n) K) (s : K) (Jc : Matrix (Fin l) (Fin n) K) (r : K)
    (hs : 0 ≤ s) (hr : 0 ≤ r) (prior p d : Fin n → K) (hp : ∀ i, 0 ≤ prior i) (usePrior : Bool) (a : K)
    (ha0 : 0 ≤ a) (ha1 : a ≤ 1) (ea : Fin m → K) (ec : Fin l → K)
    (h : alternatingStep Ja s Jc r prior p usePrior a ea ec = .ok d) :
    UniqueMin (fun x => unifiedEnergy a s r Ja ea Jc ec x +
      if usePrior then priorEnergy prior (p + x) else 0) d := by
  have hu : 0 ≤ a * s := mul_nonneg ha0 hs
  have hv : 0 ≤ (1 - a) * r := mul_nonneg (by linarith) hr
  unfold alternatingStep at h
  cases usePrior with
  | true =>
    simp only [if_true] at h ⊢
    obtain ⟨h1, h2⟩ := npSolve_ok (map_neg_ok h)
    simp only [transpose_smul, Matrix.smul_mul, smul_smul, smul_mulVec] at h1 h2
    have := two_term_min Ja Jc (a * s) ((1 - a) * r) hu hv prior p d hp ea ec h1 (by
      rw [mulVec_neg, neg_eq_iff_eq_neg] at h2
      rw [h2]; abel)
    simpa only [unifiedEnergy, mul_assoc] using this
  | false =>
    simp only [Bool.false_eq_true, if_false] at h ⊢
    obtain ⟨h1, h2⟩ := npSolve_ok h
    simp only [transpose_smul, Matrix.smul_mul, smul_smul, smul_mulVec] at h1 h2
    have d0 : diagonal (0 : Fin n → K) = 0 := diagonal_zero
    have := two_term_min Ja Jc (a * s) ((1 - a) * r) hu hv 0 0 d (fun _ => le_rfl) ea ec
      (by rwa [d0, add_zero]) (by rw [d0, add_zero, h2]; simp)
    have z : ∀ x : Fin n → K, priorEnergy 0 (0 + x) = 0 := by intro x; simp [priorEnergy]
    simpa only [unifiedEnergy, mul_assoc, z] using this

/-- C57 (alternating): with weight 1 the increment is the pure holistic one, with weight 0 the pure
part-based one. -/
theorem C57_alternating_ends (Ja : Matrix (Fin m) (Fin n) K) (s : K) (Jc : Matrix (Fin l) (Fin n) K)
    (r : K) (hs : 0 < s) (hr : 0 < r) (prior p d : Fin n → K) (hp : ∀ i, 0 ≤ prior i) (ea : Fin m → K)
    (ec : Fin l → K) :
    (alternatingStep Ja s Jc r prior p false 1 ea ec = .ok d →
      UniqueMin (fun x => sqNorm (ea - Ja *ᵥ x)) d) ∧
    (alternatingStep Ja s Jc r prior p false 0 ea ec = .ok d →
      UniqueMin (fun x => sqNorm (ec - Jc *ᵥ x)) d) := by
  constructor
  · intro h d'
    obtain ⟨h1, h2⟩ := C57_alternating Ja s Jc r hs.le hr.le prior p d hp false 1 zero_le_one le_rfl
      ea ec h d'
    simp only [unifiedEnergy, sub_self, zero_mul, one_mul, add_zero, Bool.false_eq_true,
      if_false] at h1 h2
    exact ⟨le_of_mul_le_mul_left h1 hs, fun e => h2 (by simp only at e; rw [e])⟩
  · intro h d'
    obtain ⟨h1, h2⟩ := C57_alternating Ja s Jc r hs.le hr.le prior p d hp false 0 le_rfl zero_le_one
      ea ec h d'
    simp only [unifiedEnergy, sub_zero, zero_mul, one_mul, zero_add, add_zero, Bool.false_eq_true,
      if_false] at h1 h2
    exact ⟨le_of_mul_le_mul_left h1 hr, fun e => h2 (by simp only at e; rw [e])⟩

/-- C57 (project-out, without prior): whatever the weight, the increment is the only minimiser of the
sum of the two terms with equal weights, that is, of the interpolating energy for weight one half.
(Missing: every other weight; for fitting with a prior see
`C57_project_out_prior_partial`.) -/
theorem C57_project_out_partial (Ja : Matrix (Fin m) (Fin n) K) (s : K) (Jc : Matrix (Fin l) (Fin n) K)
    (r : K) (hs : 0 ≤ s) (hr : 0 ≤ r) (prior p d : Fin n → K) (a : K) (ea : Fin m → K) (ec : Fin l → K)
    (h : projectOutStep Ja s Jc r prior p false a ea ec = .ok d) :
    UniqueMin (unifiedEnergy (1 / 2) s r Ja ea Jc ec) d := by
  unfold projectOutStep npSolveMat at h
  simp only [transpose_smul, Matrix.smul_mul] at h
  by_cases hdet : (s • (Jaᵀ * Ja) + r • (Jcᵀ * Jc)).det = 0
  · simp only [hdet, if_true, bind, Except.bind] at h
    cases h
  · simp only [hdet, if_false, bind, Except.bind] at h
    cases hi : npInv (s • (Jaᵀ * Ja) + r • (Jcᵀ * Jc) + diagonal prior) with
    | error x => rw [hi] at h; cases h
    | ok G =>
      rw [hi] at h
      simp only [Bool.false_eq_true, if_false, pure, Except.pure] at h
      injection h with h
      have d0 : diagonal (0 : Fin n → K) = 0 := diagonal_zero
      have key := two_term_min Ja Jc s r hs hr 0 0 d (fun _ => le_rfl) ea ec
        (by rwa [d0, add_zero]) (by
          rw [d0, add_zero, ← h, mulVec_add, mulVec_mulVec, mulVec_mulVec, ← Matrix.mul_assoc,
            ← Matrix.mul_assoc, mul_nonsing_inv _ (isUnit_iff_ne_zero.mpr hdet), Matrix.one_mul,
            Matrix.one_mul, smul_mulVec, smul_mulVec]
          simp)
      intro d'
      obtain ⟨h1, h2⟩ := key d'
      have z : ∀ x : Fin n → K, priorEnergy 0 (0 + x) = 0 := by intro x; simp [priorEnergy]
      simp only [z, add_zero] at h1 h2
      have e : ∀ x, unifiedEnergy (1 / 2) s r Ja ea Jc ec x =
          1 / 2 * (s * sqNorm (ea - Ja *ᵥ x) + r * sqNorm (ec - Jc *ᵥ x)) := by
        intro x
        unfold unifiedEnergy
        ring
      simp only [e]
      refine ⟨by linarith, fun heq => h2 ?_⟩
      linarith

/-- C57 (project-out, with prior): the weights are applied to the two errors, not to the two terms.  The increment
is the only minimiser of the sum of the two terms, with the holistic error scaled by `a` and the part-based error by
`1 - a`, plus the prior energy of the new parameters.  (Missing: the interpolating energy.) -/
theorem C57_project_out_prior_partial (Ja : Matrix (Fin m) (Fin n) K) (s : K)
    (Jc : Matrix (Fin l) (Fin n) K) (r : K) (hs : 0 ≤ s) (hr : 0 ≤ r) (prior p d : Fin n → K)
    (hp : ∀ i, 0 ≤ prior i) (a : K) (ea : Fin m → K) (ec : Fin l → K)
    (h : projectOutStep Ja s Jc r prior p true a ea ec = .ok d) :
    UniqueMin (fun x => s * sqNorm (a • ea - Ja *ᵥ x) + r * sqNorm ((1 - a) • ec - Jc *ᵥ x) +
      priorEnergy prior (p + x)) d := by
  unfold projectOutStep at h
  simp only [transpose_smul, Matrix.smul_mul] at h
  obtain ⟨_, -, h⟩ := bind_ok h
  obtain ⟨_, -, h⟩ := bind_ok h
  obtain ⟨G, hi, h⟩ := bind_ok h
  simp only [if_true, pure, Except.pure] at h
  injection h with h
  unfold npInv at hi
  split at hi
  · cases hi
  · rename_i hdet
    injection hi with hi
    refine two_term_min Ja Jc s r hs hr prior p d hp _ _ hdet ?_
    rw [← h, ← hi, mulVec_neg, mulVec_mulVec, mul_nonsing_inv _ (isUnit_iff_ne_zero.mpr hdet), one_mulVec,
      mulVec_smul, mulVec_smul, smul_mulVec, smul_mulVec, smul_comm a s, smul_comm (1 - a) r]
    abel

/-- C57 fails for project-out fitting.  In a problem with one parameter, where the pure holistic
increment is 1 and the pure part-based one is 0, the increment without prior is 1/2 for every weight,
and with a (vanishing) prior it is `a / 2`: weight 1 does not give the pure holistic increment. -/
theorem C57_project_out_violated (a : Rat) :
    projectOutStep (1 : Matrix (Fin 1) (Fin 1) Rat) 1 (1 : Matrix (Fin 1) (Fin 1) Rat) 1 0 0 false a
      (fun _ => 1) (fun _ => 0) = .ok (fun _ => 1 / 2) ∧
    projectOutStep (1 : Matrix (Fin 1) (Fin 1) Rat) 1 (1 : Matrix (Fin 1) (Fin 1) Rat) 1 0 0 true a
      (fun _ => 1) (fun _ => 0) = .ok (fun _ => a / 2) ∧
    alternatingStep (1 : Matrix (Fin 1) (Fin 1) Rat) 1 (1 : Matrix (Fin 1) (Fin 1) Rat) 1 0 0 false a
      (fun _ => 1) (fun _ => 0) = .ok (fun _ => a) := by
  have hinv : ((1 : Matrix (Fin 1) (Fin 1) Rat) + 1)⁻¹ = diagonal fun _ => 1 / 2 := by
    apply inv_eq_left_inv
    ext i j
    fin_cases i; fin_cases j
    rw [diagonal_mul]
    norm_num
  have hdet : ((1 : Matrix (Fin 1) (Fin 1) Rat) + 1).det ≠ 0 := by
    simp [det_unique]
  have d0 : diagonal (0 : Fin 1 → Rat) = 0 := diagonal_zero
  refine ⟨?_, ?_, ?_⟩
  · simp only [projectOutStep, npSolveMat, npInv, one_smul, transpose_one, Matrix.one_mul, d0, add_zero,
      hdet, if_false, bind, Except.bind, hinv, Matrix.mul_one, pure, Except.pure, Bool.false_eq_true]
    congr 1
    funext i
    simp [mulVec_diagonal]
  · simp only [projectOutStep, npSolveMat, npInv, one_smul, transpose_one, Matrix.one_mul, d0, add_zero,
      hdet, if_false, bind, Except.bind, hinv, Matrix.mul_one, pure, Except.pure, if_true]
    congr 1
    funext i
    simp [mulVec_diagonal]
    ring
  · have e : a • (1 : Matrix (Fin 1) (Fin 1) Rat) + (1 - a) • (1 : Matrix (Fin 1) (Fin 1) Rat) = 1 := by
      rw [← add_smul]; simp
    simp only [alternatingStep, npSolve, one_smul, transpose_one, Matrix.one_mul, e, det_one,
      one_ne_zero, if_false, Bool.false_eq_true, inv_one, one_mulVec]
    congr 1
    funext i
    simp

/-- C57 fails for the reported cost: it exceeds the interpolating cost by `a` times the part-based
term. -/
theorem C57_cost_violated (a : K) (ha : 0 < a) (ea : Fin m → K) (ec : Fin l → K) (hec : ec ≠ 0) :
    a * sqNorm ea + (1 - a) * sqNorm ec < cost a ea ec := by
  have e : ∀ {k : Nat} (v : Fin k → K), v ⬝ᵥ v = sqNorm v := by
    intro k v
    simp only [dotProduct, sqNorm]
    exact Finset.sum_congr rfl (fun i _ => by ring)
  unfold cost
  rw [e, e]
  have hpos : 0 < sqNorm ec := by
    obtain ⟨i, hi⟩ := Function.ne_iff.mp hec
    refine Finset.sum_pos' (fun i _ => sq_nonneg _) ⟨i, Finset.mem_univ _, ?_⟩
    have : ec i ≠ 0 := hi
    positivity
  nlinarith

example : ∃ d, alternatingStep (1 : Matrix (Fin 1) (Fin 1) Rat) 1 (1 : Matrix (Fin 1) (Fin 1) Rat) 1 0 0
    false (1 / 3) (fun _ => 1) (fun _ => 0) = .ok d :=
  ⟨_, (C57_project_out_violated (1 / 3)).2.2⟩

end Menpofit
