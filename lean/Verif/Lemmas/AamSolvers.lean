import Verif.Model.AamSolvers
import Verif.Spec.AamSolvers
import Verif.Lemmas.GaussNewton
/-!
# Helper lemmas for the Active Appearance Model optimisers
-/

set_option linter.unusedSectionVars false

namespace Menpofit
open Matrix GN Aam Spec Optim

section field
variable {K : Type} [Field K] [DecidableEq K]
variable {n a m : Nat} {S Im W E : Type}

theorem projectOut_eq (z : Setup n a m K S Im W E) (x : Fin m → K) :
    projectOut z x = (1 - z.A * z.pinvA) *ᵥ x := by
  rw [projectOut, sub_mulVec, one_mulVec, mulVec_mulVec]

theorem projectOutMat_eq (z : Setup n a m K S Im W E) (J : Matrix (Fin m) (Fin n) K) :
    projectOutMat z J = (1 - z.A * z.pinvA) * J := by
  rw [projectOutMat, Matrix.sub_mul, Matrix.one_mul, Matrix.mul_assoc]

variable {A : Matrix (Fin m) (Fin a) K} {P : Matrix (Fin a) (Fin m) K}

theorem Spec.IsPinv.q_symm (h : IsPinv A P) : (1 - A * P)ᵀ = 1 - A * P := by
  rw [transpose_sub, transpose_one, h.ap_symm]

theorem Spec.IsPinv.q_idem (h : IsPinv A P) : (1 - A * P) * (1 - A * P) = 1 - A * P := by
  rw [Matrix.mul_sub, Matrix.mul_one, Matrix.sub_mul, Matrix.one_mul,
    ← Matrix.mul_assoc, h.apa]
  abel

theorem Spec.IsPinv.q_A (h : IsPinv A P) : (1 - A * P) * A = 0 := by
  rw [Matrix.sub_mul, Matrix.one_mul, h.apa, sub_self]

theorem Spec.IsPinv.At_q (h : IsPinv A P) : Aᵀ * (1 - A * P) = 0 := by
  have := congrArg transpose h.q_A
  rwa [transpose_mul, h.q_symm, transpose_zero] at this

theorem sqNorm_dot (x : Fin m → K) : sqNorm x = x ⬝ᵥ x := by
  simp only [sqNorm, dotProduct]
  exact Finset.sum_congr rfl (fun i _ => by ring)

theorem simJacobian_mulVec (A : Matrix (Fin m) (Fin a) K) (J : Matrix (Fin m) (Fin n) K)
    (q : Fin (a + n) → K) :
    simJacobian A J *ᵥ q =
      J *ᵥ (fun i => q (Fin.natAdd a i)) - A *ᵥ (fun i => q (Fin.castAdd n i)) := by
  funext r
  simp only [mulVec, dotProduct, simJacobian, Fin.sum_univ_add, Fin.append_left, Fin.append_right,
    Pi.sub_apply]
  simp only [neg_mul, Finset.sum_neg_distrib]
  ring

end field

section ordered
variable {K : Type} [Field K] [LinearOrder K] [IsStrictOrderedRing K]
variable {n a m : Nat} {S Im W E : Type}

variable {A : Matrix (Fin m) (Fin a) K} {P : Matrix (Fin a) (Fin m) K} in
/-- Pythagoras for the projection. -/
theorem Spec.IsPinv.pythagoras (h : IsPinv A P) (x : Fin m → K) (c : Fin a → K) :
    sqNorm (x + A *ᵥ c) =
      sqNorm ((1 - A * P) *ᵥ x) + sqNorm (A *ᵥ (P *ᵥ x + c)) := by
  have e : x + A *ᵥ c = (1 - A * P) *ᵥ x + A *ᵥ (P *ᵥ x + c) := by
    rw [sub_mulVec, one_mulVec, mulVec_add, mulVec_mulVec]; abel
  have o : ((1 - A * P) *ᵥ x) ⬝ᵥ (A *ᵥ (P *ᵥ x + c)) = 0 := by
    rw [dotProduct_comm, ← dot_transpose, mulVec_mulVec, h.At_q, zero_mulVec, dotProduct_zero]
  rw [sqNorm_dot, e, add_dotProduct, dotProduct_add, dotProduct_add, o,
    dotProduct_comm (A *ᵥ _), o, sqNorm_dot, sqNorm_dot]
  ring

theorem sqNorm_nonneg' (x : Fin m → K) : 0 ≤ sqNorm x :=
  Finset.sum_nonneg fun _ _ => sq_nonneg _

theorem sqNorm_zero_iff (x : Fin m → K) : sqNorm x = 0 ↔ x = 0 := by
  constructor
  · intro h
    have := (Finset.sum_eq_zero_iff_of_nonneg (fun i _ => sq_nonneg (x i))).mp h
    funext i
    exact pow_eq_zero_iff (two_ne_zero) |>.mp (this i (Finset.mem_univ _))
  · rintro rfl; simp [sqNorm]

/-- The least-squares increment without a prior. -/
theorem ml_min {Q : Matrix (Fin m) (Fin m) K} (hQs : Qᵀ = Q) (hQi : Q * Q = Q)
    (J : Matrix (Fin m) (Fin n) K) (e : Fin m → K) (d : Fin n → K)
    (h : solveShapeMl ((Q * J)ᵀ * J) (Q * J) e = .ok d) :
    UniqueMin (fun x => sqNorm (Q *ᵥ (e + J *ᵥ x))) d := by
  intro d'
  obtain ⟨h1, h2⟩ := npSolve_ok (map_neg_ok h)
  rw [transpose_mul, hQs] at h1 h2
  have hQp : ∀ x, 0 ≤ x ⬝ᵥ (Q *ᵥ x) := fun x => by
    rw [proj_quad hQs hQi]; exact dot_self_nonneg _
  have key := regEnergy_min hQs hQp J e (P := 0) transpose_zero (by simp) 0 d
    (by rwa [add_zero]) (by
      rw [add_zero, zero_mulVec, add_zero]
      rw [mulVec_neg, ← mulVec_mulVec (N := Q)] at h2
      rw [← h2, neg_neg]) d'
  have conv : ∀ x, sqNorm (Q *ᵥ (e + J *ᵥ x)) = regEnergy Q J e 0 0 x := by
    intro x
    rw [regEnergy, zero_mulVec, dotProduct_zero, add_zero, proj_quad hQs hQi, sqNorm_dot]
  simp only [conv]
  exact key

theorem npSolve_of_det {H : Matrix (Fin n) (Fin n) K} (h : H.det ≠ 0) (b : Fin n → K) :
    npSolve H b = .ok (H⁻¹ *ᵥ b) := by
  rw [npSolve, if_neg h]

theorem solveAllMl_ok {k : Nat} {J : Matrix (Fin k) (Fin (a + n)) K} {e : Fin k → K}
    {dc : Fin a → K} {dp : Fin n → K} (h : solveAllMl (Jᵀ * J) J e = .ok (dc, dp)) :
    solveShapeMl (Jᵀ * J) J e = .ok (Fin.append dc dp) := by
  unfold solveAllMl at h
  unfold solveShapeMl
  cases hs : npSolve (Jᵀ * J) (Jᵀ *ᵥ e) with
  | error e => rw [hs] at h; cases h
  | ok q =>
    rw [hs] at h
    simp only [Except.map] at h ⊢
    injection h with h
    obtain ⟨rfl, rfl⟩ := Prod.mk.inj h
    congr 1
    funext i
    refine Fin.addCases (fun i => ?_) (fun i => ?_) i <;> simp

/-- The simultaneous increments are the unique minimiser. -/
theorem sim_min (A : Matrix (Fin m) (Fin a) K) (J : Matrix (Fin m) (Fin n) K) (e : Fin m → K)
    (dc : Fin a → K) (dp : Fin n → K)
    (h : solveAllMl ((simJacobian A J)ᵀ * simJacobian A J) (simJacobian A J) e = .ok (dc, dp))
    (dc' : Fin a → K) (dp' : Fin n → K) :
    sqNorm (e + J *ᵥ dp - A *ᵥ dc) ≤ sqNorm (e + J *ᵥ dp' - A *ᵥ dc') ∧
    (sqNorm (e + J *ᵥ dp' - A *ᵥ dc') = sqNorm (e + J *ᵥ dp - A *ᵥ dc) → dc' = dc ∧ dp' = dp) := by
  have h1 := solveAllMl_ok h
  have h2 := ml_min (Q := 1) transpose_one (Matrix.one_mul 1) (simJacobian A J) e _
    (by rw [Matrix.one_mul]; exact h1) (Fin.append dc' dp')
  simp only [one_mulVec, simJacobian_mulVec, Fin.append_left, Fin.append_right] at h2
  have e1 : ∀ (x : Fin n → K) (y : Fin a → K), e + (J *ᵥ x - A *ᵥ y) = e + J *ᵥ x - A *ᵥ y := by
    intros; abel
  simp only [e1] at h2
  refine ⟨h2.1, fun hq => ?_⟩
  have h3 := h2.2 hq
  constructor
  · funext i
    have := congrFun h3 (Fin.castAdd n i); simpa using this
  · funext i
    have := congrFun h3 (Fin.natAdd a i); simpa using this

/-- The Hessian of the simultaneous system is singular exactly if the projected one is. -/
theorem sim_det_iff {A : Matrix (Fin m) (Fin a) K} {P : Matrix (Fin a) (Fin m) K}
    (h : IsPinv A P) (hPA : P * A = 1) (J : Matrix (Fin m) (Fin n) K) :
    ((simJacobian A J)ᵀ * simJacobian A J).det = 0 ↔
      (((1 - A * P) * J)ᵀ * J).det = 0 := by
  rw [← exists_mulVec_eq_zero_iff, ← exists_mulVec_eq_zero_iff]
  have hq : ((1 - A * P) * J)ᵀ * J = ((1 - A * P) * J)ᵀ * ((1 - A * P) * J) := by
    rw [transpose_mul, h.q_symm]
    conv_lhs => rw [← h.q_idem]
    simp only [Matrix.mul_assoc]
  constructor
  · rintro ⟨v, hv, h0⟩
    have h1 : simJacobian A J *ᵥ v = 0 := by
      have : v ⬝ᵥ (((simJacobian A J)ᵀ * simJacobian A J) *ᵥ v) = 0 := by
        rw [h0, dotProduct_zero]
      rw [← mulVec_mulVec, dot_transpose, ← sqNorm_dot] at this
      exact (sqNorm_zero_iff _).mp this
    rw [simJacobian_mulVec, sub_eq_zero] at h1
    refine ⟨fun i => v (Fin.natAdd a i), ?_, ?_⟩
    · intro hx
      apply hv
      rw [hx, mulVec_zero] at h1
      have h2 : (fun i => v (Fin.castAdd n i)) = 0 := by
        have := congrArg (P *ᵥ ·) h1
        simp only [mulVec_mulVec, hPA, one_mulVec, mulVec_zero] at this
        exact this.symm
      funext i
      refine Fin.addCases (fun i => ?_) (fun i => ?_) i
      · exact congrFun h2 i
      · exact congrFun hx i
    · rw [← mulVec_mulVec, h1, mulVec_mulVec, transpose_mul, h.q_symm, Matrix.mul_assoc, h.q_A,
        Matrix.mul_zero, zero_mulVec]
  · rintro ⟨v, hv, h0⟩
    have h1 : ((1 - A * P) * J) *ᵥ v = 0 := by
      rw [hq] at h0
      have : v ⬝ᵥ ((((1 - A * P) * J)ᵀ * ((1 - A * P) * J)) *ᵥ v) = 0 := by
        rw [h0, dotProduct_zero]
      rw [← mulVec_mulVec, dot_transpose, ← sqNorm_dot] at this
      exact (sqNorm_zero_iff _).mp this
    refine ⟨Fin.append (P *ᵥ (J *ᵥ v)) v, ?_, ?_⟩
    · intro hx
      apply hv
      funext i
      have := congrFun hx (Fin.natAdd a i)
      simpa using this
    · rw [← mulVec_mulVec, simJacobian_mulVec]
      simp only [Fin.append_left, Fin.append_right]
      rw [← mulVec_mulVec, sub_mulVec, one_mulVec, ← mulVec_mulVec] at h1
      rw [h1, mulVec_zero]

/-- The shape increment of the simultaneous system is that of the projected one. -/
theorem sim_eq_projected {A : Matrix (Fin m) (Fin a) K} {P : Matrix (Fin a) (Fin m) K}
    (h : IsPinv A P) (J : Matrix (Fin m) (Fin n) K) (e0 : Fin m → K) (c : Fin a → K)
    (dc : Fin a → K) (dp d : Fin n → K)
    (hs : solveAllMl ((simJacobian A J)ᵀ * simJacobian A J) (simJacobian A J)
      (e0 - A *ᵥ c) = .ok (dc, dp))
    (hp : solveShapeMl (((1 - A * P) * J)ᵀ * J) ((1 - A * P) * J) e0 = .ok d) : dp = d := by
  have hm := ml_min h.q_symm h.q_idem J e0 d hp
  have h1 : sqNorm ((1 - A * P) *ᵥ (e0 + J *ᵥ dp)) ≤ sqNorm ((1 - A * P) *ᵥ (e0 + J *ᵥ d)) := by
    have h2 := (sim_min A J _ dc dp hs (P *ᵥ (e0 + J *ᵥ d) - c) d).1
    have e1 : ∀ (x : Fin n → K) (y : Fin a → K),
        e0 - A *ᵥ c + J *ᵥ x - A *ᵥ y = (e0 + J *ᵥ x) + A *ᵥ (-c - y) := by
      intro x y; rw [mulVec_sub, mulVec_neg]; abel
    rw [e1, e1, h.pythagoras, h.pythagoras] at h2
    have e2 : P *ᵥ (e0 + J *ᵥ d) + (-c - (P *ᵥ (e0 + J *ᵥ d) - c)) = 0 := by abel
    rw [e2, mulVec_zero, (sqNorm_zero_iff (0 : Fin m → K)).mpr rfl, add_zero] at h2
    have h3 := sqNorm_nonneg' (A *ᵥ (P *ᵥ (e0 + J *ᵥ dp) + (-c - dc)))
    linarith
  exact (hm dp).2 (le_antisymm h1 (hm dp).1)

/-- The regularised increment. -/
theorem map_min {Q : Matrix (Fin m) (Fin m) K} (hQs : Qᵀ = Q) (hQi : Q * Q = Q)
    (J : Matrix (Fin m) (Fin n) K) (e : Fin m → K) (prior p d : Fin n → K)
    (hprior : ∀ i, 0 ≤ prior i)
    (h : (solveShapeMap ((Q * J)ᵀ * J) (Q * J) e prior p).2 = .ok d) :
    UniqueMin (fun x => sqNorm (Q *ᵥ (e + J *ᵥ x)) + priorEnergy prior (p + x)) d := by
  intro d'
  obtain ⟨h1, h2⟩ := mapStep_ok (solveShapeMap_ok h)
  have hH : (Q * J)ᵀ * J = Jᵀ * Q * J := by rw [transpose_mul, hQs]
  have hJ : (Q * J)ᵀ *ᵥ e = Jᵀ *ᵥ (Q *ᵥ e) := by rw [transpose_mul, hQs, mulVec_mulVec]
  rw [hH] at h1 h2
  rw [hJ] at h2
  have hQp : ∀ x, 0 ≤ x ⬝ᵥ (Q *ᵥ x) := fun x => by
    rw [proj_quad hQs hQi]; exact dot_self_nonneg _
  have key := regEnergy_min hQs hQp J e (diagonal_transpose prior) (diag_psd hprior) p d h1 h2 d'
  have conv : ∀ x, sqNorm (Q *ᵥ (e + J *ᵥ x)) + priorEnergy prior (p + x) =
      regEnergy Q J e (diagonal prior) p x := by
    intro x
    unfold regEnergy priorEnergy
    rw [proj_quad hQs hQi, diag_quad, sqNorm_dot]
  simp only [conv]
  exact key

theorem advance_ok (z : Setup n a m K S Im W E) (inverse : Bool) (im : Im) (s s' : St n a m K W)
    (J : Matrix (Fin m) (Fin n) K) (dp : Fin n → K) (c' : W → Fin a → K) (eps : E)
    (h : advance z inverse im s J dp c' = (s', .ok eps)) :
    z.warp im s'.p = .ok s'.i ∧ s'.p = (if inverse then s.p - dp else s.p + dp) ∧
      s'.c = c' s'.i ∧ s'.Jdp = J *ᵥ dp ∧ eps = z.dist (z.target s.p) (z.target s'.p) := by
  unfold advance updateWarp at h
  cases hw : z.warp im (if inverse then s.p - dp else s.p + dp) with
  | error e => simp only [hw] at h; cases h
  | ok i' =>
    simp only [hw] at h
    obtain ⟨rfl, h2⟩ := Prod.mk.inj h
    injection h2 with h2
    exact ⟨hw, rfl, rfl, rfl, h2.symm⟩

theorem init_min {A : Matrix (Fin m) (Fin a) K} {P : Matrix (Fin a) (Fin m) K}
    (hA : IsPinv A P) (aBar x : Fin m → K) :
    residual aBar A x (P *ᵥ (x - aBar)) = (x - aBar) ⬝ᵥ ((1 - A * P) *ᵥ (x - aBar)) ∧
    ∀ c, residual aBar A x (P *ᵥ (x - aBar)) ≤ residual aBar A x c := by
  have e : ∀ y, x - (aBar + A *ᵥ y) = (x - aBar) + A *ᵥ (-y) := by
    intro y; rw [mulVec_neg]; abel
  unfold residual
  rw [e, hA.pythagoras, add_neg_cancel, mulVec_zero, (sqNorm_zero_iff (0 : Fin m → K)).mpr rfl]
  refine ⟨?_, ?_⟩
  · rw [proj_quad hA.q_symm hA.q_idem, sqNorm_dot, add_zero]
  · intro c
    rw [e, hA.pythagoras]
    have := sqNorm_nonneg' (A *ᵥ (P *ᵥ (x - aBar) + -c))
    linarith

theorem step_warp (z : Setup n a m K S Im W E) (alg : Alg) (inverse map : Bool) (im : Im)
    (s s' : St n a m K W) (eps : E) (h : step z alg inverse map im s = (s', .ok eps)) :
    z.warp im s'.p = .ok s'.i := by
  cases alg <;> simp only [step, simStep, altStep, modStep, wibStep] at h <;>
    (repeat' split at h) <;> first | cases h | exact (advance_ok _ _ _ _ _ _ _ _ _ h).1

theorem map_total {Q : Matrix (Fin m) (Fin m) K} (hQs : Qᵀ = Q) (hQi : Q * Q = Q)
    (J : Matrix (Fin m) (Fin n) K) (e : Fin m → K) (prior p : Fin n → K)
    (hpos : ∀ i, 0 < prior i) (hn : n ≤ 256) :
    ∃ d, (solveShapeMap ((Q * J)ᵀ * J) (Q * J) e prior p).2 = .ok d := by
  rw [solveShapeMap_same hn, mapStep]
  have hdet : ((Q * J)ᵀ * J + diagonal prior).det ≠ 0 := by
    apply det_ne_zero_of_pos
    intro x hx
    rw [add_mulVec, dotProduct_add, transpose_mul, hQs, ← mulVec_mulVec, ← mulVec_mulVec,
      dot_transpose, proj_quad hQs hQi]
    have h1 := dot_self_nonneg (Q *ᵥ (J *ᵥ x))
    have h2 := diag_pos hpos x hx
    linarith
  exact ⟨_, by simp only [npSolve, if_neg hdet, Except.map]; rfl⟩

theorem solveAllMap_total {k : Nat} (J : Matrix (Fin k) (Fin (a + n)) K) (e : Fin k → K)
    (priorA c : Fin a → K) (priorS p : Fin n → K) (hA : ∀ i, 0 < priorA i)
    (hS : ∀ i, 0 < priorS i) (hn : n ≤ 256) :
    ∃ dc dp, solveAllMap (Jᵀ * J) J e priorA c priorS p = .ok (dc, dp) := by
  have hw : ∀ i, 0 < Fin.append priorA priorS i := by
    intro i
    refine Fin.addCases (fun i => ?_) (fun i => ?_) i
    · simp [hA]
    · simp [hS]
  have hdet : (Jᵀ * J + diagonal (Fin.append priorA priorS)).det ≠ 0 := by
    apply det_ne_zero_of_pos
    intro x hx
    rw [add_mulVec, dotProduct_add, ← mulVec_mulVec, dot_transpose]
    have h1 := dot_self_nonneg (J *ᵥ x)
    have h2 := diag_pos hw x hx
    linarith
  have hp : pyIs n (a + n - a) = true := by simp [pyIs, hn]
  unfold solveAllMap
  simp only [hp, if_true, dite_true, Fin.cast_eq_self, mapStep, npSolve, if_neg hdet, Except.map]
  exact ⟨_, _, rfl⟩

end ordered

/-! ### Simulation between optimisers -/

section sim
variable {σ₁ σ₂ S V₁ V₂ V C E : Type} [LinearOrder E]

/-- Both raise the same exception, or both return the same shapes, projected parameters
and, if requested, costs satisfying `rc`. -/
def SameOutcome (f₁ : V₁ → V) (f₂ : V₂ → V) (withCosts : Prop) :
    Except PyErr (Trace S V₁ C) → Except PyErr (Trace S V₂ C) → Prop
  | .error e₁, .error e₂ => e₁ = e₂
  | .ok r₁, .ok r₂ => r₁.shapes = r₂.shapes ∧ r₁.params.map f₁ = r₂.params.map f₂ ∧
      (withCosts → r₁.costs = r₂.costs)
  | _, _ => False

theorem loop_same (m₁ : Machine σ₁ S V₁ C E) (m₂ : Machine σ₂ S V₂ C E) (f₁ : V₁ → V)
    (f₂ : V₂ → V) (wc : Prop) (R : σ₁ → σ₂ → Prop) (maxIters : Int) (tol : E)
    (hshape : ∀ s t, R s t → m₁.shape s = m₂.shape t)
    (hparams : ∀ s t, R s t → f₁ (m₁.params s) = f₂ (m₂.params t))
    (hcost : wc → ∀ s t, R s t → m₁.cost s = m₂.cost t)
    (hstep : ∀ s t, R s t →
      (∃ e, (m₁.step s).2 = .error e ∧ (m₂.step t).2 = .error e) ∨
      (∃ e, (m₁.step s).2 = .ok e ∧ (m₂.step t).2 = .ok e ∧ R (m₁.step s).1 (m₂.step t).1)) :
    ∀ (k : Nat) (j : Int) (eps : Option E) (s : σ₁) (t : σ₂) (tr₁ : Trace S V₁ C)
      (tr₂ : Trace S V₂ C), (maxIters - j).toNat = k → R s t →
      tr₁.shapes = tr₂.shapes → tr₁.params.map f₁ = tr₂.params.map f₂ →
      (wc → tr₁.costs = tr₂.costs) →
      SameOutcome f₁ f₂ wc (loop m₁ false maxIters tol j eps s tr₁).2
        (loop m₂ false maxIters tol j eps t tr₂).2 := by
  intro k
  induction k with
  | zero =>
    intro j eps s t tr₁ tr₂ hk hR h1 h2 h3
    rw [loop_unfold, loop_unfold, if_neg (by omega), if_neg (by omega)]
    exact ⟨h1, h2, h3⟩
  | succ k ih =>
    intro j eps s t tr₁ tr₂ hk hR h1 h2 h3
    rw [loop_unfold, loop_unfold]
    by_cases hg : j < maxIters ∧ goOn tol eps
    · rw [if_pos hg, if_pos hg]
      rcases hstep s t hR with ⟨e, e1, e2⟩ | ⟨e, e1, e2, hR'⟩
      · rcases hs1 : m₁.step s with ⟨s', x⟩
        rcases hs2 : m₂.step t with ⟨t', y⟩
        rw [hs1] at e1; rw [hs2] at e2
        simp only at e1 e2
        subst e1 e2
        rfl
      · rcases hs1 : m₁.step s with ⟨s', x⟩
        rcases hs2 : m₂.step t with ⟨t', y⟩
        rw [hs1] at e1 hR'; rw [hs2] at e2 hR'
        simp only at e1 e2 hR'
        subst e1 e2
        simp only
        refine ih _ _ _ _ _ _ (by omega) hR' ?_ ?_ ?_
        · simp [h1, hshape _ _ hR']
        · simp [h2, hparams _ _ hR']
        · intro hw; simp [h3 hw, hcost hw _ _ hR']
    · rw [if_neg hg, if_neg hg]
      exact ⟨h1, h2, h3⟩

/-- An invariant of the states a run passes through. -/
theorem run_states (mc : Machine σ₁ S V₁ C E) (maxIters : Int) (tol : E) (costs : Bool)
    (I : σ₁ → Prop) (s sF : σ₁) (r : Trace S V₁ C) (h0 : I s)
    (hstep : ∀ s s' e, I s → mc.step s = (s', .ok e) → I s')
    (h : Optim.run mc false maxIters tol costs s = (sF, .ok r)) :
    ∃ states : List σ₁, (∀ t ∈ states, I t) ∧ r.shapes = states.map mc.shape ∧
      r.params = states.map mc.params ∧ states.head? = some s ∧
      r.costs = if costs then some (states.map mc.cost) else none := by
  obtain ⟨N, st, mv, h1, h2, h3, h4, h5, _, h7, h8, h9, h10⟩ :=
    loop_spec mc false maxIters tol _ 0 none s sF _ r rfl h
  have hI : ∀ i, i ≤ N → I (st i) := by
    intro i
    induction i with
    | zero => intro _; rw [h1]; exact h0
    | succ i ih => intro hi; exact hstep _ _ _ (ih (by omega)) (h4 i (by omega))
  refine ⟨(List.range (N + 1)).map st, ?_, ?_, ?_, ?_, ?_⟩
  · intro t ht
    obtain ⟨i, hi, rfl⟩ := List.mem_map.mp ht
    exact hI i (by have := List.mem_range.mp hi; omega)
  · rw [h8, List.range_succ_eq_map]; simp [h1, Function.comp_def]
  · rw [h9, List.range_succ_eq_map]; simp [h1, Function.comp_def]
  · rw [List.range_succ_eq_map]; simp [h1]
  · rw [h10]
    cases costs
    · simp
    · rw [List.range_succ_eq_map]; simp [h1, Function.comp_def]

theorem loop_total (mc : Machine σ₁ S V₁ C E)
    (h : ∀ s, ∃ s' e, mc.step s = (s', .ok e)) (maxIters : Int) (tol : E) (rc : Bool) (s : σ₁) :
    ∃ r, (Optim.run mc false maxIters tol rc s).2 = .ok r := by
  cases hr : (Optim.run mc false maxIters tol rc s).2 with
  | ok r => exact ⟨r, rfl⟩
  | error e =>
    obtain ⟨s', hs'⟩ := loop_error mc false maxIters tol _ 0 none s
      (Optim.run mc false maxIters tol rc s).1 _ e rfl (Prod.ext rfl hr)
    obtain ⟨t, x, ht⟩ := h s'
    rw [hs'] at ht
    cases ht

theorem sameFit_of {f₁ : V₁ → V} {f₂ : V₂ → V} {wc : Prop}
    {x : Except PyErr (Trace S V₁ C)} {y : Except PyErr (Trace S V₂ C)}
    (h : SameOutcome f₁ f₂ wc x y) : SameFit f₁ f₂ x y := by
  cases x <;> cases y <;> simp only [SameOutcome] at h
  · exact Or.inl ⟨_, rfl, by rw [h]⟩
  · exact Or.inr ⟨_, _, rfl, rfl, h.1, h.2.1⟩

end sim

end Menpofit
