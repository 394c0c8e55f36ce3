import Verif.Lemmas.AamSolvers
import Verif.Lemmas.Regression
/-!
# Properties of the Active Appearance Model optimisers (C59, C77–C80)
-/

set_option linter.unusedSectionVars false

namespace Menpofit
open Matrix GN Aam Spec Optim

section

variable {K : Type} [Field K] [LinearOrder K] [IsStrictOrderedRing K]
variable {n a m : Nat} {S Im W E : Type}

/-! ## C59: projecting out the appearance -/

/-- **C59**.  Projecting out is linear and idempotent, annihilates every combination of
appearance components, leaves vectors orthogonal to all components unchanged, and
returns the only closest vector among those orthogonal to all components.  On a
matrix it works column by column. -/
theorem C59_project_out (z : Setup n a m K S Im W E) (h : IsPinv z.A z.pinvA) :
    (∀ x y (t : K), projectOut z (x + t • y) = projectOut z x + t • projectOut z y) ∧
    (∀ x, projectOut z (projectOut z x) = projectOut z x) ∧
    (∀ c, projectOut z (z.A *ᵥ c) = 0) ∧
    (∀ x, z.Aᵀ *ᵥ x = 0 → projectOut z x = x) ∧
    (∀ x, z.Aᵀ *ᵥ projectOut z x = 0 ∧ ∀ y, z.Aᵀ *ᵥ y = 0 →
      sqNorm (x - projectOut z x) ≤ sqNorm (x - y) ∧
      (sqNorm (x - y) = sqNorm (x - projectOut z x) → y = projectOut z x)) ∧
    (∀ J j, (fun r => projectOutMat z J r j) = projectOut z (fun r => J r j)) := by
  refine ⟨?_, ?_, ?_, ?_, ?_, ?_⟩
  · intro x y t
    simp only [projectOut_eq, mulVec_add, mulVec_smul]
  · intro x
    simp only [projectOut_eq, mulVec_mulVec, h.q_idem]
  · intro c
    rw [projectOut_eq, mulVec_mulVec, h.q_A, zero_mulVec]
  · intro x hx
    rw [projectOut_eq]
    have : (z.A * z.pinvA) *ᵥ x = 0 := by
      rw [← h.ap_symm, transpose_mul, ← mulVec_mulVec, hx, mulVec_zero]
    rw [sub_mulVec, one_mulVec, this, sub_zero]
  · intro x
    have h0 : z.Aᵀ *ᵥ projectOut z x = 0 := by
      rw [projectOut_eq, mulVec_mulVec, h.At_q, zero_mulVec]
    refine ⟨h0, ?_⟩
    intro y hy
    -- Pythagoras: `x - y = (x - Qx) + (Qx - y)`
    have hpy : sqNorm (x - y) = sqNorm (x - projectOut z x) + sqNorm (projectOut z x - y) := by
      have e : x - y = z.A *ᵥ (z.pinvA *ᵥ x) + (projectOut z x - y) := by
        rw [projectOut]; abel
      have e' : x - projectOut z x = z.A *ᵥ (z.pinvA *ᵥ x) := by rw [projectOut]; abel
      have o : (z.A *ᵥ (z.pinvA *ᵥ x)) ⬝ᵥ (projectOut z x - y) = 0 := by
        rw [← dot_transpose, mulVec_sub, h0, hy, sub_zero, dotProduct_zero]
      rw [e', sqNorm_dot, e, add_dotProduct, dotProduct_add, dotProduct_add, o,
        dotProduct_comm (projectOut z x - y) (z.A *ᵥ (z.pinvA *ᵥ x)), o, sqNorm_dot, sqNorm_dot]
      ring
    rw [hpy]
    have hn := sqNorm_nonneg' (projectOut z x - y)
    refine ⟨by linarith, fun hq => ?_⟩
    have : sqNorm (projectOut z x - y) = 0 := by linarith
    exact (sub_eq_zero.mp ((sqNorm_zero_iff _).mp this)).symm
  · intro J j
    funext r
    show J r j - (z.A * (z.pinvA * J)) r j = J r j - (z.A *ᵥ (z.pinvA *ᵥ fun r => J r j)) r
    rfl

/-- Orthonormal components have a pseudoinverse, their transpose: the hypothesis of C59
is met by every orthonormal appearance basis that is not subsampled. -/
theorem C59_orthonormal (A : Matrix (Fin m) (Fin a) K) (h : Aᵀ * A = 1) : IsPinv A Aᵀ where
  apa := by rw [Matrix.mul_assoc, h, Matrix.mul_one]
  pap := by rw [h, Matrix.one_mul]
  ap_symm := by rw [transpose_mul, transpose_transpose]
  pa_symm := by rw [transpose_mul, transpose_transpose]

/-! ## C77: without a prior every step is a least-squares step -/

/-- **C77** (AAM project-out and ATM, forward). -/
theorem C77_forward (env : Env n m K S Im W E) (hQs : env.Qᵀ = env.Q)
    (hQi : env.Q * env.Q = env.Q) (im : Im) (s s' : PState n m K W) (eps : E)
    (h : poStep env false false im s = (s', .ok eps)) :
    UniqueMin (fun d => sqNorm (env.Q *ᵥ ((env.mask s.i - env.aBar) + env.jac s.i *ᵥ d)))
      (s'.p - s.p) := by
  unfold poStep at h
  simp only [Bool.false_eq_true, if_false] at h
  cases hd : solveForward env false s with
  | error e => rw [hd] at h; cases h
  | ok d =>
    rw [hd] at h
    simp only at h
    have hm : UniqueMin (fun d => sqNorm (env.Q *ᵥ ((env.mask s.i - env.aBar) +
        env.jac s.i *ᵥ d))) d := ml_min hQs hQi _ _ _ hd
    cases hw : env.warp im (s.p + d) with
    | error e => rw [hw] at h; cases h
    | ok i' =>
      rw [hw] at h
      obtain ⟨h1, -⟩ := Prod.mk.inj h
      rw [← h1, add_sub_cancel_left]
      exact hm

/-- **C77** (AAM project-out and ATM, inverse).  The template moves: the increment that is
subtracted is the least-squares step for the Jacobian of the template. -/
theorem C77_inverse (env : Env n m K S Im W E) (hQs : env.Qᵀ = env.Q)
    (hQi : env.Q * env.Q = env.Q) (J : Matrix (Fin m) (Fin n) K) (im : Im)
    (s s' : PState n m K W) (eps : E) (hc : precompute env.Q J = .ok s.cache)
    (h : poStep env true false im s = (s', .ok eps)) :
    UniqueMin (fun d => sqNorm (env.Q *ᵥ ((env.mask s.i - env.aBar) + J *ᵥ d)))
      (s.p - s'.p) := by
  unfold poStep at h
  simp only [if_true, solveInverse, Bool.false_eq_true, if_false] at h
  have hm : UniqueMin (fun d => sqNorm (env.Q *ᵥ ((env.mask s.i - env.aBar) + J *ᵥ d)))
      (-(s.cache.pinvQJ *ᵥ (env.mask s.i - env.aBar))) := by
    apply ml_min hQs hQi
    unfold precompute npSolveMat at hc
    unfold solveShapeMl npSolve
    by_cases hdet : ((env.Q * J)ᵀ * J).det = 0
    · simp only [if_pos hdet] at hc
      cases hc
    · simp only [if_neg hdet, bind, Except.bind, pure, Except.pure] at hc
      injection hc with hc
      rw [← hc, if_neg hdet]
      simp only [Except.map, mulVec_mulVec]
  cases hw : env.warp im (s.p - -(s.cache.pinvQJ *ᵥ (env.mask s.i - env.aBar))) with
  | error e => rw [hw] at h; cases h
  | ok i' =>
    rw [hw] at h
    obtain ⟨h1, -⟩ := Prod.mk.inj h
    rw [← h1]
    simp only [sub_sub_cancel]
    exact hm

/-- **C77** (AAM simultaneous): appearance and shape increments together are the only
minimiser of the linearised residual. -/
theorem C77_simultaneous (z : Setup n a m K S Im W E) (inverse : Bool) (im : Im)
    (s s' : St n a m K W) (eps : E)
    (h : step z .simultaneous inverse false im s = (s', .ok eps)) :
    ∃ dp, s'.p = (if inverse then s.p - dp else s.p + dp) ∧
      ∀ dc' dp', sqNorm (z.mask s.i - (z.aBar + z.A *ᵥ s'.c) + jacobian z inverse s *ᵥ dp) ≤
          sqNorm (z.mask s.i - (z.aBar + z.A *ᵥ (s.c + dc')) + jacobian z inverse s *ᵥ dp') ∧
        (sqNorm (z.mask s.i - (z.aBar + z.A *ᵥ (s.c + dc')) + jacobian z inverse s *ᵥ dp') =
          sqNorm (z.mask s.i - (z.aBar + z.A *ᵥ s'.c) + jacobian z inverse s *ᵥ dp) →
          s.c + dc' = s'.c ∧ dp' = dp) := by
  unfold step simStep at h
  simp only [Bool.false_eq_true, if_false] at h
  cases hd : solveAllMl ((simJacobian z.A (jacobian z inverse s))ᵀ *
      simJacobian z.A (jacobian z inverse s)) (simJacobian z.A (jacobian z inverse s))
      (z.mask s.i - appearance z s.c) with
  | error e => rw [hd] at h; cases h
  | ok q =>
    obtain ⟨dc, dp⟩ := q
    rw [hd] at h
    obtain ⟨-, h2, h3, -⟩ := advance_ok _ _ _ _ _ _ _ _ _ h
    refine ⟨dp, h2, ?_⟩
    intro dc' dp'
    have hm := sim_min _ _ _ dc dp hd dc' dp'
    have e : ∀ (x : Fin a → K) (y : Fin n → K),
        z.mask s.i - (z.aBar + z.A *ᵥ (s.c + x)) + jacobian z inverse s *ᵥ y =
        z.mask s.i - appearance z s.c + jacobian z inverse s *ᵥ y - z.A *ᵥ x := by
      intro x y; rw [appearance, mulVec_add]; abel
    rw [h3, e, e]
    exact ⟨hm.1, fun hq => ⟨by rw [(hm.2 hq).1], (hm.2 hq).2⟩⟩

/-- **C77** (AAM alternating).  The appearance increment minimises the residual left by the
previous shape increment; the shape increment is the only minimiser of the
linearised residual given the new appearance. -/
theorem C77_alternating (z : Setup n a m K S Im W E) (hA : IsPinv z.A z.pinvA) (inverse : Bool)
    (im : Im) (s s' : St n a m K W) (eps : E)
    (h : step z .alternating inverse false im s = (s', .ok eps)) :
    (∀ c, sqNorm (z.mask s.i + s.Jdp - (z.aBar + z.A *ᵥ s'.c)) ≤
      sqNorm (z.mask s.i + s.Jdp - (z.aBar + z.A *ᵥ c))) ∧
    ∃ dp, s'.p = (if inverse then s.p - dp else s.p + dp) ∧
      UniqueMin (fun d => sqNorm (z.mask s.i - (z.aBar + z.A *ᵥ s'.c) +
        jacobian z inverse s *ᵥ d)) dp := by
  unfold step altStep at h
  simp only [altAppearance, Bool.false_eq_true, if_false] at h
  cases hd : altShape z inverse false s
      (z.pinvA *ᵥ (z.mask s.i - appearance z s.c + s.Jdp)) with
  | error e => rw [hd] at h; cases h
  | ok dp =>
    rw [hd] at h
    obtain ⟨-, h2, h3, -⟩ := advance_ok _ _ _ _ _ _ _ _ _ h
    refine ⟨?_, dp, h2, ?_⟩
    · intro c
      have e : ∀ x, z.mask s.i + s.Jdp - (z.aBar + z.A *ᵥ x) =
          (z.mask s.i - appearance z s.c + s.Jdp) + z.A *ᵥ (s.c - x) := by
        intro x; rw [appearance, mulVec_sub]; abel
      rw [e, e, hA.pythagoras, hA.pythagoras, h3]
      have e0 : z.pinvA *ᵥ (z.mask s.i - appearance z s.c + s.Jdp) +
          (s.c - (s.c + z.pinvA *ᵥ (z.mask s.i - appearance z s.c + s.Jdp))) = 0 := by abel
      rw [e0, mulVec_zero, (sqNorm_zero_iff (0 : Fin m → K)).mpr rfl]
      have := sqNorm_nonneg' (z.A *ᵥ (z.pinvA *ᵥ (z.mask s.i - appearance z s.c + s.Jdp) +
        (s.c - c)))
      linarith
    · unfold altShape at hd
      simp only [Bool.false_eq_true, if_false] at hd
      have hm := ml_min (Q := 1) transpose_one (Matrix.one_mul 1) (jacobian z inverse s) _ dp
        (by rw [Matrix.one_mul]; exact hd)
      simp only [one_mulVec] at hm
      have e : z.mask s.i - (z.aBar + z.A *ᵥ s'.c) = z.mask s.i - appearance z s.c -
          z.A *ᵥ (z.pinvA *ᵥ (z.mask s.i - appearance z s.c + s.Jdp)) := by
        rw [h3, appearance, mulVec_add]; abel
      rw [e]
      exact hm

/-- **C77** (AAM modified alternating): the shape increment is the only minimiser of the
linearised residual; the new appearance parameters minimise the residual of the
newly warped image. -/
theorem C77_modified_alternating (z : Setup n a m K S Im W E) (hA : IsPinv z.A z.pinvA)
    (inverse : Bool) (im : Im) (s s' : St n a m K W) (eps : E)
    (h : step z .modifiedAlternating inverse false im s = (s', .ok eps)) :
    (∃ dp, s'.p = (if inverse then s.p - dp else s.p + dp) ∧
      UniqueMin (fun d => sqNorm (z.mask s.i - (z.aBar + z.A *ᵥ s.c) +
        jacobian z inverse s *ᵥ d)) dp) ∧
    ∀ c, residual z.aBar z.A (z.mask s'.i) s'.c ≤ residual z.aBar z.A (z.mask s'.i) c := by
  unfold step modStep at h
  simp only [Bool.false_eq_true, if_false] at h
  cases hd : solveShapeMl ((jacobian z inverse s)ᵀ * jacobian z inverse s)
      (jacobian z inverse s) (z.mask s.i - appearance z s.c) with
  | error e => rw [hd] at h; cases h
  | ok dp =>
    rw [hd] at h
    obtain ⟨-, h2, h3, -⟩ := advance_ok _ _ _ _ _ _ _ _ _ h
    refine ⟨⟨dp, h2, ?_⟩, ?_⟩
    · have hm := ml_min (Q := 1) transpose_one (Matrix.one_mul 1) (jacobian z inverse s) _ dp
        (by rw [Matrix.one_mul]; exact hd)
      simp only [one_mulVec] at hm
      exact hm
    · intro c
      have e : ∀ x, z.mask s'.i - (z.aBar + z.A *ᵥ x) = (z.mask s'.i - z.aBar) + z.A *ᵥ (-x) := by
        intro x; rw [mulVec_neg]; abel
      unfold residual
      rw [e, e, hA.pythagoras, hA.pythagoras, h3, add_neg_cancel, mulVec_zero,
        (sqNorm_zero_iff (0 : Fin m → K)).mpr rfl]
      have := sqNorm_nonneg' (z.A *ᵥ (z.pinvA *ᵥ (z.mask s'.i - z.aBar) + -c))
      linarith

/-- **C77** (AAM Wiberg): the shape increment is the only minimiser of the linearised
residual with the appearance projected out, and the new appearance parameters minimise the
residual of the newly warped image linearised with that increment. -/
theorem C77_wiberg (z : Setup n a m K S Im W E) (hA : IsPinv z.A z.pinvA)
    (inverse : Bool) (im : Im) (s s' : St n a m K W) (eps : E)
    (h : step z .wiberg inverse false im s = (s', .ok eps)) :
    ∃ dp, s'.p = (if inverse then s.p - dp else s.p + dp) ∧
      UniqueMin (fun d => sqNorm (projectOut z (z.mask s.i - z.aBar +
        jacobian z inverse s *ᵥ d))) dp ∧
      ∀ c, sqNorm (z.mask s'.i + jacobian z inverse s *ᵥ dp - (z.aBar + z.A *ᵥ s'.c)) ≤
        sqNorm (z.mask s'.i + jacobian z inverse s *ᵥ dp - (z.aBar + z.A *ᵥ c)) := by
  unfold step wibStep at h
  simp only [Bool.false_eq_true, if_false] at h
  cases hd : solveShapeMl ((projectOutMat z (jacobian z inverse s))ᵀ * jacobian z inverse s)
      (projectOutMat z (jacobian z inverse s)) (z.mask s.i - z.aBar) with
  | error e => rw [hd] at h; cases h
  | ok dp =>
    rw [hd] at h
    obtain ⟨-, h2, h3, -⟩ := advance_ok _ _ _ _ _ _ _ _ _ h
    refine ⟨dp, h2, ?_, ?_⟩
    · simp only [projectOut_eq]
      rw [projectOutMat_eq] at hd
      exact ml_min hA.q_symm hA.q_idem _ _ _ hd
    · intro c
      have e : ∀ x, z.mask s'.i + jacobian z inverse s *ᵥ dp - (z.aBar + z.A *ᵥ x) =
          (z.mask s'.i - appearance z s.c + jacobian z inverse s *ᵥ dp) + z.A *ᵥ (s.c - x) := by
        intro x; rw [appearance, mulVec_sub]; abel
      rw [e, e, hA.pythagoras, hA.pythagoras, h3]
      have e0 : z.pinvA *ᵥ (z.mask s'.i - appearance z s.c + jacobian z inverse s *ᵥ dp) +
          (s.c - (s.c + z.pinvA *ᵥ (z.mask s'.i - appearance z s.c +
            jacobian z inverse s *ᵥ dp))) = 0 := by abel
      rw [e0, mulVec_zero, (sqNorm_zero_iff (0 : Fin m → K)).mpr rfl]
      have := sqNorm_nonneg' (z.A *ᵥ (z.pinvA *ᵥ (z.mask s'.i - appearance z s.c +
        jacobian z inverse s *ᵥ dp) + (s.c - c)))
      linarith

/-- **C77** (CLM without prior): the increment is the only minimiser of the distance of the
linearised shape change to the wanted one. -/
theorem C77_clm (J : Matrix (Fin m) (Fin n) K) (error : Fin m → K) (d : Fin n → K)
    (h : clmMlStep J error = .ok d) : UniqueMin (fun x => sqNorm (error - J *ᵥ x)) d := by
  unfold clmMlStep npSolveMat at h
  split at h
  · cases h
  · next hdet =>
    simp only [bind, Except.bind, pure, Except.pure] at h
    injection h with h
    have hm := ml_min (Q := 1) transpose_one (Matrix.one_mul 1) J (-error) d (by
      rw [Matrix.one_mul, solveShapeMl, npSolve, if_neg hdet]
      simp only [Except.map]
      rw [← h, mulVec_neg, mulVec_neg, neg_neg, mulVec_mulVec])
    have e : ∀ x, sqNorm (error - J *ᵥ x) = sqNorm ((1 : Matrix (Fin m) (Fin m) K) *ᵥ
        (-error + J *ᵥ x)) := by
      intro x
      rw [one_mulVec]
      unfold sqNorm
      exact Finset.sum_congr rfl (fun i _ => by
        simp only [Pi.sub_apply, Pi.add_apply, Pi.neg_apply]; ring)
    simp only [e]
    exact hm

/-! ## C17 for the remaining optimisers -/

/-- **C17** (AAM Wiberg): with a prior the shape increment is the only minimiser of the
linearised projected residual plus the prior energy of the updated parameters. -/
theorem C17_wiberg_map (z : Setup n a m K S Im W E) (hA : IsPinv z.A z.pinvA)
    (hprior : ∀ i, 0 ≤ z.priorS i) (im : Im) (s s' : St n a m K W) (eps : E)
    (h : step z .wiberg false true im s = (s', .ok eps)) :
    UniqueMin (fun d => sqNorm (projectOut z (z.mask s.i - z.aBar + z.jacI s.i *ᵥ d)) +
      priorEnergy z.priorS (s.p + d)) (s'.p - s.p) := by
  unfold step wibStep at h
  simp only [if_true] at h
  cases hd : (solveShapeMap ((projectOutMat z (jacobian z false s))ᵀ * jacobian z false s)
      (projectOutMat z (jacobian z false s)) (z.mask s.i - z.aBar) z.priorS s.p).2 with
  | error e => rw [hd] at h; cases h
  | ok dp =>
    rw [hd] at h
    obtain ⟨-, h2, -⟩ := advance_ok _ _ _ _ _ _ _ _ _ h
    simp only [Bool.false_eq_true, if_false] at h2
    rw [h2, add_sub_cancel_left]
    simp only [projectOut_eq]
    rw [projectOutMat_eq] at hd
    exact map_min hA.q_symm hA.q_idem _ _ _ _ _ hprior hd

/-- **C17** (AAM modified alternating): with a prior the shape increment is the only
minimiser of the linearised residual plus the prior energy of the updated
parameters. -/
theorem C17_modified_alternating_map (z : Setup n a m K S Im W E)
    (hprior : ∀ i, 0 ≤ z.priorS i) (im : Im) (s s' : St n a m K W) (eps : E)
    (h : step z .modifiedAlternating false true im s = (s', .ok eps)) :
    UniqueMin (fun d => sqNorm (z.mask s.i - (z.aBar + z.A *ᵥ s.c) + z.jacI s.i *ᵥ d) +
      priorEnergy z.priorS (s.p + d)) (s'.p - s.p) := by
  unfold step modStep at h
  simp only [if_true] at h
  cases hd : (solveShapeMap ((jacobian z false s)ᵀ * jacobian z false s)
      (jacobian z false s) (z.mask s.i - appearance z s.c) z.priorS s.p).2 with
  | error e => rw [hd] at h; cases h
  | ok dp =>
    rw [hd] at h
    obtain ⟨-, h2, -⟩ := advance_ok _ _ _ _ _ _ _ _ _ h
    simp only [Bool.false_eq_true, if_false] at h2
    rw [h2, add_sub_cancel_left]
    have hm := map_min (Q := 1) transpose_one (Matrix.one_mul 1) (jacobian z false s)
      (z.mask s.i - appearance z s.c) z.priorS s.p dp hprior (by rw [Matrix.one_mul]; exact hd)
    simp only [one_mulVec] at hm
    exact hm

/-! ## C78: the reported costs are residual energies -/

/-- **C78** (simultaneous, alternating and modified alternating).  With `return_costs` there is one cost per
reported shape and per reported pair of shape and appearance parameters: the
residual energy between the image warped with the reported shape parameters and
the appearance with the reported appearance parameters. -/
theorem C78_costs_are_residuals [LinearOrder E] (z : Setup n a m K S Im W E) (alg : Alg)
    (halg : alg ≠ .wiberg) (inverse map : Bool) (maxIters : Int) (tol : E) (im : Im) (init : S)
    (r : Trace S ((Fin n → K) × (Fin a → K)) K)
    (h : Aam.run z alg inverse map maxIters tol true im init = .ok r) :
    ∃ costs, r.costs = some costs ∧ costs.length = r.params.length ∧
      r.shapes.length = r.params.length ∧
      ∀ (k : Nat) (p : Fin n → K) (c : Fin a → K), r.params[k]? = some (p, c) →
        r.shapes[k]? = some (z.target p) ∧
        ∃ i, z.warp im p = .ok i ∧ costs[k]? = some (residual z.aBar z.A (z.mask i) c) := by
  unfold Aam.run at h
  cases hw : z.warp im (z.setTarget init) with
  | error e => simp only [hw] at h; cases h
  | ok i =>
    simp only [hw] at h
    obtain ⟨sF, hsF⟩ : ∃ sF, Optim.run (machine z alg inverse map im) false maxIters tol true
        ⟨z.setTarget init, z.pinvA *ᵥ (z.mask i - z.aBar), i, 0⟩ = (sF, .ok r) :=
      ⟨_, Prod.ext rfl h⟩
    obtain ⟨states, h1, h2, h3, -, h5⟩ := run_states (machine z alg inverse map im) maxIters tol
      true (fun s => z.warp im s.p = .ok s.i) _ sF r hw
      (fun s s' e _ hst => step_warp z alg inverse map im s s' e hst) hsF
    refine ⟨states.map (machine z alg inverse map im).cost, by simpa using h5, by simp [h3],
      by simp [h2, h3], ?_⟩
    intro k p c hk
    rw [h3, List.getElem?_map] at hk
    cases hst : states[k]? with
    | none => rw [hst] at hk; cases hk
    | some s =>
      rw [hst] at hk
      simp only [Option.map_some] at hk
      injection hk with hk
      obtain ⟨rfl, rfl⟩ := Prod.mk.inj hk
      refine ⟨by rw [h2, List.getElem?_map, hst]; rfl, s.i,
        h1 s (List.mem_of_getElem? hst), ?_⟩
      rw [List.getElem?_map, hst]
      simp only [Option.map_some, machine, cost, residual]
      cases alg <;> first | exact absurd rfl halg | (rw [sqNorm_dot]; rfl)

/-- **C78** (Wiberg): the costs are the least residual energies over all appearances of the
image warped with the reported shape parameters. -/
theorem C78_costs_wiberg [LinearOrder E] (z : Setup n a m K S Im W E) (hA : IsPinv z.A z.pinvA)
    (inverse map : Bool) (maxIters : Int) (tol : E) (im : Im) (init : S)
    (r : Trace S ((Fin n → K) × (Fin a → K)) K)
    (h : Aam.run z .wiberg inverse map maxIters tol true im init = .ok r) :
    ∃ costs, r.costs = some costs ∧ costs.length = r.params.length ∧
      r.shapes.length = r.params.length ∧
      ∀ (k : Nat) (p : Fin n → K) (c : Fin a → K), r.params[k]? = some (p, c) →
        r.shapes[k]? = some (z.target p) ∧
        ∃ i v, z.warp im p = .ok i ∧ costs[k]? = some v ∧
          IsLeastValue (residual z.aBar z.A (z.mask i)) v := by
  unfold Aam.run at h
  cases hw : z.warp im (z.setTarget init) with
  | error e => simp only [hw] at h; cases h
  | ok i =>
    simp only [hw] at h
    obtain ⟨sF, hsF⟩ : ∃ sF, Optim.run (machine z .wiberg inverse map im) false maxIters tol true
        ⟨z.setTarget init, z.pinvA *ᵥ (z.mask i - z.aBar), i, 0⟩ = (sF, .ok r) :=
      ⟨_, Prod.ext rfl h⟩
    obtain ⟨states, h1, h2, h3, -, h5⟩ := run_states (machine z .wiberg inverse map im) maxIters
      tol true (fun s => z.warp im s.p = .ok s.i) _ sF r hw
      (fun s s' e _ hst => step_warp z .wiberg inverse map im s s' e hst) hsF
    refine ⟨states.map (machine z .wiberg inverse map im).cost, by simpa using h5, by simp [h3],
      by simp [h2, h3], ?_⟩
    intro k p c hk
    rw [h3, List.getElem?_map] at hk
    cases hst : states[k]? with
    | none => rw [hst] at hk; cases hk
    | some s =>
      rw [hst] at hk
      simp only [Option.map_some] at hk
      injection hk with hk
      obtain ⟨rfl, rfl⟩ := Prod.mk.inj hk
      refine ⟨by rw [h2, List.getElem?_map, hst]; rfl, s.i, _,
        h1 s (List.mem_of_getElem? hst), by rw [List.getElem?_map, hst]; rfl, ?_⟩
      obtain ⟨e1, e2⟩ := init_min hA z.aBar (z.mask s.i)
      simp only [machine, cost, projectOut_eq]
      rw [← e1]
      exact ⟨⟨_, rfl⟩, e2⟩

/-- **C78** (project-out): the cost of a state is the least residual energy over all
appearances of the warped image. -/
theorem C78_costs_project_out (z : Setup n a m K S Im W E) (hA : IsPinv z.A z.pinvA)
    (inverse map : Bool) (im : Im) (s : PState n m K W) :
    IsLeastValue (residual z.aBar z.A (z.mask s.i))
      ((poMachine (projectOutEnv z) inverse map im).cost s) := by
  obtain ⟨e1, e2⟩ := init_min hA z.aBar (z.mask s.i)
  simp only [poMachine, projectOutEnv]
  rw [← e1]
  exact ⟨⟨_, rfl⟩, e2⟩

/-! ## C79: three forward algorithms are the same -/

/-- **C79** (simultaneous).  Without priors, on every image and from every starting shape,
the simultaneous and the project-out forward compositional algorithms give the
same fit (same shapes, same shape parameters, same exception if any), provided
the masked appearance components are linearly independent. -/
theorem C79_simultaneous_is_project_out [LinearOrder E] (z : Setup n a m K S Im W E)
    (hA : IsPinv z.A z.pinvA) (hind : z.pinvA * z.A = 1) (maxIters : Int) (tol : E) (im : Im)
    (init : S) (rc rc' : Bool) (cache : Cache n m K) :
    SameFit Prod.fst id (Aam.run z .simultaneous false false maxIters tol rc im init)
      (poRun (projectOutEnv z) false tol cache ⟨im, init, maxIters, rc', false⟩).2 := by
  unfold Aam.run poRun
  simp only [projectOutEnv]
  cases hw : z.warp im (z.setTarget init) with
  | error e => exact Or.inl ⟨e, rfl, rfl⟩
  | ok i =>
    simp only
    refine sameFit_of (wc := False) (loop_same (machine z .simultaneous false false im)
      (poMachine (projectOutEnv z) false false im) Prod.fst id False
      (fun s t => s.p = t.p ∧ s.i = t.i) maxIters tol ?_ ?_ ?_ ?_ _ 0 none _ _ _ _ rfl
      ⟨rfl, rfl⟩ rfl rfl (fun h => h.elim))
    · rintro s t ⟨h1, -⟩; simp only [machine, poMachine, projectOutEnv, h1]
    · rintro s t ⟨h1, -⟩; simp only [machine, poMachine, id, h1]
    · exact fun h => h.elim
    · rintro ⟨p, c, i, q⟩ ⟨ch, p', i'⟩ ⟨h1, h2⟩
      simp only at h1 h2
      subst h1 h2
      simp only [machine, step, simStep, poMachine, poStep, solveForward, jacobian,
        Bool.false_eq_true, if_false, projectOutEnv]
      by_cases hdet : (((1 - z.A * z.pinvA) * z.jacI i)ᵀ * z.jacI i).det = 0
      · left
        refine ⟨.linAlgError, ?_, ?_⟩
        · rw [solveAllMl, npSolve, if_pos ((sim_det_iff hA hind _).mpr hdet)]; rfl
        · rw [solveShapeMl, npSolve, if_pos hdet]; rfl
      · have hdet' := fun h => hdet ((sim_det_iff hA hind (z.jacI i)).mp h)
        cases hs : solveAllMl ((simJacobian z.A (z.jacI i))ᵀ * simJacobian z.A (z.jacI i))
            (simJacobian z.A (z.jacI i)) (z.mask i - appearance z c) with
        | error e => rw [solveAllMl, npSolve, if_neg hdet'] at hs; cases hs
        | ok q' =>
          obtain ⟨dc, dp⟩ := q'
          cases hp : solveShapeMl (((1 - z.A * z.pinvA) * z.jacI i)ᵀ * z.jacI i)
              ((1 - z.A * z.pinvA) * z.jacI i) (z.mask i - z.aBar) with
          | error e => rw [solveShapeMl, npSolve, if_neg hdet] at hp; cases hp
          | ok d =>
            have hs' : solveAllMl ((simJacobian z.A (z.jacI i))ᵀ * simJacobian z.A (z.jacI i))
              (simJacobian z.A (z.jacI i)) (z.mask i - z.aBar - z.A *ᵥ c) = .ok (dc, dp) := by
              rw [← hs, appearance, sub_sub]
            have := sim_eq_projected hA (z.jacI i) (z.mask i - z.aBar) c dc dp d hs' hp
            subst this
            simp only [advance, updateWarp, Bool.false_eq_true, if_false]
            cases hw' : z.warp im (p + dp) with
            | error e => exact Or.inl ⟨e, rfl, rfl⟩
            | ok i' => exact Or.inr ⟨_, rfl, rfl, rfl, rfl⟩

/-- **C79** (Wiberg).  With or without priors, the Wiberg and the project-out forward
compositional algorithms give the same fit, and the same costs. -/
theorem C79_wiberg_is_project_out [LinearOrder E] (z : Setup n a m K S Im W E)
    (map : Bool) (maxIters : Int) (tol : E) (im : Im) (init : S) (rc : Bool)
    (cache : Cache n m K) :
    SameFit Prod.fst id (Aam.run z .wiberg false map maxIters tol rc im init)
      (poRun (projectOutEnv z) false tol cache ⟨im, init, maxIters, rc, map⟩).2 ∧
    ∀ r₁ r₂, Aam.run z .wiberg false map maxIters tol rc im init = .ok r₁ →
      (poRun (projectOutEnv z) false tol cache ⟨im, init, maxIters, rc, map⟩).2 = .ok r₂ →
      r₁.costs = r₂.costs := by
  have key : SameOutcome Prod.fst id True (Aam.run z .wiberg false map maxIters tol rc im init)
      (poRun (projectOutEnv z) false tol cache ⟨im, init, maxIters, rc, map⟩).2 := by
    unfold Aam.run poRun
    simp only [projectOutEnv]
    cases hw : z.warp im (z.setTarget init) with
    | error e => rfl
    | ok i =>
      simp only
      have hc : ∀ s t, (s.p = t.p ∧ s.i = t.i) →
          (machine z .wiberg false map im).cost s =
          (poMachine (projectOutEnv z) false map im).cost t := by
        rintro s t ⟨-, h2⟩
        simp only [machine, poMachine, cost, projectOut_eq, projectOutEnv, h2]
      refine loop_same (machine z .wiberg false map im)
        (poMachine (projectOutEnv z) false map im) Prod.fst id True
        (fun s t => s.p = t.p ∧ s.i = t.i) maxIters tol ?_ ?_ (fun _ => hc) ?_ _ 0 none _ _ _ _ rfl
        ⟨rfl, rfl⟩ rfl rfl ?_
      · rintro s t ⟨h1, -⟩; simp only [machine, poMachine, projectOutEnv, h1]
      · rintro s t ⟨h1, -⟩; simp only [machine, poMachine, id, h1]
      · rintro ⟨p, c, i, q⟩ ⟨ch, p', i'⟩ ⟨h1, h2⟩
        simp only at h1 h2
        subst h1 h2
        simp only [machine, step, wibStep, poMachine, poStep, solveForward, jacobian,
          Bool.false_eq_true, if_false, projectOutEnv, projectOutMat_eq]
        generalize hr : (if map = true then _ else _ : Except PyErr (Fin n → K)) = r
        cases r with
        | error e => exact Or.inl ⟨e, rfl, rfl⟩
        | ok dp =>
          simp only [advance, updateWarp, Bool.false_eq_true, if_false]
          cases hw' : z.warp im (p + dp) with
          | error e => exact Or.inl ⟨e, rfl, rfl⟩
          | ok i' => exact Or.inr ⟨_, rfl, rfl, rfl, rfl⟩
      · intro _
        cases rc
        · rfl
        · simp only [if_true, Bool.false_eq_true, if_false]
          congr 2
          exact hc _ _ ⟨rfl, rfl⟩
  refine ⟨sameFit_of key, ?_⟩
  intro r₁ r₂ h1 h2
  rw [h1, h2] at key
  exact key.2.2 trivial

/-! ## C80: optimisers with priors -/

/-- **C80** fails for the alternating algorithms: with `map_inference` the first iteration
raises `ValueError` whenever the number of masked features differs from the number
of appearance components, for every image and every starting shape. -/
theorem C80_alternating_map_violated [LinearOrder E] (z : Setup n a m K S Im W E)
    (hsize : a ≠ m) (inverse : Bool) (maxIters : Int) (hmax : 0 < maxIters) (tol : E) (rc : Bool)
    (im : Im) (init : S) (i : W) (hw : z.warp im (z.setTarget init) = .ok i) :
    Aam.run z .alternating inverse true maxIters tol rc im init = .error .valueError := by
  unfold Aam.run
  simp only [hw]
  unfold Optim.run
  rw [loop_unfold, if_pos ⟨hmax, trivial⟩]
  have : (machine z .alternating inverse true im).step
      ⟨z.setTarget init, z.pinvA *ᵥ (z.mask i - z.aBar), i, 0⟩ =
      (⟨z.setTarget init, z.pinvA *ᵥ (z.mask i - z.aBar), i, 0⟩, .error .valueError) := by
    simp only [machine, step, altStep, altAppearance, if_true, npDot, dif_neg hsize, bind,
      Except.bind]
  rw [this]

/-- **C80** (partial: simultaneous, modified alternating, Wiberg and forward project-out, up
to 256 shape parameters).  With positive priors and a warp that never raises, a run with
`map_inference` returns a result, whatever the image, the starting shape and the
Jacobians. -/
theorem C80_map_returns_partial [LinearOrder E] (z : Setup n a m K S Im W E)
    (hA : IsPinv z.A z.pinvA) (hpos : ∀ i, 0 < z.priorS i) (hposA : ∀ i, 0 < z.priorA i)
    (hn : n ≤ 256)
    (hwarp : ∀ im p, ∃ i, z.warp im p = .ok i) (inverse : Bool) (maxIters : Int) (tol : E)
    (rc : Bool) (im : Im) (init : S) (cache : Cache n m K) :
    (∃ r, Aam.run z .simultaneous inverse true maxIters tol rc im init = .ok r) ∧
    (∃ r, Aam.run z .modifiedAlternating inverse true maxIters tol rc im init = .ok r) ∧
    (∃ r, Aam.run z .wiberg inverse true maxIters tol rc im init = .ok r) ∧
    (∃ r, (poRun (projectOutEnv z) false tol cache ⟨im, init, maxIters, rc, true⟩).2 = .ok r) := by
  obtain ⟨i, hi⟩ := hwarp im (z.setTarget init)
  have adv : ∀ s J dp c', ∃ s' e, advance z inverse im s J dp c' = (s', .ok e) := by
    intro s J dp c'
    obtain ⟨i', hi'⟩ := hwarp im (updateWarp inverse s.p dp)
    exact ⟨_, _, by rw [advance]; simp only [hi']; rfl⟩
  refine ⟨?_, ?_, ?_, ?_⟩
  · unfold Aam.run
    simp only [hi]
    apply loop_total
    intro s
    obtain ⟨dc, dp, hd⟩ := solveAllMap_total (simJacobian z.A (jacobian z inverse s))
      (z.mask s.i - appearance z s.c) z.priorA s.c z.priorS s.p hposA hpos hn
    simp only [machine, step, simStep, if_true, hd, Except.map]
    exact adv _ _ _ _
  · unfold Aam.run
    simp only [hi]
    apply loop_total
    intro s
    obtain ⟨d, hd⟩ := map_total (Q := 1) transpose_one (Matrix.one_mul 1) (jacobian z inverse s)
      (z.mask s.i - appearance z s.c) z.priorS s.p hpos hn
    rw [Matrix.one_mul] at hd
    simp only [machine, step, modStep, if_true, hd]
    exact adv _ _ _ _
  · unfold Aam.run
    simp only [hi]
    apply loop_total
    intro s
    obtain ⟨d, hd⟩ := map_total hA.q_symm hA.q_idem (jacobian z inverse s)
      (z.mask s.i - z.aBar) z.priorS s.p hpos hn
    rw [← projectOutMat_eq] at hd
    simp only [machine, step, wibStep, if_true, hd]
    exact adv _ _ _ _
  · unfold poRun
    simp only [projectOutEnv, hi]
    apply loop_total
    intro s
    obtain ⟨d, hd⟩ := map_total hA.q_symm hA.q_idem (z.jacI s.i)
      (z.mask s.i - z.aBar) z.priorS s.p hpos hn
    obtain ⟨i', hi'⟩ := hwarp im (s.p + d)
    simp only [poMachine, poStep, solveForward, if_true, Bool.false_eq_true, if_false, hd, hi']
    exact ⟨_, _, rfl⟩

end

/-! ### A small model for which the hypotheses hold -/

/-- Two features, one appearance component (the first feature), one shape parameter, which
is what the second feature shows; the image has 3 in the first feature. -/
def tinyAam : Setup 1 1 2 ℚ (Fin 1 → ℚ) Unit (Fin 1 → ℚ) ℚ where
  setTarget := id
  target := id
  warp _ p := .ok p
  mask w := ![3, w 0 - 5]
  jacI _ := !![0; 1]
  jacA _ := !![0; -1]
  aBar := 0
  A := !![1; 0]
  pinvA := !![1, 0]
  priorS := 1
  priorA := 1
  dist s t := |s 0 - t 0|

theorem tinyAam_pinv : IsPinv tinyAam.A tinyAam.pinvA :=
  ⟨by decide +kernel, by decide +kernel, by decide +kernel, by decide +kernel⟩

/-- Projecting out removes the first feature. -/
example : projectOut tinyAam ![3, 4] = ![0, 4] := by decide +kernel

/-- The runs of C78 and C79 return. -/
example : ∃ r, Aam.run tinyAam .simultaneous false false 5 0 true () (fun _ => 1) = .ok r := by
  unfold Aam.run
  simp only [tinyAam]
  apply loop_total
  intro s
  have hdet : ((simJacobian tinyAam.A (!![0; 1] : Matrix (Fin 2) (Fin 1) ℚ))ᵀ *
    simJacobian tinyAam.A (!![0; 1] : Matrix (Fin 2) (Fin 1) ℚ)).det ≠ 0 := by decide +kernel
  simp only [tinyAam] at hdet
  simp only [machine, step, simStep, jacobian, Bool.false_eq_true, if_false, solveAllMl, npSolve,
    if_neg hdet, Except.map, advance]
  exact ⟨_, _, rfl⟩

example : tinyAam.pinvA * tinyAam.A = 1 := by decide +kernel

/-- The hypotheses of C80 (both directions) hold. -/
example : (1 : Nat) ≠ 2 ∧ (∀ i, 0 < tinyAam.priorS i) ∧ (∀ i, 0 < tinyAam.priorA i) ∧
    ∀ im p, ∃ i, tinyAam.warp im p = .ok i :=
  ⟨by decide, fun _ => by simp [tinyAam], fun _ => by simp [tinyAam], fun _ p => ⟨p, rfl⟩⟩

end Menpofit
