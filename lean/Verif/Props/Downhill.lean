import Verif.Lemmas.Downhill
import Verif.Props.GaussNewton
import Mathlib.Analysis.Calculus.Deriv.Pow
/-!
# C132: fitting goes downhill

Property theorems about the forward AAM and ATM optimisers
(`/repo/menpofit/aam/algorithm/lk.py`, `/repo/menpofit/atm/algorithm.py`).  The full
property, that the cost falls from iteration to iteration, fails: a full Gauss-Newton
step can overshoot.  What holds is that every step starts downhill, and that an image
which depends linearly on the parameters is fitted by one iteration.
-/

namespace Menpofit

open Matrix Spec Optim GN Aam

section
variable {n a m : Nat} {S Im W E : Type} [LinearOrder E]

/-- The derivative of the residual that is seen through a matrix. -/
theorem seen_derivative {jac : W → Matrix (Fin m) (Fin n) ℝ} {I : (Fin n → ℝ) → Fin m → ℝ} {p : Fin n → ℝ} {i : W}
    (h : HasFDerivAt I (LinearMap.toContinuousLinearMap (toLin' (jac i))) p) (Q : Matrix (Fin m) (Fin m) ℝ)
    (x : Fin m → ℝ) : ∃ G' : (Fin n → ℝ) →L[ℝ] (Fin m → ℝ), HasFDerivAt (fun q => Q *ᵥ (I q - x)) G' p ∧
      ∀ e, G' e = Q *ᵥ (jac i *ᵥ e) := by
  refine ⟨(LinearMap.toContinuousLinearMap (toLin' Q)).comp
    (LinearMap.toContinuousLinearMap (toLin' (jac i))), ?_, fun e => by simp⟩
  have h1 := (LinearMap.toContinuousLinearMap (toLin' Q)).hasFDerivAt.comp p (h.sub_const x)
  refine h1.congr_of_eventuallyEq (Filter.Eventually.of_forall fun q => ?_)
  simp

omit [LinearOrder E] in
/-- One forward step of the project-out and ATM algorithms. -/
theorem poStep_downhill (env : Env n m ℝ S Im W E) (hQs : env.Qᵀ = env.Q) (hQi : env.Q * env.Q = env.Q)
    (hprior : ∀ k, 0 ≤ env.prior k) (map : Bool) (im : Im) (I : (Fin n → ℝ) → Fin m → ℝ)
    (hI : SeesSmoothly env.warp env.mask env.jac im I) (s s' : PState n m ℝ W) (eps : E)
    (hs : env.warp im s.p = .ok s.i) (h : poStep env false map im s = (s', .ok eps)) :
    env.warp im s'.p = .ok s'.i ∧
    StartsDownhill (fun q => sqNorm (env.Q *ᵥ (I q - env.aBar)) + if map then priorEnergy env.prior q else 0)
      s.p s'.p := by
  unfold poStep at h
  simp only [Bool.false_eq_true, if_false] at h
  cases hd : solveForward env map s with
  | error e => rw [hd] at h; cases h
  | ok d =>
    rw [hd] at h
    simp only at h
    cases hw : env.warp im (s.p + d) with
    | error e => rw [hw] at h; cases h
    | ok i' =>
      rw [hw] at h
      simp only at h
      obtain ⟨rfl, -⟩ := Prod.mk.inj h
      refine ⟨hw, ?_⟩
      obtain ⟨G', hG, hG'⟩ := seen_derivative (hI.derivative _ _ hs) env.Q env.aBar
      have e0 : ∀ e, env.Q *ᵥ (I s.p - env.aBar) + G' e = env.Q *ᵥ (env.mask s.i - env.aBar + env.jac s.i *ᵥ e) := by
        intro e
        rw [hG', hI.sees _ _ hs, mulVec_add]
      cases map with
      | true =>
        obtain ⟨B', hB, hBe⟩ := priorEnergy_quadratic env.prior s.p
        refine downhill_of_residual hG hB (priorEnergy env.prior) (priorEnergy_smul env.prior) hBe ?_
        intro e
        have := map_min hQs hQi _ _ _ _ _ hprior hd e
        simpa only [e0, if_true] using this
      | false =>
        refine downhill_of_residual hG (hasFDerivAt_const (0 : ℝ) s.p) (fun _ => 0) (by simp) (by simp) ?_
        intro e
        have := ml_min hQs hQi _ _ _ hd e
        simpa only [e0, add_zero, Bool.false_eq_true, if_false] using this

/-- **C132** (project-out AAM and ATM, forward).  Every step of a fit starts downhill: along
the direction it takes the energy of the residual the algorithm minimises (with the prior, if there
is one) falls at first; a step that does not move is taken only where that energy is stationary.
Missing from the full property: the whole step need not reduce it
(`C132_costs_rise_violated`). -/
theorem C132_project_out_partial (env : Env n m ℝ S Im W E) (hQs : env.Qᵀ = env.Q) (hQi : env.Q * env.Q = env.Q)
    (hprior : ∀ k, 0 ≤ env.prior k) (tol : E) (cache : Cache n m ℝ) (x : Input S Im E)
    (I : (Fin n → ℝ) → Fin m → ℝ) (hI : SeesSmoothly env.warp env.mask env.jac x.im I)
    (r : Trace S (Fin n → ℝ) ℝ) (h : (poRun env false tol cache x).2 = .ok r) (p p' : Fin n → ℝ)
    (hp : Consecutive r.params p p') :
    StartsDownhill (fun q => sqNorm (env.Q *ᵥ (I q - env.aBar)) + if x.map then priorEnergy env.prior q else 0)
      p p' := by
  unfold poRun at h
  cases hw : env.warp x.im (env.setTarget x.init) with
  | error e => simp only [hw] at h; cases h
  | ok i =>
    simp only [hw] at h
    obtain ⟨s, s', e, h1, h2, rfl, rfl⟩ := run_consecutive _ _ _ _ (fun s => env.warp x.im s.p = .ok s.i) _ r hw
      (fun s s' e hs hst => (poStep_downhill env hQs hQi hprior x.map x.im I hI s s' e hs hst).1) h hp
    exact (poStep_downhill env hQs hQi hprior x.map x.im I hI s s' e h1 h2).2

/-- **C132** (an image that is linear in the parameters, project-out AAM and ATM, forward).  From
the first iteration on, all parameters are those at which the energy is least, for every
starting shape. -/
theorem C132_project_out_linear (env : Env n m ℝ S Im W E) (hQs : env.Qᵀ = env.Q) (hQi : env.Q * env.Q = env.Q)
    (hprior : ∀ k, 0 ≤ env.prior k) (tol : E) (cache : Cache n m ℝ) (x : Input S Im E)
    (b : Fin m → ℝ) (L : Matrix (Fin m) (Fin n) ℝ) (hI : SeesLinearly env.warp env.mask env.jac x.im b L)
    (r : Trace S (Fin n → ℝ) ℝ) (h : (poRun env false tol cache x).2 = .ok r) (k : Nat) (p : Fin n → ℝ)
    (hp : r.params[k + 1]? = some p) :
    UniqueMin (fun q => sqNorm (env.Q *ᵥ (b + L *ᵥ q - env.aBar)) + if x.map then priorEnergy env.prior q else 0)
      p := by
  unfold poRun at h
  cases hw : env.warp x.im (env.setTarget x.init) with
  | error e => simp only [hw] at h; cases h
  | ok i =>
    simp only [hw] at h
    have key : ∀ s s' e, env.warp x.im s.p = .ok s.i → poStep env false x.map x.im s = (s', .ok e) →
        env.warp x.im s'.p = .ok s'.i ∧ UniqueMin (fun q => sqNorm (env.Q *ᵥ (b + L *ᵥ q - env.aBar)) +
          if x.map then priorEnergy env.prior q else 0) s'.p := by
      intro s s' e hs hst
      unfold poStep at hst
      simp only [Bool.false_eq_true, if_false] at hst
      cases hd : solveForward env x.map s with
      | error e => rw [hd] at hst; cases hst
      | ok d =>
        rw [hd] at hst
        simp only at hst
        cases hw : env.warp x.im (s.p + d) with
        | error e => rw [hw] at hst; cases hst
        | ok i' =>
          rw [hw] at hst
          simp only at hst
          obtain ⟨rfl, -⟩ := Prod.mk.inj hst
          refine ⟨hw, ?_⟩
          have e0 : ∀ q, env.mask s.i - env.aBar + env.jac s.i *ᵥ (q - s.p) = b + L *ᵥ q - env.aBar := by
            intro q
            rw [hI.sees _ _ hs, hI.derivative _ _ hs, mulVec_sub]
            abel
          intro q
          have e1 : ∀ q, q = s.p + (q - s.p) := fun q => by abel
          cases hm : x.map with
          | true =>
            rw [hm] at hd
            have := map_min hQs hQi _ _ _ _ _ hprior hd (q - s.p)
            simp only at this
            rw [← e1 q, e0 q] at this
            have e2 := e0 (s.p + d)
            rw [add_sub_cancel_left] at e2
            rw [e2] at this
            refine ⟨this.1, fun hq => ?_⟩
            rw [e1 q, this.2 hq]
          | false =>
            rw [hm] at hd
            have := ml_min hQs hQi _ _ _ hd (q - s.p)
            simp only at this
            rw [e0 q] at this
            have e2 := e0 (s.p + d)
            rw [add_sub_cancel_left] at e2
            rw [e2] at this
            simp only [Bool.false_eq_true, if_false, add_zero]
            refine ⟨this.1, fun hq => ?_⟩
            rw [e1 q, this.2 hq]
    obtain ⟨s, s', e, h1, h2, rfl⟩ := run_later _ _ _ _ (fun s => env.warp x.im s.p = .ok s.i) _ r hw
      (fun s s' e hs hst => (key s s' e hs hst).1) h hp
    exact (key s s' e h1 h2).2

/-- **C132** (truth of a linear image).  If the image shows, at the parameters `p₀`, exactly an
instance of the model, one iteration of the project-out algorithm finds `p₀` from anywhere. -/
theorem C132_project_out_finds (z : Setup n a m ℝ S Im W E) (hA : IsPinv z.A z.pinvA)
    (tol : E) (cache : Cache n m ℝ) (im : Im) (init : S) (maxIters : Int) (costs : Bool)
    (b : Fin m → ℝ) (L : Matrix (Fin m) (Fin n) ℝ) (hI : SeesLinearly z.warp z.mask z.jacI im b L)
    (p₀ : Fin n → ℝ) (c₀ : Fin a → ℝ) (h₀ : b + L *ᵥ p₀ = z.aBar + z.A *ᵥ c₀)
    (hprior : ∀ k, 0 ≤ z.priorS k)
    (r : Trace S (Fin n → ℝ) ℝ)
    (h : (poRun (projectOutEnv z) false tol cache ⟨im, init, maxIters, costs, false⟩).2 = .ok r) (k : Nat)
    (p : Fin n → ℝ) (hp : r.params[k + 1]? = some p) : p = p₀ := by
  have h1 := C132_project_out_linear (projectOutEnv z) hA.q_symm hA.q_idem hprior tol cache
    ⟨im, init, maxIters, costs, false⟩ b L hI r h k p hp p₀
  have h2 : (projectOutEnv z).Q *ᵥ (b + L *ᵥ p₀ - (projectOutEnv z).aBar) = 0 := by
    simp only [projectOutEnv, h₀, add_sub_cancel_left]
    rw [mulVec_mulVec, hA.q_A, zero_mulVec]
  simp only [Bool.false_eq_true, if_false, add_zero, h2] at h1
  have h3 : sqNorm (0 : Fin m → ℝ) = 0 := (sqNorm_zero_iff _).mpr rfl
  rw [h3] at h1
  exact (h1.2 (le_antisymm (sqNorm_nonneg' _) h1.1)).symm

/-! ## The algorithms with explicit appearance parameters -/

omit [LinearOrder E] in
/-- One forward step of the simultaneous algorithm. -/
theorem simStep_downhill (z : Setup n a m ℝ S Im W E) (hS : ∀ k, 0 ≤ z.priorS k) (hA : ∀ k, 0 ≤ z.priorA k)
    (map : Bool) (im : Im) (I : (Fin n → ℝ) → Fin m → ℝ) (hI : SeesSmoothly z.warp z.mask z.jacI im I)
    (s s' : St n a m ℝ W) (eps : E) (hs : z.warp im s.p = .ok s.i)
    (h : step z .simultaneous false map im s = (s', .ok eps)) :
    StartsDownhill (fun q : (Fin n → ℝ) × (Fin a → ℝ) => residual z.aBar z.A (I q.1) q.2 +
      if map then priorEnergy z.priorS q.1 + priorEnergy z.priorA q.2 else 0) (s.p, s.c) (s'.p, s'.c) := by
  obtain ⟨G', hG, hG'⟩ : ∃ G' : (Fin n → ℝ) × (Fin a → ℝ) →L[ℝ] (Fin m → ℝ),
      HasFDerivAt (fun q : (Fin n → ℝ) × (Fin a → ℝ) => I q.1 - (z.aBar + z.A *ᵥ q.2)) G' (s.p, s.c) ∧
        ∀ q, G' q = z.jacI s.i *ᵥ q.1 - z.A *ᵥ q.2 := by
    have h1 : HasFDerivAt (fun q : (Fin n → ℝ) × (Fin a → ℝ) => I q.1) _ (s.p, s.c) :=
      (hI.derivative _ _ hs).comp (s.p, s.c) (hasFDerivAt_fst (𝕜 := ℝ) (p := (s.p, s.c)))
    have h2 : HasFDerivAt (fun q : (Fin n → ℝ) × (Fin a → ℝ) => z.A *ᵥ q.2) _ (s.p, s.c) :=
      (LinearMap.toContinuousLinearMap (toLin' z.A)).hasFDerivAt.comp (s.p, s.c)
        (hasFDerivAt_snd (𝕜 := ℝ) (p := (s.p, s.c)))
    exact ⟨_, h1.sub (h2.const_add z.aBar), fun q => rfl⟩
  have e0 : ∀ q : (Fin n → ℝ) × (Fin a → ℝ), I s.p - (z.aBar + z.A *ᵥ s.c) + G' q =
      z.mask s.i - appearance z s.c + z.jacI s.i *ᵥ q.1 - z.A *ᵥ q.2 := by
    intro q
    rw [hI.sees _ _ hs, appearance, hG']
    abel
  unfold step simStep at h
  simp only [jacobian, Bool.false_eq_true, if_false] at h
  cases map with
  | false =>
    simp only [Bool.false_eq_true, if_false] at h
    cases hd : solveAllMl ((simJacobian z.A (z.jacI s.i))ᵀ * simJacobian z.A (z.jacI s.i))
        (simJacobian z.A (z.jacI s.i)) (z.mask s.i - appearance z s.c) with
    | error e => rw [hd] at h; cases h
    | ok d =>
      rw [hd] at h
      obtain ⟨-, h2, h3, -⟩ := advance_ok _ _ _ _ _ _ _ _ _ h
      simp only [Bool.false_eq_true, if_false] at h2
      have := downhill_of_residual (d := (d.2, d.1)) hG (hasFDerivAt_const (0 : ℝ) (s.p, s.c)) (fun _ => 0)
        (by simp) (by simp) (by
          intro e
          have := sim_min _ _ _ _ _ hd e.2 e.1
          simp only [e0, add_zero]
          exact ⟨this.1, fun hq => Prod.ext (this.2 hq).2 (this.2 hq).1⟩)
      rw [h2, h3]
      simpa only [Spec.residual, Bool.false_eq_true, if_false, add_zero, Prod.mk_add_mk] using this
  | true =>
    simp only [if_true] at h
    cases hd : solveAllMap ((simJacobian z.A (z.jacI s.i))ᵀ * simJacobian z.A (z.jacI s.i))
        (simJacobian z.A (z.jacI s.i)) (z.mask s.i - appearance z s.c) z.priorA s.c z.priorS s.p with
    | error e => rw [hd] at h; cases h
    | ok d =>
      rw [hd] at h
      simp only [Except.map] at h
      obtain ⟨-, h2, h3, -⟩ := advance_ok _ _ _ _ _ _ _ _ _ h
      simp only [Bool.false_eq_true, if_false] at h2
      obtain ⟨BS, hBS, hBSe⟩ := priorEnergy_quadratic z.priorS s.p
      obtain ⟨BA, hBA, hBAe⟩ := priorEnergy_quadratic z.priorA s.c
      have hB : HasFDerivAt (fun q : (Fin n → ℝ) × (Fin a → ℝ) => priorEnergy z.priorS q.1 + priorEnergy z.priorA q.2)
          (BS.comp (ContinuousLinearMap.fst ℝ _ _) + BA.comp (ContinuousLinearMap.snd ℝ _ _)) (s.p, s.c) := by
        have h1 : HasFDerivAt (fun q : (Fin n → ℝ) × (Fin a → ℝ) => priorEnergy z.priorS q.1) _ (s.p, s.c) :=
          HasFDerivAt.comp (s.p, s.c) (f := Prod.fst) hBS (hasFDerivAt_fst (𝕜 := ℝ) (p := (s.p, s.c)))
        have h2 : HasFDerivAt (fun q : (Fin n → ℝ) × (Fin a → ℝ) => priorEnergy z.priorA q.2) _ (s.p, s.c) :=
          HasFDerivAt.comp (s.p, s.c) (f := Prod.snd) hBA (hasFDerivAt_snd (𝕜 := ℝ) (p := (s.p, s.c)))
        exact h1.add h2
      have := downhill_of_residual (d := (fun i => d.2 (Fin.cast (by omega) i), d.1)) hG hB
        (fun e => priorEnergy z.priorS e.1 + priorEnergy z.priorA e.2)
        (by intro t e; simp only [Prod.smul_fst, Prod.smul_snd, priorEnergy_smul]; ring)
        (by intro e
            simp only [Prod.fst_add, Prod.snd_add, hBSe, hBAe, _root_.add_apply,
              ContinuousLinearMap.comp_apply, ContinuousLinearMap.coe_fst', ContinuousLinearMap.coe_snd']
            ring) (by
          intro e
          have := C17_simultaneous_map _ _ _ _ _ _ hA hS d.1 d.2 hd (Fin.append e.2 e.1)
          have e1 : ∀ (x : Fin a → ℝ) (y : Fin n → ℝ), (fun i => s.c i + Fin.append x y (Fin.castAdd n i)) = s.c + x := by
            intro x y; funext i; simp
          have e2 : ∀ (x : Fin a → ℝ) (y : Fin n → ℝ), (fun i => s.p i + Fin.append x y (Fin.natAdd a i)) = s.p + y := by
            intro x y; funext i; simp
          have e3 : ∀ (x : Fin a → ℝ) (y : Fin n → ℝ), z.mask s.i - appearance z s.c + simJacobian z.A (z.jacI s.i) *ᵥ
              Fin.append x y = z.mask s.i - appearance z s.c + z.jacI s.i *ᵥ y - z.A *ᵥ x := by
            intro x y
            rw [simJacobian_mulVec]
            simp only [Fin.append_left, Fin.append_right]
            abel
          simp only [e1, e2, e3] at this
          simp only [e0, Prod.fst_add, Prod.snd_add]
          refine ⟨by linarith [this.1], fun hq => ?_⟩
          have h5 := this.2 (by linarith)
          refine Prod.ext ?_ ?_
          · funext i
            have := congrFun h5 (Fin.natAdd a i); simpa using this
          · funext i
            have := congrFun h5 (Fin.castAdd n i); simpa using this)
      rw [h2, h3]
      simpa only [Spec.residual, if_true, Prod.mk_add_mk] using this

/-- **C132** (simultaneous, forward).  Every step starts downhill in the shape and the appearance
parameters together, with or without priors. -/
theorem C132_simultaneous_partial (z : Setup n a m ℝ S Im W E) (hS : ∀ k, 0 ≤ z.priorS k)
    (hA : ∀ k, 0 ≤ z.priorA k) (map : Bool) (maxIters : Int) (tol : E) (costs : Bool) (im : Im) (init : S)
    (I : (Fin n → ℝ) → Fin m → ℝ) (hI : SeesSmoothly z.warp z.mask z.jacI im I)
    (r : Trace S ((Fin n → ℝ) × (Fin a → ℝ)) ℝ)
    (h : Aam.run z .simultaneous false map maxIters tol costs im init = .ok r)
    (q q' : (Fin n → ℝ) × (Fin a → ℝ)) (hq : Consecutive r.params q q') :
    StartsDownhill (fun q : (Fin n → ℝ) × (Fin a → ℝ) => residual z.aBar z.A (I q.1) q.2 +
      if map then priorEnergy z.priorS q.1 + priorEnergy z.priorA q.2 else 0) q q' := by
  unfold Aam.run at h
  cases hw : z.warp im (z.setTarget init) with
  | error e => simp only [hw] at h; cases h
  | ok i =>
    simp only [hw] at h
    obtain ⟨s, s', e, h1, h2, rfl, rfl⟩ := run_consecutive _ _ _ _ (fun s => z.warp im s.p = .ok s.i) _ r hw
      (fun s s' e hs hst => step_warp z .simultaneous false map im s s' e hst) h hq
    exact simStep_downhill z hS hA map im I hI s s' e h1 h2

omit [LinearOrder E] in
/-- One forward step in the shape parameters, at fixed appearance parameters `c`. -/
theorem shape_downhill (z : Setup n a m ℝ S Im W E) (im : Im) (I : (Fin n → ℝ) → Fin m → ℝ)
    (hI : SeesSmoothly z.warp z.mask z.jacI im I) (s : St n a m ℝ W) (hs : z.warp im s.p = .ok s.i)
    (hS : ∀ k, 0 ≤ z.priorS k) (map : Bool) (Q : Matrix (Fin m) (Fin m) ℝ) (hQs : Qᵀ = Q) (hQi : Q * Q = Q)
    (x : Fin m → ℝ) (d : Fin n → ℝ)
    (hd : (if map then (solveShapeMap ((Q * z.jacI s.i)ᵀ * z.jacI s.i) (Q * z.jacI s.i) (z.mask s.i - x) z.priorS s.p).2
      else solveShapeMl ((Q * z.jacI s.i)ᵀ * z.jacI s.i) (Q * z.jacI s.i) (z.mask s.i - x)) = .ok d) :
    StartsDownhill (fun q => sqNorm (Q *ᵥ (I q - x)) + if map then priorEnergy z.priorS q else 0)
      s.p (s.p + d) := by
  obtain ⟨G', hG, hG'⟩ := seen_derivative (hI.derivative _ _ hs) Q x
  have e0 : ∀ e, Q *ᵥ (I s.p - x) + G' e = Q *ᵥ (z.mask s.i - x + z.jacI s.i *ᵥ e) := by
    intro e
    rw [hG', hI.sees _ _ hs, mulVec_add]
  cases map with
  | true =>
    simp only [if_true] at hd
    obtain ⟨B', hB, hBe⟩ := priorEnergy_quadratic z.priorS s.p
    refine downhill_of_residual hG hB (priorEnergy z.priorS) (priorEnergy_smul z.priorS) hBe ?_
    intro e
    have := map_min hQs hQi _ _ _ _ _ hS hd e
    simpa only [e0, if_true] using this
  | false =>
    simp only [Bool.false_eq_true, if_false] at hd
    refine downhill_of_residual hG (hasFDerivAt_const (0 : ℝ) s.p) (fun _ => 0) (by simp) (by simp) ?_
    intro e
    have := ml_min hQs hQi _ _ _ hd e
    simpa only [e0, add_zero, Bool.false_eq_true, if_false] using this

/-- **C132** (Wiberg, forward).  Every step starts downhill in what is left of the residual after
the best appearance is taken out, with or without a prior. -/
theorem C132_wiberg_partial (z : Setup n a m ℝ S Im W E) (hA : IsPinv z.A z.pinvA) (hS : ∀ k, 0 ≤ z.priorS k)
    (map : Bool) (maxIters : Int) (tol : E) (costs : Bool) (im : Im) (init : S)
    (I : (Fin n → ℝ) → Fin m → ℝ) (hI : SeesSmoothly z.warp z.mask z.jacI im I)
    (r : Trace S ((Fin n → ℝ) × (Fin a → ℝ)) ℝ)
    (h : Aam.run z .wiberg false map maxIters tol costs im init = .ok r)
    (q q' : (Fin n → ℝ) × (Fin a → ℝ)) (hq : Consecutive r.params q q') :
    ∃ F : (Fin n → ℝ) → ℝ, (∀ p, IsLeastValue (residual z.aBar z.A (I p)) (F p)) ∧
      StartsDownhill (fun p => F p + if map then priorEnergy z.priorS p else 0) q.1 q'.1 := by
  refine ⟨fun p => sqNorm ((1 - z.A * z.pinvA) *ᵥ (I p - z.aBar)), ?_, ?_⟩
  · intro p
    obtain ⟨e1, e2⟩ := init_min hA z.aBar (I p)
    have e3 : sqNorm ((1 - z.A * z.pinvA) *ᵥ (I p - z.aBar)) =
        (I p - z.aBar) ⬝ᵥ ((1 - z.A * z.pinvA) *ᵥ (I p - z.aBar)) := by
      rw [sqNorm_dot, proj_quad hA.q_symm hA.q_idem]
    simp only [e3]
    rw [← e1]
    exact ⟨⟨_, rfl⟩, e2⟩
  · unfold Aam.run at h
    cases hw : z.warp im (z.setTarget init) with
    | error e => simp only [hw] at h; cases h
    | ok i =>
      simp only [hw] at h
      obtain ⟨s, s', e, h1, h2, rfl, rfl⟩ := run_consecutive _ _ _ _ (fun s => z.warp im s.p = .ok s.i) _ r hw
        (fun s s' e hs hst => step_warp z .wiberg false map im s s' e hst) h hq
      simp only [machine, step, wibStep, jacobian, Bool.false_eq_true, if_false, projectOutMat_eq] at h2
      split at h2
      · cases h2
      · next dp hd =>
        obtain ⟨-, h4, -⟩ := advance_ok _ _ _ _ _ _ _ _ _ h2
        simp only [Bool.false_eq_true, if_false] at h4
        have := shape_downhill z im I hI s h1 hS map _ hA.q_symm hA.q_idem z.aBar dp hd
        simp only [machine]
        rw [h4]
        exact this

/-- **C132** (alternating, forward).  With the appearance parameters of an iteration, its step in the
shape parameters starts downhill. -/
theorem C132_alternating_partial (z : Setup n a m ℝ S Im W E) (hS : ∀ k, 0 ≤ z.priorS k)
    (maxIters : Int) (tol : E) (costs : Bool) (im : Im) (init : S)
    (I : (Fin n → ℝ) → Fin m → ℝ) (hI : SeesSmoothly z.warp z.mask z.jacI im I)
    (r : Trace S ((Fin n → ℝ) × (Fin a → ℝ)) ℝ)
    (h : Aam.run z .alternating false false maxIters tol costs im init = .ok r)
    (q q' : (Fin n → ℝ) × (Fin a → ℝ)) (hq : Consecutive r.params q q') :
    StartsDownhill (fun p => residual z.aBar z.A (I p) q'.2) q.1 q'.1 := by
  unfold Aam.run at h
  cases hw : z.warp im (z.setTarget init) with
  | error e => simp only [hw] at h; cases h
  | ok i =>
    simp only [hw] at h
    obtain ⟨s, s', e, h1, h2, rfl, rfl⟩ := run_consecutive _ _ _ _ (fun s => z.warp im s.p = .ok s.i) _ r hw
      (fun s s' e hs hst => step_warp z .alternating false false im s s' e hst) h hq
    simp only [machine, step, altStep, altAppearance, altShape, jacobian, Bool.false_eq_true, if_false] at h2
    split at h2
    · cases h2
    · next dp hd =>
      obtain ⟨-, h4, h5, -⟩ := advance_ok _ _ _ _ _ _ _ _ _ h2
      simp only [Bool.false_eq_true, if_false] at h4
      have e1 : z.mask s.i - appearance z s.c - z.A *ᵥ (z.pinvA *ᵥ (z.mask s.i - appearance z s.c + s.Jdp)) =
          z.mask s.i - (z.aBar + z.A *ᵥ s'.c) := by
        rw [h5, appearance, mulVec_add z.A s.c]; abel
      rw [e1] at hd
      have := shape_downhill z im I hI s h1 hS false 1 transpose_one (Matrix.one_mul 1) (z.aBar + z.A *ᵥ s'.c) dp
        (by simpa only [Bool.false_eq_true, if_false, Matrix.one_mul] using hd)
      simp only [machine]
      rw [h4]
      simpa only [Spec.residual, one_mulVec, Bool.false_eq_true, if_false, add_zero] using this

/-- **C132** (modified alternating, forward).  The step in the shape parameters starts downhill with
the appearance parameters before it, with or without a prior, and exchanging these for those after
it makes the residual no larger. -/
theorem C132_modified_alternating_partial (z : Setup n a m ℝ S Im W E) (hA : IsPinv z.A z.pinvA)
    (hS : ∀ k, 0 ≤ z.priorS k) (map : Bool) (maxIters : Int) (tol : E) (costs : Bool) (im : Im) (init : S)
    (I : (Fin n → ℝ) → Fin m → ℝ) (hI : SeesSmoothly z.warp z.mask z.jacI im I)
    (r : Trace S ((Fin n → ℝ) × (Fin a → ℝ)) ℝ)
    (h : Aam.run z .modifiedAlternating false map maxIters tol costs im init = .ok r)
    (q q' : (Fin n → ℝ) × (Fin a → ℝ)) (hq : Consecutive r.params q q') :
    StartsDownhill (fun p => residual z.aBar z.A (I p) q.2 + if map then priorEnergy z.priorS p else 0) q.1 q'.1 ∧
      residual z.aBar z.A (I q'.1) q'.2 ≤ residual z.aBar z.A (I q'.1) q.2 := by
  unfold Aam.run at h
  cases hw : z.warp im (z.setTarget init) with
  | error e => simp only [hw] at h; cases h
  | ok i =>
    simp only [hw] at h
    obtain ⟨s, s', e, h1, h2, rfl, rfl⟩ := run_consecutive _ _ _ _ (fun s => z.warp im s.p = .ok s.i) _ r hw
      (fun s s' e hs hst => step_warp z .modifiedAlternating false map im s s' e hst) h hq
    simp only [machine, step, modStep, jacobian, Bool.false_eq_true, if_false] at h2
    split at h2
    · cases h2
    · next dp hd =>
      obtain ⟨h3, h4, h5, -⟩ := advance_ok _ _ _ _ _ _ _ _ _ h2
      simp only [Bool.false_eq_true, if_false] at h4
      have := shape_downhill z im I hI s h1 hS map 1 transpose_one (Matrix.one_mul 1) (appearance z s.c) dp
        (by simpa only [Matrix.one_mul] using hd)
      simp only [machine]
      refine ⟨?_, ?_⟩
      · rw [h4]
        simpa only [Spec.residual, appearance, one_mulVec] using this
      · rw [h5, hI.sees _ _ h3]
        exact (init_min hA z.aBar (I s'.p)).2 s.c

end

/-! ## Examples, and what fails -/

section
open Real

/-- One shape parameter, one pixel; the image shows `f q` at the parameter `q`. -/
noncomputable def curveEnv (f f' : ℝ → ℝ) : Env 1 1 ℝ ℝ Unit ℝ ℝ where
  setTarget s := fun _ => s
  target p := p 0
  warp _ p := .ok (p 0)
  mask i := fun _ => f i
  jac i := Matrix.of fun _ _ => f' i
  aBar := 0
  Q := 1
  prior := 1
  dist s s' := |s - s'|

theorem curveEnv_smooth (f f' : ℝ → ℝ) (hf : ∀ x, HasDerivAt f (f' x) x) :
    SeesSmoothly (curveEnv f f').warp (curveEnv f f').mask (curveEnv f f').jac () (fun q _ => f (q 0)) := by
  refine ⟨?_, ?_⟩
  · intro q i h
    simp only [curveEnv, Except.ok.injEq] at h
    subst h
    rfl
  · intro q i h
    simp only [curveEnv, Except.ok.injEq] at h
    subst h
    rw [hasFDerivAt_pi']
    intro k
    have h1 := (hf (q 0)).hasFDerivAt.comp q
      (ContinuousLinearMap.proj (R := ℝ) (φ := fun _ : Fin 1 => ℝ) 0).hasFDerivAt
    refine h1.congr_fderiv ?_
    ext e
    simp [curveEnv, mulVec, dotProduct, mul_comm]

theorem npSolve_one (H : Matrix (Fin 1) (Fin 1) ℝ) (b : Fin 1 → ℝ) (h : H 0 0 ≠ 0) :
    npSolve H b = .ok fun _ => b 0 / H 0 0 := by
  rw [npSolve, if_neg (by rwa [det_fin_one])]
  congr 1
  rw [inv_subsingleton]
  funext k
  fin_cases k
  simp [mulVec, dotProduct, diagonal, div_eq_inv_mul]

/-- The step of the forward algorithm on a curve: Newton's step. -/
theorem curve_forward (f f' : ℝ → ℝ) (s : PState 1 1 ℝ ℝ) (h : f' s.i ≠ 0) :
    poStep (curveEnv f f') false false () s =
      (⟨s.cache, fun _ => s.p 0 - f s.i / f' s.i, s.p 0 - f s.i / f' s.i⟩,
        .ok |s.p 0 - (s.p 0 - f s.i / f' s.i)|) := by
  have hd : solveForward (curveEnv f f') false s = .ok fun _ => -(f s.i / f' s.i) := by
    simp only [solveForward, solveShapeMl, Bool.false_eq_true, if_false]
    rw [npSolve_one _ _ (by simpa [curveEnv, Matrix.mul_apply] using h)]
    simp only [Except.map, curveEnv, Matrix.one_mul, sub_zero]
    congr 1
    funext k
    simp only [Pi.neg_apply, mulVec, dotProduct, Matrix.mul_apply, transpose_apply, Matrix.of_apply,
      Fin.sum_univ_one]
    field_simp
  unfold poStep
  simp only [Bool.false_eq_true, if_false, hd]
  simp only [curveEnv, Pi.add_apply]
  congr 2
  funext k
  fin_cases k
  simp [sub_eq_add_neg]

/-- **C132** is violated: on the smooth image `q ↦ q² + 1`, started at `q = 1/2`, the cost reported
after the first iteration is larger than that of the initial shape. -/
theorem C132_costs_rise_violated : ∃ env : Env 1 1 ℝ ℝ Unit ℝ ℝ, env.Q = 1 ∧ (∀ k, 0 ≤ env.prior k) ∧
    (∃ I, SeesSmoothly env.warp env.mask env.jac () I) ∧
    ∃ cache r c c', (poRun env false 0 cache ⟨(), 1 / 2, 1, true, false⟩).2 = .ok r ∧
      r.costs = some [c, c'] ∧ c < c' := by
  refine ⟨curveEnv (fun x => x ^ 2 + 1) (fun x => 2 * x), rfl, fun _ => zero_le_one,
    ⟨_, curveEnv_smooth _ _ fun x => by simpa using ((hasDerivAt_id x).pow 2).add_const 1⟩, ⟨0, 0, 0⟩,
    ⟨[1 / 2, -(3 / 4)], [fun _ => 1 / 2, fun _ => -(3 / 4)], some [25 / 16, 625 / 256]⟩, 25 / 16, 625 / 256, ?_, rfl,
    by norm_num⟩
  have hw : (curveEnv (fun x => x ^ 2 + 1) (fun x => 2 * x)).warp () (fun _ => 1 / 2) = .ok (1 / 2) := rfl
  have hst := curve_forward (fun x => x ^ 2 + 1) (fun x => 2 * x) ⟨⟨0, 0, 0⟩, fun _ => 1 / 2, 1 / 2⟩ (by norm_num)
  unfold poRun
  simp only [show (curveEnv (fun x => x ^ 2 + 1) (fun x => 2 * x)).setTarget (1 / 2) = fun _ => 1 / 2 from rfl, hw]
  unfold Optim.run
  rw [loop_unfold, if_pos ⟨by norm_num, trivial⟩]
  simp only [show ∀ e : Env 1 1 ℝ ℝ Unit ℝ ℝ, (poMachine e false false ()).step = poStep e false false () from
    fun _ => rfl, hst]
  rw [loop_unfold, if_neg (by norm_num)]
  simp only [poMachine, curveEnv, if_true, Option.map_some, List.cons_append, List.nil_append]
  simp only [dotProduct, mulVec, Fin.sum_univ_one, one_apply_eq, Pi.sub_apply, Pi.zero_apply]
  norm_num

/-- The step of the inverse algorithm on a curve. -/
theorem curve_inverse (f f' : ℝ → ℝ) (s : PState 1 1 ℝ ℝ) (g : ℝ) (hg : g ≠ 0)
    (hc : precompute (1 : Matrix (Fin 1) (Fin 1) ℝ) (Matrix.of fun _ _ => g) = .ok s.cache) :
    poStep (curveEnv f f') true false () s =
      (⟨s.cache, fun _ => s.p 0 + f s.i / g, s.p 0 + f s.i / g⟩, .ok |s.p 0 - (s.p 0 + f s.i / g)|) := by
  have hp : s.cache.pinvQJ = Matrix.of fun _ _ => 1 / g := by
    unfold precompute npSolveMat at hc
    dsimp only at hc
    rw [if_neg (by rw [det_fin_one]; simpa [Matrix.mul_apply] using hg)] at hc
    simp only [bind, Except.bind, pure, Except.pure] at hc
    injection hc with hc
    rw [← hc]
    simp only [inv_subsingleton]
    ext k l
    fin_cases k; fin_cases l
    simp [Matrix.mul_apply, diagonal]
    field_simp
  unfold poStep
  simp only [if_true, solveInverse, Bool.false_eq_true, if_false, hp]
  simp only [curveEnv]
  have e : ∀ k : Fin 1, (s.p - -((Matrix.of fun _ _ => 1 / g : Matrix (Fin 1) (Fin 1) ℝ) *ᵥ ((fun _ => f s.i) - 0))) k =
      s.p 0 + f s.i / g := by
    intro k
    fin_cases k
    simp [mulVec, dotProduct]
    ring
  simp only [e]
  congr 2
  funext k
  exact e k

/-- **C132** (inverse algorithms) is violated already for the direction: the image is `q ↦ q² - 1`, the
template is matched at `q = 1`, and the inverse algorithm, with the derivative at the match, goes
from `q = -1/2` uphill all the way. -/
theorem C132_inverse_violated : ∃ (env : Env 1 1 ℝ ℝ Unit ℝ ℝ) (I : (Fin 1 → ℝ) → Fin 1 → ℝ) (p₀ : Fin 1 → ℝ)
    (i₀ : ℝ) (cache : Cache 1 1 ℝ), env.Q = 1 ∧ SeesSmoothly env.warp env.mask env.jac () I ∧
      env.warp () p₀ = .ok i₀ ∧ I p₀ = env.aBar ∧ precompute env.Q (-env.jac i₀) = .ok cache ∧
      ∃ r p p', (poRun env true 0 cache ⟨(), -(1 / 2), 1, true, false⟩).2 = .ok r ∧ r.params = [p, p'] ∧
        ∀ t : ℝ, 0 < t → t ≤ 1 → sqNorm (I p - env.aBar) < sqNorm (I (p + t • (p' - p)) - env.aBar) := by
  obtain ⟨env, henv⟩ : ∃ env, env = curveEnv (fun x => x ^ 2 - 1) (fun x => 2 * x) := ⟨_, rfl⟩
  have hJ : -env.jac 1 = Matrix.of fun _ _ => (-2 : ℝ) := by
    rw [henv]; ext k l; simp [curveEnv]
  have hdet : (((1 : Matrix (Fin 1) (Fin 1) ℝ) * (Matrix.of fun _ _ => (-2 : ℝ)))ᵀ *
      (Matrix.of fun _ _ => (-2 : ℝ))).det ≠ 0 := by
    rw [det_fin_one]; simp [Matrix.mul_apply]
  obtain ⟨cache, hc⟩ : ∃ cache, precompute (1 : Matrix (Fin 1) (Fin 1) ℝ) (Matrix.of fun _ _ => (-2 : ℝ)) = .ok cache := by
    unfold precompute npSolveMat
    dsimp only
    rw [if_neg hdet]
    exact ⟨_, rfl⟩
  have hst := curve_inverse (fun x => x ^ 2 - 1) (fun x => 2 * x) ⟨cache, fun _ => -(1 / 2), -(1 / 2)⟩ (-2) (by norm_num) hc
  refine ⟨env, fun q _ => q 0 ^ 2 - 1, fun _ => 1, 1, cache, by rw [henv]; rfl, ?_, by rw [henv]; rfl, ?_, ?_,
    ⟨[-(1 / 2), -(1 / 8)], [fun _ => -(1 / 2), fun _ => -(1 / 8)], some [9 / 16, (63 / 64) ^ 2]⟩, fun _ => -(1 / 2),
    fun _ => -(1 / 8), ?_, rfl, ?_⟩
  · rw [henv]
    exact curveEnv_smooth _ _ fun x => by simpa using ((hasDerivAt_id x).pow 2).sub_const 1
  · rw [henv]; funext k; simp [curveEnv]
  · rw [hJ, henv]; exact hc
  · subst henv
    have hw : (curveEnv (fun x => x ^ 2 - 1) (fun x => 2 * x)).warp () (fun _ => -(1 / 2)) = .ok (-(1 / 2)) := rfl
    unfold poRun
    simp only [show (curveEnv (fun x => x ^ 2 - 1) (fun x => 2 * x)).setTarget (-(1 / 2)) = fun _ => -(1 / 2) from rfl, hw]
    unfold Optim.run
    rw [loop_unfold, if_pos ⟨by norm_num, trivial⟩]
    simp only [show ∀ e : Env 1 1 ℝ ℝ Unit ℝ ℝ, (poMachine e true false ()).step = poStep e true false () from
      fun _ => rfl, hst]
    rw [loop_unfold, if_neg (by norm_num)]
    simp only [poMachine, curveEnv, if_true, Option.map_some, List.cons_append, List.nil_append]
    simp only [dotProduct, mulVec, Fin.sum_univ_one, one_apply_eq, Pi.sub_apply, Pi.zero_apply]
    norm_num
  · intro t h0 h1
    rw [henv]
    simp only [curveEnv, sqNorm, Fin.sum_univ_one, Pi.sub_apply, Pi.zero_apply, Pi.add_apply, Pi.smul_apply, smul_eq_mul]
    have h2 : (-(1 / 2) + t * (-(1 / 8) - -(1 / 2)) : ℝ) = -(1 / 2) + t * (3 / 8) := by ring
    rw [h2]
    nlinarith [mul_pos h0 h0, mul_le_mul_of_nonneg_left h1 h0.le]

/-- The hypotheses of `C132_project_out_partial` are met by a curve and a fit that moves. -/
example : ∃ r : Trace ℝ (Fin 1 → ℝ) ℝ, (poRun (curveEnv (fun x => x ^ 2 + 1) (fun x => 2 * x)) false 0 ⟨0, 0, 0⟩ ⟨(), 1, 1, true, false⟩).2 = .ok r ∧
    Consecutive r.params (fun _ => 1) (fun _ => 0) ∧
    StartsDownhill (fun q : Fin 1 → ℝ => sqNorm ((curveEnv (fun x => x ^ 2 + 1) (fun x => 2 * x)).Q *ᵥ ((fun _ => q 0 ^ 2 + 1) - (curveEnv (fun x => x ^ 2 + 1) (fun x => 2 * x)).aBar)) + 0)
      (fun _ => 1) (fun _ => 0) := by
  obtain ⟨r, hr, hc⟩ : ∃ r : Trace ℝ (Fin 1 → ℝ) ℝ,
      (poRun (curveEnv (fun x => x ^ 2 + 1) (fun x => 2 * x)) false 0 ⟨0, 0, 0⟩ ⟨(), 1, 1, true, false⟩).2 = .ok r ∧
      Consecutive r.params (fun _ => 1) (fun _ => 0) := by
    have hw : (curveEnv (fun x => x ^ 2 + 1) (fun x => 2 * x)).warp () (fun _ => 1) = .ok 1 := rfl
    have hst := curve_forward (fun x => x ^ 2 + 1) (fun x => 2 * x) ⟨⟨0, 0, 0⟩, fun _ => 1, 1⟩ (by simp)
    unfold poRun
    simp only [show (curveEnv (fun x => x ^ 2 + 1) (fun x => 2 * x)).setTarget 1 = fun _ => 1 from rfl, hw]
    unfold Optim.run
    rw [loop_unfold, if_pos ⟨by norm_num, trivial⟩]
    simp only [show ∀ e : Env 1 1 ℝ ℝ Unit ℝ ℝ, (poMachine e false false ()).step = poStep e false false () from
      fun _ => rfl, hst]
    rw [loop_unfold, if_neg (by norm_num)]
    refine ⟨_, rfl, 0, by simp [poMachine], ?_⟩
    simp only [poMachine, List.cons_append, List.nil_append]
    norm_num
  exact ⟨r, hr, hc, C132_project_out_partial (curveEnv (fun x => x ^ 2 + 1) (fun x => 2 * x)) transpose_one (Matrix.one_mul 1)
    (fun _ => zero_le_one) 0 ⟨0, 0, 0⟩ ⟨(), 1, 1, true, false⟩ _ (curveEnv_smooth _ _ fun x => by simpa using ((hasDerivAt_id x).pow 2).add_const 1) r hr _ _ hc⟩

/-- One shape parameter, one appearance parameter, two pixels; the image is linear. -/
noncomputable def planeSetup : Setup 1 1 2 ℝ ℝ Unit ℝ ℝ where
  setTarget s := fun _ => s
  target p := p 0
  warp _ p := .ok (p 0)
  mask i := ![1 + 2 * i, 5]
  jacI _ := !![2; 0]
  jacA _ := !![-2; 0]
  aBar := ![7, 1]
  A := !![0; 1]
  pinvA := !![0, 1]
  priorS := 1
  priorA := 1
  dist s s' := |s - s'|

theorem planeSetup_pinv : IsPinv planeSetup.A planeSetup.pinvA := by
  constructor <;> ext k l <;> fin_cases k <;> fin_cases l <;>
    simp [planeSetup, Matrix.mul_apply, Fin.sum_univ_two]

theorem planeSetup_linear : SeesLinearly planeSetup.warp planeSetup.mask planeSetup.jacI () ![1, 5] !![2; 0] := by
  refine ⟨fun q i h => ?_, fun _ _ _ => rfl⟩
  simp only [planeSetup, Except.ok.injEq] at h
  subst h
  funext k
  fin_cases k <;> simp [planeSetup, dotProduct]

theorem planeSetup_smooth : SeesSmoothly planeSetup.warp planeSetup.mask planeSetup.jacI ()
    (fun q => ![1, 5] + !![2; 0] *ᵥ q) :=
  ⟨planeSetup_linear.sees, fun q i h => by
    rw [planeSetup_linear.derivative q i h]
    exact (LinearMap.toContinuousLinearMap (toLin' (!![2; 0] : Matrix (Fin 2) (Fin 1) ℝ))).hasFDerivAt.const_add _⟩

/-- The fit of `planeSetup` succeeds for every number of iterations and finds the shape parameter `3`, at
which the image is the instance of the model with appearance parameter `4`. -/
example (maxIters : Int) (tol init : ℝ) (cache : Cache 1 2 ℝ) :
    ∃ r, (poRun (projectOutEnv planeSetup) false tol cache ⟨(), init, maxIters, true, false⟩).2 = .ok r ∧
      ∀ k p, r.params[k + 1]? = some p → p = fun _ => 3 := by
  obtain ⟨r, hr⟩ := loop_total (poMachine (projectOutEnv planeSetup) false false ()) (fun s => by
    simp only [poMachine]
    unfold poStep solveForward solveShapeMl
    simp only [Bool.false_eq_true, if_false]
    rw [npSolve_one _ _ (by
      simp [projectOutEnv, planeSetup, Matrix.mul_apply, Fin.sum_univ_two])]
    exact ⟨_, _, rfl⟩) maxIters tol true ⟨cache, fun _ => init, init⟩
  refine ⟨r, hr, fun k p hp => ?_⟩
  exact C132_project_out_finds planeSetup planeSetup_pinv tol cache () init maxIters true _ _ planeSetup_linear
    (fun _ => 3) (fun _ => 4) (by
      funext k; fin_cases k <;> simp [planeSetup, dotProduct] <;> norm_num) (fun _ => zero_le_one) r hr k p hp

/-- A simultaneous fit of `planeSetup` succeeds and each of its steps starts downhill. -/
example (maxIters : Int) (tol init : ℝ) :
    ∃ r, Aam.run planeSetup .simultaneous false false maxIters tol true () init = .ok r ∧
      ∀ q q', Consecutive r.params q q' → StartsDownhill (fun q : (Fin 1 → ℝ) × (Fin 1 → ℝ) =>
        residual planeSetup.aBar planeSetup.A (![1, 5] + !![2; 0] *ᵥ q.1) q.2 + 0) q q' := by
  obtain ⟨r, hr⟩ := loop_total (machine planeSetup .simultaneous false false ()) (fun s => by
    simp only [machine, step]
    unfold simStep solveAllMl
    simp only [Bool.false_eq_true, if_false]
    rw [npSolve_of_det (by
      rw [Matrix.det_fin_two]
      simp [jacobian, simJacobian, planeSetup, Matrix.mul_apply, Fin.sum_univ_two, Fin.append, Fin.addCases])]
    exact ⟨_, _, rfl⟩) maxIters tol true
      ⟨fun _ => init, planeSetup.pinvA *ᵥ (planeSetup.mask init - planeSetup.aBar), init, 0⟩
  exact ⟨r, hr, fun q q' hq => C132_simultaneous_partial planeSetup (fun _ => zero_le_one) (fun _ => zero_le_one) false
    maxIters tol true () init _ planeSetup_smooth r hr q q' hq⟩

/-- The other three algorithms succeed on `planeSetup` as well, and each of their steps starts downhill. -/
example (maxIters : Int) (tol init : ℝ) :
    (∃ r, Aam.run planeSetup .wiberg false false maxIters tol true () init = .ok r ∧
      ∀ q q', Consecutive r.params q q' → ∃ F : (Fin 1 → ℝ) → ℝ,
        (∀ p, IsLeastValue (residual planeSetup.aBar planeSetup.A (![1, 5] + !![2; 0] *ᵥ p)) (F p)) ∧
        StartsDownhill (fun p => F p + 0) q.1 q'.1) ∧
    (∃ r, Aam.run planeSetup .alternating false false maxIters tol true () init = .ok r ∧
      ∀ q q', Consecutive r.params q q' → StartsDownhill (fun p : Fin 1 → ℝ =>
        residual planeSetup.aBar planeSetup.A (![1, 5] + !![2; 0] *ᵥ p) q'.2) q.1 q'.1) ∧
    ∃ r, Aam.run planeSetup .modifiedAlternating false false maxIters tol true () init = .ok r ∧
      ∀ q q', Consecutive r.params q q' → StartsDownhill (fun p : Fin 1 → ℝ =>
        residual planeSetup.aBar planeSetup.A (![1, 5] + !![2; 0] *ᵥ p) q.2 + 0) q.1 q'.1 := by
  have key : ∀ alg : Alg, alg ≠ .simultaneous → ∀ s : St 1 1 2 ℝ ℝ,
      ∃ s' e, (machine planeSetup alg false false ()).step s = (s', .ok e) := by
    intro alg halg s
    cases alg <;> simp only [machine, step, ne_eq, reduceCtorEq, not_true_eq_false, not_false_eq_true] at halg ⊢
    · unfold altStep altShape altAppearance solveShapeMl
      simp only [Bool.false_eq_true, if_false]
      rw [npSolve_one _ _ (by simp [jacobian, planeSetup, Matrix.mul_apply, Fin.sum_univ_two])]
      exact ⟨_, _, rfl⟩
    · unfold modStep solveShapeMl
      simp only [Bool.false_eq_true, if_false]
      rw [npSolve_one _ _ (by simp [jacobian, planeSetup, Matrix.mul_apply, Fin.sum_univ_two])]
      exact ⟨_, _, rfl⟩
    · unfold wibStep solveShapeMl
      simp only [Bool.false_eq_true, if_false]
      rw [npSolve_one _ _ (by simp [projectOutMat, jacobian, planeSetup, Matrix.mul_apply, Fin.sum_univ_two])]
      exact ⟨_, _, rfl⟩
  refine ⟨?_, ?_, ?_⟩
  · obtain ⟨r, hr⟩ := loop_total (machine planeSetup .wiberg false false ()) (key .wiberg (by decide)) maxIters tol true
      ⟨fun _ => init, planeSetup.pinvA *ᵥ (planeSetup.mask init - planeSetup.aBar), init, 0⟩
    exact ⟨r, hr, fun q q' hq => C132_wiberg_partial planeSetup planeSetup_pinv (fun _ => zero_le_one) false
      maxIters tol true () init _ planeSetup_smooth r hr q q' hq⟩
  · obtain ⟨r, hr⟩ := loop_total (machine planeSetup .alternating false false ()) (key .alternating (by decide)) maxIters tol true
      ⟨fun _ => init, planeSetup.pinvA *ᵥ (planeSetup.mask init - planeSetup.aBar), init, 0⟩
    exact ⟨r, hr, fun q q' hq => C132_alternating_partial planeSetup (fun _ => zero_le_one)
      maxIters tol true () init _ planeSetup_smooth r hr q q' hq⟩
  · obtain ⟨r, hr⟩ := loop_total (machine planeSetup .modifiedAlternating false false ()) (key .modifiedAlternating (by decide)) maxIters tol true
      ⟨fun _ => init, planeSetup.pinvA *ᵥ (planeSetup.mask init - planeSetup.aBar), init, 0⟩
    exact ⟨r, hr, fun q q' hq => (C132_modified_alternating_partial planeSetup planeSetup_pinv (fun _ => zero_le_one) false
      maxIters tol true () init _ planeSetup_smooth r hr q q' hq).1⟩

end

end Menpofit
