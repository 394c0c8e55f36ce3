import Verif.Lemmas.FixedPoint
import Verif.Lemmas.Regression
/-!
# Properties of Active Appearance and Template Models at a perfect alignment (C123)
-/

set_option linter.unusedSectionVars false

namespace Menpofit
open Matrix GN Aam Spec Optim

section

variable {K : Type} [Field K] [LinearOrder K] [IsStrictOrderedRing K]
variable {n a m : Nat} {S Im W E : Type} [LinearOrder E]

/-- The first step of every algorithm at a perfect alignment: it fails with the state
unchanged (singular normal equations), or it keeps the state. -/
theorem step_perfect (z : Setup n a m K S Im W E) (hA : IsPinv z.A z.pinvA) (alg : Alg)
    (inverse : Bool) (im : Im) (p : Fin n → K) (i : W) (c : Fin a → K)
    (hw : z.warp im p = .ok i) (hi : z.mask i = z.aBar + z.A *ᵥ c) :
    ∀ s, s = ⟨p, z.pinvA *ᵥ (z.mask i - z.aBar), i, 0⟩ →
    appearance z s.c = z.mask i ∧
    (step z alg inverse false im s = (s, .error .linAlgError) ∨
      step z alg inverse false im s = (s, .ok (z.dist (z.target p) (z.target p)))) ∧
    (JointlyIndependent z.A (jacobian z inverse s) →
      step z alg inverse false im s = (s, .ok (z.dist (z.target p) (z.target p)))) ∧
    cost z alg s = 0 := by
  intro s hs
  have hc : appearance z s.c = z.mask i := by
    rw [hs, appearance, hi, add_sub_cancel_left, mulVec_mulVec, mulVec_mulVec, hA.apa]
  have hsi : s.i = i := by rw [hs]
  have hsp : s.p = p := by rw [hs]
  have hsj : s.Jdp = 0 := by rw [hs]
  have he : z.mask s.i - appearance z s.c = 0 := by rw [hc, hsi, sub_self]
  have hq : projectOut z (z.mask s.i - z.aBar) = 0 := by
    rw [projectOut_eq, hsi, hi, add_sub_cancel_left, mulVec_mulVec, hA.q_A, zero_mulVec]
  have hQJ : ∀ J : Matrix (Fin m) (Fin n) K, (projectOutMat z J)ᵀ *ᵥ (z.mask s.i - z.aBar) = 0 := by
    intro J
    rw [projectOutMat_eq, transpose_mul, hA.q_symm, ← mulVec_mulVec, ← projectOut_eq, hq, mulVec_zero]
  have hadv : ∀ (J : Matrix (Fin m) (Fin n) K) (c' : W → Fin a → K), c' i = s.c →
      advance z inverse im s J 0 c' = (s, .ok (z.dist (z.target p) (z.target p))) := by
    intro J c' h'
    unfold advance
    simp only [updateWarp_zero, hsp, hw, h', mulVec_zero]
    rw [← hsp, ← hsi, ← hsj]
  have inj : ∀ {k : Nat} (M : Matrix (Fin m) (Fin k) K), (∀ d, M *ᵥ d = 0 → d = 0) →
      (Mᵀ * M).det ≠ 0 := by
    intro k M hM h0
    obtain ⟨v, hv, h1⟩ := exists_mulVec_eq_zero_iff.mpr h0
    apply hv
    apply hM
    have h2 : v ⬝ᵥ ((Mᵀ * M) *ᵥ v) = 0 := by rw [h1, dotProduct_zero]
    rw [← mulVec_mulVec, dot_transpose, ← sqNorm_dot] at h2
    exact (sqNorm_zero_iff _).mp h2
  obtain ⟨J, hJ⟩ : ∃ J, J = jacobian z inverse s := ⟨_, rfl⟩
  have hplain : JointlyIndependent z.A J → (Jᵀ * J).det ≠ 0 := fun h =>
    inj J fun d hd => (h 0 d (by rw [mulVec_zero]; exact hd)).2
  have hsim : JointlyIndependent z.A J → ((simJacobian z.A J)ᵀ * simJacobian z.A J).det ≠ 0 := by
    intro h
    refine inj _ fun d hd => ?_
    rw [simJacobian_mulVec, sub_eq_zero] at hd
    obtain ⟨h1, h2⟩ := h _ _ hd
    funext k
    refine Fin.addCases (fun k => ?_) (fun k => ?_) k
    · exact congrFun h1 k
    · exact congrFun h2 k
  have hwib : JointlyIndependent z.A J → ((projectOutMat z J)ᵀ * J).det ≠ 0 := by
    intro h
    have e : (projectOutMat z J)ᵀ * J = (projectOutMat z J)ᵀ * projectOutMat z J := by
      rw [projectOutMat_eq, transpose_mul, hA.q_symm]
      conv_lhs => rw [← hA.q_idem]
      simp only [Matrix.mul_assoc]
    rw [e]
    refine inj _ fun d hd => ?_
    rw [projectOutMat, sub_mulVec, sub_eq_zero, ← mulVec_mulVec] at hd
    exact (h _ _ hd).2
  rw [← hJ]
  suffices h : ∃ D : K, (JointlyIndependent z.A J → D ≠ 0) ∧ step z alg inverse false im s =
      if D = 0 then (s, .error .linAlgError) else (s, .ok (z.dist (z.target p) (z.target p))) by
    obtain ⟨D, h1, h2⟩ := h
    refine ⟨hc, ?_, fun h => ?_, ?_⟩
    · rw [h2]; by_cases hD : D = 0
      · exact Or.inl (if_pos hD)
      · exact Or.inr (if_neg hD)
    · rw [h2, if_neg (h1 h)]
    · cases alg <;> simp only [cost, he, hq, dotProduct_zero]
  cases alg
  · refine ⟨_, hsim, ?_⟩
    simp only [step, simStep, ← hJ, Bool.false_eq_true, if_false, he,
      solveAllMl_zero (mulVec_zero (simJacobian z.A J)ᵀ)]
    split
    · next h => split at h
                · next h' => injection h with h; rw [if_pos h', h]
                · cases h
    · next h => split at h
                · cases h
                · next h' =>
                  rw [if_neg h']
                  injection h with h
                  obtain ⟨rfl, rfl⟩ := Prod.mk.inj h
                  exact hadv _ _ (by rw [add_zero])
  · refine ⟨_, hplain, ?_⟩
    simp only [step, altStep, altAppearance, altShape, ← hJ, Bool.false_eq_true, if_false, he, hsj,
      add_zero, mulVec_zero, sub_zero, solveShapeMl_zero (mulVec_zero Jᵀ)]
    split
    · next h => split at h
                · next h' => injection h with h; rw [if_pos h', h]
                · cases h
    · next h => split at h
                · cases h
                · next h' =>
                  rw [if_neg h']
                  injection h with h
                  subst h
                  exact hadv _ _ rfl
  · refine ⟨_, hplain, ?_⟩
    simp only [step, modStep, ← hJ, Bool.false_eq_true, if_false, he,
      solveShapeMl_zero (mulVec_zero Jᵀ)]
    split
    · next h => split at h
                · next h' => injection h with h; rw [if_pos h', h]
                · cases h
    · next h => split at h
                · cases h
                · next h' =>
                  rw [if_neg h']
                  injection h with h
                  subst h
                  exact hadv _ _ (by rw [hs])
  · refine ⟨_, hwib, ?_⟩
    simp only [step, wibStep, ← hJ, Bool.false_eq_true, if_false, solveShapeMl_zero (hQJ J)]
    split
    · next h => split at h
                · next h' => injection h with h; rw [if_pos h', h]
                · cases h
    · next h => split at h
                · cases h
                · next h' =>
                  rw [if_neg h']
                  injection h with h
                  subst h
                  exact hadv _ _ (by rw [hc, sub_self, mulVec_zero, add_zero, mulVec_zero, add_zero])

/-- **C123** (algorithms with an explicit appearance, forward and inverse, no prior).  If
the image warped at the initial shape is an image the appearance model can produce, then
the fit keeps the initial shape, its appearance parameters reproduce the image, all
recorded costs are zero, and it stops after at most one iteration.  It returns (rather than
raising because of singular normal equations) if no iteration is allowed or the steepest
descent images are independent of each other and of the appearance components. -/
theorem C123_perfect_aam (z : Setup n a m K S Im W E) (hA : IsPinv z.A z.pinvA) (alg : Alg)
    (inverse : Bool) (maxIters : Int) (tol : E) (costs : Bool) (im : Im) (init : S) (i : W)
    (c : Fin a → K) (hw : z.warp im (z.setTarget init) = .ok i)
    (hi : z.mask i = z.aBar + z.A *ᵥ c)
    (htol : z.dist (z.target (z.setTarget init)) (z.target (z.setTarget init)) ≤ tol) :
    ∃ c₀, z.aBar + z.A *ᵥ c₀ = z.mask i ∧
      (∀ r, Aam.run z alg inverse false maxIters tol costs im init = .ok r →
        StaysAt maxIters costs (z.target (z.setTarget init)) (z.setTarget init, c₀) r) ∧
      ((maxIters ≤ 0 ∨ JointlyIndependent z.A (if inverse then z.jacA c₀ else z.jacI i)) →
        ∃ r, Aam.run z alg inverse false maxIters tol costs im init = .ok r) := by
  obtain ⟨s, hs⟩ : ∃ s, s = (⟨z.setTarget init, z.pinvA *ᵥ (z.mask i - z.aBar), i, 0⟩ : St n a m K W) :=
    ⟨_, rfl⟩
  obtain ⟨h1, h2, h3, h4⟩ := step_perfect z hA alg inverse im _ i c hw hi s hs
  have key := run_rest (machine z alg inverse false im) maxIters tol costs s s
    (by rcases h2 with h | h
        · exact Or.inl ⟨_, h⟩
        · exact Or.inr ⟨_, h, htol, rfl, rfl, h4⟩) h4
  have hrun : Aam.run z alg inverse false maxIters tol costs im init =
      (Optim.run (machine z alg inverse false im) false maxIters tol costs s).2 := by
    unfold Aam.run
    simp only [hw, hs]
  refine ⟨s.c, h1, ?_, ?_⟩
  · intro r hr
    rw [hrun] at hr
    have := key.1 r hr
    simp only [machine, hs] at this
    rw [hs]
    exact this
  · intro hreg
    rw [hrun]
    apply key.2
    rcases hreg with h | h
    · exact Or.inl h
    · right
      refine ⟨_, h3 ?_⟩
      unfold jacobian
      rw [hs] at h ⊢
      exact h

/-- No run changes the projected steepest descent images or the pseudo-inverse. -/
theorem afterRuns_same (env : Env n m K S Im W E) (inverse : Bool) (tol : E) (cache : Cache n m K)
    (hist : List (Input S Im E)) :
    (afterRuns env inverse tol cache hist).QJ = cache.QJ ∧
      (afterRuns env inverse tol cache hist).pinvQJ = cache.pinvQJ := by
  unfold afterRuns
  induction hist generalizing cache with
  | nil => exact ⟨rfl, rfl⟩
  | cons y ys ih =>
    rw [List.foldl_cons]
    have key : (poRun env inverse tol cache y).1.QJ = cache.QJ ∧
        (poRun env inverse tol cache y).1.pinvQJ = cache.pinvQJ := by
      unfold poRun
      simp only
      cases hw : env.warp y.im (env.setTarget y.init) with
      | error e => exact ⟨rfl, rfl⟩
      | ok i =>
        simp only
        refine loop_inv _ false y.maxIters tol
          (fun st : PState n m K W => st.cache.QJ = cache.QJ ∧ st.cache.pinvQJ = cache.pinvQJ) ?_ _ 0
          none _ _ rfl ⟨rfl, rfl⟩
        intro b hb
        have hr : (if inverse then solveInverse env y.map b
            else (b.cache, solveForward env y.map b)).1.QJ = cache.QJ ∧
            (if inverse then solveInverse env y.map b
            else (b.cache, solveForward env y.map b)).1.pinvQJ = cache.pinvQJ := by
          cases inverse <;> cases y.map <;> simp [solveInverse, hb.1, hb.2]
        show (poStep env inverse y.map y.im b).1.cache.QJ = cache.QJ ∧
          (poStep env inverse y.map y.im b).1.cache.pinvQJ = cache.pinvQJ
        unfold poStep
        simp only
        split
        · exact hr
        · split <;> exact hr
    rw [← key.1, ← key.2]
    exact ih _

/-- The regularised normal equations with zero right-hand side. -/
theorem solveShapeMap_zero {H : Matrix (Fin n) (Fin n) K} {J : Matrix (Fin m) (Fin n) K}
    {e : Fin m → K} {prior p : Fin n → K} (h : Jᵀ *ᵥ e = 0) (hp : prior * p = 0) :
    (∃ err, (solveShapeMap H J e prior p).2 = .error err) ∨ (solveShapeMap H J e prior p).2 = .ok 0 := by
  by_cases hn : n ≤ 256
  · rw [solveShapeMap_same hn]
    simp only [mapStep, npSolve, h, hp, add_zero, mulVec_zero]
    split
    · exact Or.inl ⟨_, rfl⟩
    · right; simp [Except.map]
  · rw [solveShapeMap_big (by omega)]
    exact Or.inl ⟨_, rfl⟩

/-- What `precompute` returns. -/
theorem precompute_ok {Q : Matrix (Fin m) (Fin m) K} {J : Matrix (Fin m) (Fin n) K}
    {cache : Cache n m K} (h : precompute Q J = .ok cache) :
    ((Q * J)ᵀ * J).det ≠ 0 ∧ cache = ⟨Q * J, (Q * J)ᵀ * J, ((Q * J)ᵀ * J)⁻¹ * (Q * J)ᵀ⟩ := by
  unfold precompute at h
  by_cases hd : ((Q * J)ᵀ * J).det = 0
  · simp only [npSolveMat, if_pos hd, bind, Except.bind] at h
    cases h
  · simp only [npSolveMat, if_neg hd, bind, Except.bind, pure, Except.pure] at h
    injection h with h
    exact ⟨hd, h.symm⟩

/-- `precompute` with regular normal equations. -/
theorem precompute_of {Q : Matrix (Fin m) (Fin m) K} {J : Matrix (Fin m) (Fin n) K}
    (hd : ((Q * J)ᵀ * J).det ≠ 0) :
    precompute Q J = .ok ⟨Q * J, (Q * J)ᵀ * J, ((Q * J)ᵀ * J)⁻¹ * (Q * J)ᵀ⟩ := by
  unfold precompute
  simp only [npSolveMat, if_neg hd, bind, Except.bind, pure, Except.pure]

/-- The project-out family (also the ATM algorithms): what happens at the start of a run
whose error is annihilated by the projection. -/
theorem po_rest (env : Env n m K S Im W E) (hQ : env.Qᵀ = env.Q) (inverse : Bool) (tol : E)
    (cache₀ cache : Cache n m K) (J₀ : Matrix (Fin m) (Fin n) K)
    (hpre : precompute env.Q J₀ = .ok cache₀) (hQJ : cache.QJ = cache₀.QJ)
    (hpinv : cache.pinvQJ = cache₀.pinvQJ)
    (x : Input S Im E) (i : W) (hw : env.warp x.im (env.setTarget x.init) = .ok i)
    (hi : env.Q *ᵥ (env.mask i - env.aBar) = 0)
    (hp : x.map = true → env.prior * env.setTarget x.init = 0)
    (htol : env.dist (env.target (env.setTarget x.init)) (env.target (env.setTarget x.init)) ≤ tol) :
    (∀ r, (poRun env inverse tol cache x).2 = .ok r →
      StaysAt x.maxIters x.costs (env.target (env.setTarget x.init)) (env.setTarget x.init) r) ∧
    ((x.maxIters ≤ 0 ∨ x.map = false ∧ (inverse = true ∨ ((env.Q * env.jac i)ᵀ * env.jac i).det ≠ 0)) →
      ∃ r, (poRun env inverse tol cache x).2 = .ok r) := by
  have hproj : ∀ J : Matrix (Fin m) (Fin n) K, (env.Q * J)ᵀ *ᵥ (env.mask i - env.aBar) = 0 := by
    intro J
    rw [transpose_mul, hQ, ← mulVec_mulVec, hi, mulVec_zero]
  have hc₀ : cache₀.QJ = env.Q * J₀ ∧
      cache₀.pinvQJ *ᵥ (env.mask i - env.aBar) = 0 := by
    rw [(precompute_ok hpre).2]
    refine ⟨rfl, ?_⟩
    simp only
    rw [← mulVec_mulVec, hproj, mulVec_zero]
  obtain ⟨s, hs⟩ : ∃ s, s = (⟨cache, env.setTarget x.init, i⟩ : PState n m K W) := ⟨_, rfl⟩
  have hsi : s.i = i := by rw [hs]
  have hsp : s.p = env.setTarget x.init := by rw [hs]
  have hsc : s.cache = cache := by rw [hs]
  obtain ⟨R, hR⟩ : ∃ R, R = if inverse then solveInverse env x.map s
    else (s.cache, solveForward env x.map s) := ⟨_, rfl⟩
  have hr : (∃ err, R.2 = .error err) ∨ R.2 = .ok 0 := by
    rw [hR]
    cases inverse with
    | true =>
      simp only [if_true, solveInverse, hsi, hsc, hpinv, hc₀.2, neg_zero]
      cases hm : x.map with
      | true =>
        simp only [if_true]
        refine solveShapeMap_zero ?_ (by rw [hsp]; exact hp hm)
        rw [hQJ, hc₀.1, hproj]
      | false => exact Or.inr rfl
    | false =>
      simp only [Bool.false_eq_true, if_false, solveForward, hsi]
      cases hm : x.map with
      | true =>
        simp only [if_true]
        exact solveShapeMap_zero (hproj _) (by rw [hsp]; exact hp hm)
      | false =>
        simp only [Bool.false_eq_true, if_false, solveShapeMl_zero (hproj _)]
        split
        · exact Or.inl ⟨_, rfl⟩
        · exact Or.inr rfl
  have hcost : ∀ t : PState n m K W, t.i = i → (poMachine env inverse x.map x.im).cost t = 0 := by
    intro t ht
    simp only [poMachine, ht, hi, dotProduct_zero]
  have hstep : R.2 = .ok 0 → poStep env inverse x.map x.im s =
      (⟨R.1, s.p, i⟩, .ok (env.dist (env.target s.p) (env.target s.p))) := by
    intro h
    unfold poStep
    simp only [← hR, h, sub_zero, add_zero]
    have : (if inverse = true then s.p else s.p) = s.p := by split <;> rfl
    rw [this]
    simp only [hsp, hw]
  have hfail : ∀ err, R.2 = .error err → ∃ s', poStep env inverse x.map x.im s = (s', .error err) := by
    intro err h
    unfold poStep
    simp only [← hR, h]
    exact ⟨_, rfl⟩
  have hrun : (poRun env inverse tol cache x).2 =
      (Optim.run (poMachine env inverse x.map x.im) false x.maxIters tol x.costs s).2 := by
    unfold poRun
    simp only [hw, hs]
  rw [hrun]
  rcases hr with ⟨err, he⟩ | h0
  · obtain ⟨s', hs'⟩ := hfail err he
    have key := run_rest (poMachine env inverse x.map x.im) x.maxIters tol x.costs s s'
      (Or.inl ⟨err, hs'⟩) (hcost s hsi)
    refine ⟨fun r hr => ?_, ?_⟩
    · have := key.1 r hr
      simp only [poMachine, hsp] at this
      exact this
    · rintro (h | ⟨hm, h⟩)
      · exact key.2 (Or.inl h)
      · exfalso
        rw [hR] at he
        cases inverse with
        | true => simp [solveInverse, hm] at he
        | false =>
          simp only [Bool.false_eq_true, false_or] at h
          simp only [Bool.false_eq_true, if_false, solveForward, hsi, hm,
            solveShapeMl_zero (hproj _), if_neg h] at he
          cases he
  · have key := run_rest (poMachine env inverse x.map x.im) x.maxIters tol x.costs s ⟨R.1, s.p, i⟩
      (Or.inr ⟨_, hstep h0, by rw [hsp]; exact htol, rfl, rfl, hcost _ rfl⟩) (hcost s hsi)
    refine ⟨fun r hr => ?_, fun _ => key.2 (Or.inr ⟨_, hstep h0⟩)⟩
    have := key.1 r hr
    simp only [poMachine, hsp] at this
    exact this

/-- **C123** (project-out algorithms, forward and inverse).  The same for the project-out
algorithms, whatever runs were made before with the algorithm object; with a prior if the
initial parameters are zero. -/
theorem C123_perfect_project_out (z : Setup n a m K S Im W E) (hA : IsPinv z.A z.pinvA)
    (inverse : Bool) (tol : E) (cache : Cache n m K) (J₀ : Matrix (Fin m) (Fin n) K)
    (hpre : precompute (projectOutEnv z).Q J₀ = .ok cache) (hist : List (Input S Im E))
    (x : Input S Im E) (i : W) (c : Fin a → K) (hw : z.warp x.im (z.setTarget x.init) = .ok i)
    (hi : z.mask i = z.aBar + z.A *ᵥ c) (hp : x.map = true → z.setTarget x.init = 0)
    (htol : z.dist (z.target (z.setTarget x.init)) (z.target (z.setTarget x.init)) ≤ tol) :
    (∀ r, (poRun (projectOutEnv z) inverse tol (afterRuns (projectOutEnv z) inverse tol cache hist) x).2
        = .ok r →
      StaysAt x.maxIters x.costs (z.target (z.setTarget x.init)) (z.setTarget x.init) r) ∧
    ((x.maxIters ≤ 0 ∨ x.map = false ∧ (inverse = true ∨ JointlyIndependent z.A (z.jacI i))) →
      ∃ r, (poRun (projectOutEnv z) inverse tol (afterRuns (projectOutEnv z) inverse tol cache hist) x).2
        = .ok r) := by
  obtain ⟨h1, h2⟩ := afterRuns_same (projectOutEnv z) inverse tol cache hist
  have key := po_rest (projectOutEnv z) hA.q_symm inverse tol cache _ J₀ hpre h1 h2 x i hw
    (by show (1 - z.A * z.pinvA) *ᵥ (z.mask i - z.aBar) = 0
        rw [hi, add_sub_cancel_left, mulVec_mulVec, hA.q_A, zero_mulVec])
    (fun h => by show z.priorS * z.setTarget x.init = 0; rw [hp h, mul_zero]) htol
  refine ⟨key.1, fun h => key.2 ?_⟩
  rcases h with h | ⟨h, h' | h'⟩
  · exact Or.inl h
  · exact Or.inr ⟨h, Or.inl h'⟩
  · refine Or.inr ⟨h, Or.inr ?_⟩
    intro h0
    obtain ⟨v, hv, h1⟩ := exists_mulVec_eq_zero_iff.mpr h0
    apply hv
    have h2 : ((1 - z.A * z.pinvA) * z.jacI i) *ᵥ v = 0 := by
      have h3 : v ⬝ᵥ ((((1 - z.A * z.pinvA) * z.jacI i)ᵀ * z.jacI i) *ᵥ v) = 0 := by
        show v ⬝ᵥ ((((projectOutEnv z).Q * (projectOutEnv z).jac i)ᵀ * (projectOutEnv z).jac i) *ᵥ v) = 0
        rw [h1, dotProduct_zero]
      rw [transpose_mul, hA.q_symm, ← mulVec_mulVec, ← mulVec_mulVec, dot_transpose,
        proj_quad hA.q_symm hA.q_idem, mulVec_mulVec, ← sqNorm_dot] at h3
      exact (sqNorm_zero_iff _).mp h3
    rw [Matrix.sub_mul, sub_mulVec, sub_eq_zero, Matrix.one_mul, Matrix.mul_assoc, ← mulVec_mulVec] at h2
    exact (h' _ _ h2).2

/-- **C123** (ATM).  If the image warped at the initial shape is the template, the template
model keeps the initial shape. -/
theorem C123_perfect_atm (env : Env n m K S Im W E) (hQ : env.Q = 1)
    (inverse : Bool) (tol : E) (cache : Cache n m K) (J₀ : Matrix (Fin m) (Fin n) K)
    (hpre : precompute env.Q J₀ = .ok cache) (hist : List (Input S Im E))
    (x : Input S Im E) (i : W) (hw : env.warp x.im (env.setTarget x.init) = .ok i)
    (hi : env.mask i = env.aBar) (hp : x.map = true → env.setTarget x.init = 0)
    (htol : env.dist (env.target (env.setTarget x.init)) (env.target (env.setTarget x.init)) ≤ tol) :
    (∀ r, (poRun env inverse tol (afterRuns env inverse tol cache hist) x).2 = .ok r →
      StaysAt x.maxIters x.costs (env.target (env.setTarget x.init)) (env.setTarget x.init) r) ∧
    ((x.maxIters ≤ 0 ∨ x.map = false ∧
        (inverse = true ∨ ∀ d : Fin n → K, env.jac i *ᵥ d = 0 → d = 0)) →
      ∃ r, (poRun env inverse tol (afterRuns env inverse tol cache hist) x).2 = .ok r) := by
  obtain ⟨h1, h2⟩ := afterRuns_same env inverse tol cache hist
  have key := po_rest env (by rw [hQ, transpose_one]) inverse tol cache _ J₀ hpre h1 h2 x i hw
    (by rw [hi, sub_self, mulVec_zero]) (fun h => by rw [hp h, mul_zero]) htol
  refine ⟨key.1, fun h => key.2 ?_⟩
  rcases h with h | ⟨h, h' | h'⟩
  · exact Or.inl h
  · exact Or.inr ⟨h, Or.inl h'⟩
  · refine Or.inr ⟨h, Or.inr ?_⟩
    intro h0
    obtain ⟨v, hv, h1⟩ := exists_mulVec_eq_zero_iff.mpr h0
    apply hv
    apply h'
    have h3 : v ⬝ᵥ (((env.jac i)ᵀ * env.jac i) *ᵥ v) = 0 := by
      rw [hQ, Matrix.one_mul] at h1
      rw [h1, dotProduct_zero]
    rw [← mulVec_mulVec, dot_transpose, ← sqNorm_dot] at h3
    exact (sqNorm_zero_iff _).mp h3

/-- **C123**, the limit of the claim: with a positive prior (`map_inference`) a perfect
alignment at parameters other than zero is left by the first iteration (project-out and ATM
algorithms, forward and inverse, whatever was run before). -/
theorem C123_prior_moves (env : Env n m K S Im W E) (hQ : env.Qᵀ = env.Q)
    (hprior : ∀ k, 0 < env.prior k) (inverse : Bool) (tol : E) (cache : Cache n m K)
    (J₀ : Matrix (Fin m) (Fin n) K) (hpre : precompute env.Q J₀ = .ok cache)
    (hist : List (Input S Im E)) (x : Input S Im E) (hx : x.map = true) (hm : 0 < x.maxIters) (i : W)
    (hw : env.warp x.im (env.setTarget x.init) = .ok i)
    (hi : env.Q *ᵥ (env.mask i - env.aBar) = 0) (hp : env.setTarget x.init ≠ 0)
    (r : Trace S (Fin n → K) K)
    (hr : (poRun env inverse tol (afterRuns env inverse tol cache hist) x).2 = .ok r) :
    ∃ p', r.params[1]? = some p' ∧ p' ≠ env.setTarget x.init := by
  obtain ⟨h1, -⟩ := afterRuns_same env inverse tol cache hist
  have hproj : ∀ J : Matrix (Fin m) (Fin n) K, (env.Q * J)ᵀ *ᵥ (env.mask i - env.aBar) = 0 := by
    intro J
    rw [transpose_mul, hQ, ← mulVec_mulVec, hi, mulVec_zero]
  have hc₀ : cache.QJ = env.Q * J₀ := by rw [(precompute_ok hpre).2]
  obtain ⟨C, hC⟩ : ∃ C, C = afterRuns env inverse tol cache hist := ⟨_, rfl⟩
  rw [← hC] at hr h1
  obtain ⟨s, hs⟩ : ∃ s, s = (⟨C, env.setTarget x.init, i⟩ : PState n m K W) := ⟨_, rfl⟩
  have hrun : (poRun env inverse tol C x).2 =
      (Optim.run (poMachine env inverse x.map x.im) false x.maxIters tol x.costs s).2 := by
    unfold poRun
    simp only [hw, hs]
  rw [hrun] at hr
  obtain ⟨s', eps, hstep, hpar⟩ := run_second _ _ _ _ _ _ hm hr
  refine ⟨s'.p, hpar, ?_⟩
  intro hkeep
  -- the increment is not zero
  have nz : ∀ (H : Matrix (Fin n) (Fin n) K) (J : Matrix (Fin m) (Fin n) K) (d : Fin n → K),
      Jᵀ *ᵥ (env.mask i - env.aBar) = 0 →
      (solveShapeMap H J (env.mask i - env.aBar) env.prior (env.setTarget x.init)).2 = .ok d → d ≠ 0 := by
    intro H J d hJ hd h0
    obtain ⟨-, h2⟩ := mapStep_ok (solveShapeMap_ok hd)
    rw [h0, hJ, mulVec_zero, zero_add] at h2
    apply hp
    funext k
    have h3 := congrFun h2 k
    simp only [Pi.zero_apply, Pi.neg_apply, mulVec_diagonal] at h3
    have h4 : env.prior k * env.setTarget x.init k = 0 := by linarith
    rcases mul_eq_zero.mp h4 with h5 | h5
    · exact absurd h5 (hprior k).ne'
    · exact h5
  simp only [poMachine, poStep, hx] at hstep
  cases inverse with
  | true =>
    simp only [if_true, solveInverse, hs] at hstep
    cases hd : (solveShapeMap C.JQJ C.QJ (env.mask i - env.aBar) env.prior (env.setTarget x.init)).2 with
    | error e => simp only [hd] at hstep; cases hstep
    | ok d =>
      simp only [hd] at hstep
      have := nz _ _ d (by rw [h1, hc₀, hproj]) hd
      split at hstep
      · cases hstep
      · injection hstep with hstep
        rw [← hstep] at hkeep
        exact this (sub_eq_self.mp hkeep)
  | false =>
    simp only [Bool.false_eq_true, if_false, solveForward, if_true, hs] at hstep
    cases hd : (solveShapeMap ((env.Q * env.jac i)ᵀ * env.jac i) (env.Q * env.jac i)
        (env.mask i - env.aBar) env.prior (env.setTarget x.init)).2 with
    | error e => simp only [hd] at hstep; cases hstep
    | ok d =>
      simp only [hd] at hstep
      have := nz _ _ d (hproj _) hd
      split at hstep
      · cases hstep
      · injection hstep with hstep
        rw [← hstep] at hkeep
        exact this (by simpa using hkeep)

/-- **C123**, the converse: without a prior one iteration of a project-out or ATM algorithm
keeps the shape parameters only if the error is orthogonal to all projected steepest descent
images. -/
theorem C123_rest_is_stationary (env : Env n m K S Im W E) (inverse : Bool)
    (J₀ : Matrix (Fin m) (Fin n) K) (cache : Cache n m K) (hpre : precompute env.Q J₀ = .ok cache)
    (im : Im) (s s' : PState n m K W) (hs : s.cache = cache) (eps : E)
    (h : poStep env inverse false im s = (s', .ok eps)) :
    s'.p = s.p ↔
      ∀ k : Fin n, (fun l => (env.Q * if inverse then J₀ else env.jac s.i) l k) ⬝ᵥ
        (env.mask s.i - env.aBar) = 0 := by
  have conv : ∀ J : Matrix (Fin m) (Fin n) K,
      (∀ k : Fin n, (fun l => (env.Q * J) l k) ⬝ᵥ (env.mask s.i - env.aBar) = 0) ↔
        (env.Q * J)ᵀ *ᵥ (env.mask s.i - env.aBar) = 0 := by
    intro J
    constructor
    · intro hk; funext k; exact hk k
    · intro hk k; exact congrFun hk k
  rw [conv]
  unfold poStep at h
  cases inverse with
  | true =>
    simp only [if_true, solveInverse, Bool.false_eq_true, if_false] at h ⊢
    obtain ⟨hdet, hpre⟩ := precompute_ok hpre
    split at h
    · cases h
    · injection h with h
      rw [← h]
      simp only [sub_neg_eq_add, add_eq_left, hs, hpre]
      rw [← mulVec_mulVec]
      constructor
      · intro h0
        have := congrArg (((env.Q * J₀)ᵀ * J₀) *ᵥ ·) h0
        rw [mulVec_mulVec, mul_nonsing_inv _ (isUnit_iff_ne_zero.mpr hdet), one_mulVec,
          mulVec_zero] at this
        exact this
      · intro h0; rw [h0, mulVec_zero]
  | false =>
    simp only [Bool.false_eq_true, if_false, solveForward] at h ⊢
    cases hd : solveShapeMl ((env.Q * env.jac s.i)ᵀ * env.jac s.i) (env.Q * env.jac s.i)
        (env.mask s.i - env.aBar) with
    | error e => simp only [hd] at h; cases h
    | ok d =>
      simp only [hd] at h
      obtain ⟨h1, h2⟩ := npSolve_ok (map_neg_ok hd)
      split at h
      · cases h
      · injection h with h
        rw [← h]
        simp only [add_eq_left]
        constructor
        · intro h0; rw [← h2, h0, neg_zero, mulVec_zero]
        · intro h0
          rw [h0] at h2
          by_contra hne
          apply h1
          exact exists_mulVec_eq_zero_iff.mp ⟨-d, neg_ne_zero.mpr hne, h2⟩

end
/-- A tiny appearance model: one shape parameter, one appearance component, two features. -/
def restAam : Setup 1 1 2 ℚ (Fin 1 → ℚ) Unit (Fin 1 → ℚ) ℚ where
  setTarget := id
  target := id
  warp _ p := .ok p
  mask w := ![4, w 0 - 5]
  jacI _ := !![0; 1]
  jacA _ := !![0; -1]
  aBar := ![1, 0]
  A := !![1; 0]
  pinvA := !![1, 0]
  priorS := 1
  priorA := 1
  dist s t := |s 0 - t 0|

/-- The hypotheses of C123 hold for the tiny model at the shape `5`, whose warped image is
the mean plus three times the component. -/
example : IsPinv restAam.A restAam.pinvA ∧
    restAam.warp () (restAam.setTarget fun _ => 5) = .ok (fun _ => 5) ∧
    restAam.mask (fun _ => 5) = restAam.aBar + restAam.A *ᵥ ![3] ∧
    restAam.mask (fun _ => 5) ≠ restAam.aBar ∧
    restAam.dist (restAam.target (restAam.setTarget fun _ => 5))
      (restAam.target (restAam.setTarget fun _ => 5)) ≤ 0 :=
  ⟨⟨by decide +kernel, by decide +kernel, by decide +kernel, by decide +kernel⟩, rfl,
    by decide +kernel, by decide +kernel, by decide +kernel⟩

example : JointlyIndependent restAam.A (restAam.jacI fun _ => 5) := by
  intro c d h
  have h0 := congrFun h 0
  have h1 := congrFun h 1
  simp [restAam, mulVec, dotProduct] at h0 h1
  exact ⟨by funext i; fin_cases i; simpa using h0.symm, by funext i; fin_cases i; simpa using h1⟩

/-- The cache of the tiny model exists. -/
example : ∃ cache, precompute (projectOutEnv restAam).Q (!![0; 1] : Matrix (Fin 2) (Fin 1) ℚ)
    = .ok cache := by
  have h : ((((projectOutEnv restAam).Q * (!![0; 1] : Matrix (Fin 2) (Fin 1) ℚ))ᵀ *
    (!![0; 1] : Matrix (Fin 2) (Fin 1) ℚ))).det ≠ 0 := by decide +kernel
  simp only [precompute, npSolveMat, if_neg h, bind, Except.bind, pure, Except.pure]
  exact ⟨_, rfl⟩

/-- A template model with one parameter and one feature. -/
def restEnv : Env 1 1 ℚ ℚ Unit ℚ ℚ where
  setTarget s := fun _ => s
  target p := p 0
  warp _ p := .ok (p 0)
  mask w := fun _ => w
  jac _ := 1
  aBar := fun _ => 1
  Q := 1
  prior := 1
  dist a b := |a - b|

/-- The hypotheses of `C123_perfect_atm` and `C123_prior_moves` are met by this model at the
shape `1`, where it sees its template. -/
example : restEnv.Q = 1 ∧ (∀ k, 0 < restEnv.prior k) ∧ restEnv.mask 1 = restEnv.aBar ∧
    restEnv.warp () (restEnv.setTarget 1) = .ok 1 ∧ restEnv.setTarget 1 ≠ 0 ∧
    ∃ cache, precompute restEnv.Q 1 = .ok cache ∧
      ∃ r, (poRun restEnv true 0 cache ⟨(), 1, 1, false, true⟩).2 = .ok r := by
  refine ⟨rfl, by simp [restEnv], rfl, rfl, ?_, ?_⟩
  · intro h; have := congrFun h 0; simp [restEnv] at this
  · have h1 : ((1 * 1 : Matrix (Fin 1) (Fin 1) ℚ)ᵀ * 1).det ≠ 0 := by simp
    have hdet : ((1 * 1 : Matrix (Fin 1) (Fin 1) ℚ)ᵀ * 1 + diagonal (1 : Fin 1 → ℚ)).det ≠ 0 := by
      simp
    refine ⟨_, precompute_of h1, ?_⟩
    unfold poRun
    simp only [restEnv]
    unfold Optim.run
    rw [loop_unfold, if_pos ⟨by norm_num, trivial⟩]
    simp only [poMachine, poStep, solveInverse, if_true]
    rw [solveShapeMap_same (by norm_num)]
    simp only [mapStep, npSolve, if_neg hdet, Except.map]
    rw [loop_unfold, if_neg (by norm_num)]
    exact ⟨_, rfl⟩

end Menpofit
