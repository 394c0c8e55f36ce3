import Verif.Lemmas.ResumeShared
import Verif.Lemmas.ResumeForward
import Verif.Lemmas.SharedWitness
import Verif.Model.ClmRuns
import Verif.Model.AamSolvers
import Verif.Model.LkResidual
/-!
# Longer fits and resumed fits (C131)
-/

namespace Menpofit
open Optim Spec MI

variable {n a m N k : Nat} {S Im W E : Type}

theorem distance_euclidean : (euclidean : Pts n 2 → Pts n 2 → ℝ) = Shared.distance := by
  funext a b
  simp [euclidean, Shared.distance, EuclideanSpace.norm_eq]

theorem shapeDistance_euclidean : (euclidean : Pts N 2 → Pts N 2 → ℝ) = ClmRun.shapeDistance := by
  funext a b
  simp [euclidean, ClmRun.shapeDistance, EuclideanSpace.norm_eq]

/-! ### Allowing more iterations -/

section longer

/-- **C131** (more iterations, AAM with explicit appearance).  If a fit that may use `i + j` iterations returns, the fit
that may use `i` iterations returns its first `i` iterations, with and without costs and priors. -/
theorem C131_longer_aam {K : Type} [Field K] [DecidableEq K] [LinearOrder E] (z : Aam.Setup n a m K S Im W E)
    (alg : Aam.Alg) (inverse map : Bool) (tol : E) (costs : Bool) (im : Im) (init : S) (i j : Nat) {r}
    (h : Aam.run z alg inverse map (i + j : Nat) tol costs im init = .ok r) :
    Aam.run z alg inverse map i tol costs im init = .ok (firstIterations i r) := by
  simp only [Aam.run] at h ⊢
  cases hw : z.warp im (z.setTarget init) with
  | error e => simp [hw] at h
  | ok w =>
    simp only [hw] at h ⊢
    obtain ⟨s1, h1⟩ := run_prefix _ tol (Or.inl rfl) _ i j (Prod.ext rfl h)
    rw [h1]

/-- **C131** (more iterations, project-out AAM and ATM), whatever the object did before. -/
theorem C131_longer_project_out {K : Type} [Field K] [DecidableEq K] [LinearOrder E] (env : GN.Env n m K S Im W E)
    (inverse map : Bool) (tol : E) (cache : GN.Cache n m K) (costs : Bool) (im : Im) (init : S) (i j : Nat) {r}
    (h : (GN.poRun env inverse tol cache ⟨im, init, (i + j : Nat), costs, map⟩).2 = .ok r) :
    (GN.poRun env inverse tol cache ⟨im, init, i, costs, map⟩).2 = .ok (firstIterations i r) := by
  simp only [GN.poRun] at h ⊢
  cases hw : env.warp im (env.setTarget init) with
  | error e => simp [hw] at h
  | ok w =>
    simp only [hw] at h ⊢
    obtain ⟨s1, h1⟩ := run_prefix _ tol (Or.inl rfl) _ i j (Prod.ext rfl h)
    rw [h1]

/-- **C131** (more iterations, CLM and APS), for a shape model in any state. -/
theorem C131_longer_clm_aps {C : Type} (K : Shared.Kind n Im C) (alg : Shared.Alg K) (eps : ℝ) (im : Im) (init : Cloud)
    (costs : Bool) (p : OPdm n) (i j : Nat) {r}
    (h : (Shared.run K alg eps ⟨im, init, (i + j : Nat), costs⟩ p).2 = .ok r) :
    (Shared.run K alg eps ⟨im, init, i, costs⟩ p).2 = .ok (firstIterations i r) := by
  simp only [Shared.run] at h ⊢
  cases hs : oSetTarget p init with
  | mk q x =>
    cases x with
    | error e => simp [hs] at h
    | ok u =>
      simp only [hs] at h ⊢
      cases hst : K.start im costs q.target with
      | error e => simp [hst] at h
      | ok u =>
        simp only [hst] at h ⊢
        obtain ⟨s1, h1⟩ := run_prefix _ eps (Or.inl rfl) _ i j (Prod.ext rfl h)
        rw [h1]

/-- **C131** (more iterations, unified models). -/
theorem C131_longer_unified (env : ClmRun.UEnv N k a m Im W) (alg : ClmRun.UAlg) (prior : Bool) (α tol : ℝ) (costs : Bool)
    (im : Im) (init : Pts N 2) (i j : Nat) {r} (h : ClmRun.uRun env alg prior α (i + j : Nat) tol costs im init = .ok r) :
    ClmRun.uRun env alg prior α i tol costs im init = .ok (firstIterations i r) := by
  simp only [ClmRun.uRun, bind, Except.bind] at h ⊢
  cases hw : ClmRun.look env im (env.setTarget init) with
  | error e => simp [hw] at h
  | ok w =>
    simp only [hw] at h ⊢
    obtain ⟨s1, h1⟩ := run_prefix _ tol (Or.inl rfl) _ i j (Prod.ext rfl h)
    rw [h1]

/-- **C131** (more iterations, Lucas-Kanade), with any residual. -/
theorem C131_longer_lk {c h w : Nat} {T V ρ A H B : Type} (r : Lk.Residual c h w n Im T ρ A H B) (env : Lk.Env c h w Im T)
    (tr : Lk.Transform n T S V) (dW : Lk.Jac h w n) (template : Lk.Planes c h w) (eps : ℝ) (s : ρ) (t : T) (im : Im)
    (initial : S) (i j : Nat) {x} (hr : Lk.fcRun r env tr dW template eps s t im initial (i + j : Nat) = .ok x) :
    Lk.fcRun r env tr dW template eps s t im initial i = .ok (firstIterations i x) := by
  obtain ⟨s1, h1⟩ := run_prefix _ eps (Or.inr rfl) _ i j (Prod.ext rfl hr)
  simp only [Lk.fcRun]
  rw [h1]

end longer

/-! ### Resuming a fit -/

/-- **C131** (resuming, CLM).  A constrained local model that did not converge within `i` iterations can be fitted
further from the final shape of the result: the two fits together are the fit with `i + j` iterations, whether that
returns or raises.  `p₀` is a new shape model, `ops` what has been done with it since; only a fit whose global
similarity collapsed to one point is excluded. -/
theorem C131_resume_clm (ortho : Ortho n) (mdl : Pca n 2) (ho : OrthoSpec ortho (similarityComponents mdl.mean) mdl.comps)
    {p₀ : OPdm n} (h₀ : newOPdm ortho mdl = .ok p₀) (ops : List (PdmOp n 2)) (hops : ∀ o ∈ ops, NoIncrement o)
    (noise eig : Nat → ℝ) (map : Bool) (error : Im → Pts n 2 → Except PyErr (Fin (n * 2) → ℝ))
    (alg : Shared.Alg (Shared.clmKind noise eig map error)) (eps : ℝ) (im : Im) (init : Cloud) (costs : Bool) (i j : Nat)
    {p₁ : OPdm n} {tr}
    (h : Shared.run _ alg eps ⟨im, init, i, costs⟩ (ops.foldl (opdmStep ortho) p₀) = (p₁, .ok tr))
    (hm : StillMoving euclidean eps tr.shapes)
    (hc : ∀ s, Generates p₁.simMean p₁.simComps p₁.simWeights s → ¬ Collapsed s) :
    ∃ final, tr.shapes.getLast? = some final ∧
      (Shared.run _ alg eps ⟨im, init, (i + j : Nat), costs⟩ (ops.foldl (opdmStep ortho) p₀)).2 =
        (Shared.run _ alg eps ⟨im, ⟨n, 2, final⟩, j, costs⟩ p₁).2.map (continued tr) := by
  obtain ⟨h1, h2⟩ := shared_resume _ alg eps im init costs (fun _ _ _ _ => rfl)
    (ready_reach ortho mdl ho h₀ ops hops) i j h (distance_euclidean ▸ hm) hc
  exact ⟨_, h1, h2⟩

/-- **C131** (resuming, APS).  The same for active pictorial structures, inverse and forward, with costs: they are
continued as well. -/
theorem C131_resume_aps {q Q : Nat} (ortho : Ortho n) (mdl : Pca n 2)
    (ho : OrthoSpec ortho (similarityComponents mdl.mean) mdl.comps) {p₀ : OPdm n} (h₀ : newOPdm ortho mdl = .ok p₀)
    (ops : List (PdmOp n 2)) (hops : ∀ o ∈ ops, NoIncrement o) (x : Shared.Aps n q Q)
    (K : Shared.Kind n (Shared.ApsImage n q) (ℝ × ℝ × ℝ)) (hK : K = Shared.apsInverse x ∨ K = Shared.apsForward x)
    (alg : Shared.Alg K) (eps : ℝ) (im : Shared.ApsImage n q) (init : Cloud) (costs : Bool) (i j : Nat)
    {p₁ : OPdm n} {tr}
    (h : Shared.run K alg eps ⟨im, init, i, costs⟩ (ops.foldl (opdmStep ortho) p₀) = (p₁, .ok tr))
    (hm : StillMoving euclidean eps tr.shapes)
    (hc : ∀ s, Generates p₁.simMean p₁.simComps p₁.simWeights s → ¬ Collapsed s) :
    ∃ final, tr.shapes.getLast? = some final ∧
      (Shared.run K alg eps ⟨im, init, (i + j : Nat), costs⟩ (ops.foldl (opdmStep ortho) p₀)).2 =
        (Shared.run K alg eps ⟨im, ⟨n, 2, final⟩, j, costs⟩ p₁).2.map (continued tr) := by
  have hstart : ∀ s s', Shared.apsStart x im costs s = .ok () → (im.warp s').map (fun _ => ()) = .ok () →
      Shared.apsStart x im costs s' = .ok () := by
    intro s s' h1 h2
    simp only [Shared.apsStart, bind, Except.bind, pure, Except.pure] at h1 ⊢
    cases hw' : im.warp s' with
    | error e => rw [hw'] at h2; cases h2
    | ok w' =>
      cases hw : im.warp s with
      | error e => rw [hw] at h1; cases h1
      | ok w =>
        rw [hw] at h1
        cases costs
        · rfl
        · simp only [if_true, Shared.appearanceCost] at h1 ⊢
          split_ifs with hmM
          · rfl
          · rw [dif_neg hmM] at h1; cases h1
  obtain ⟨h1, h2⟩ := shared_resume K alg eps im init costs
    (by rcases hK with rfl | rfl <;> exact hstart) (ready_reach ortho mdl ho h₀ ops hops) i j h (distance_euclidean ▸ hm) hc
  exact ⟨_, h1, h2⟩

/-- **C131** (resuming, unified models).  `hset`: setting the final shape as target gives its parameters back (C44). -/
theorem C131_resume_unified (env : ClmRun.UEnv N k a m Im W) (alg : ClmRun.UAlg) (prior : Bool) (α tol : ℝ) (costs : Bool)
    (im : Im) (init : Pts N 2) (i j : Nat) {tr} (h : ClmRun.uRun env alg prior α i tol costs im init = .ok tr)
    (hm : StillMoving euclidean tol tr.shapes) {final p c} (hf : tr.shapes.getLast? = some final)
    (hp : tr.params.getLast? = some (p, c)) (hset : env.setTarget final = p) :
    ClmRun.uRun env alg prior α (i + j : Nat) tol costs im init =
      (ClmRun.uRun env alg prior α j tol costs im final).map (continued tr) := by
  simp only [ClmRun.uRun, bind, Except.bind] at h ⊢
  cases hw : ClmRun.look env im (env.setTarget init) with
  | error e => simp [hw] at h
  | ok w =>
    simp only [hw] at h ⊢
    have hinv : ∀ s : ClmRun.UState k (N * 2) W, ∀ s' e, ((ClmRun.uMachine env alg prior α im).step s) = (s', .ok e) →
        ClmRun.look env im s'.p = .ok s' ∧ e = ClmRun.shapeDistance (env.shape s.p) (env.shape s'.p) := by
      intro s s' e hs
      simp only [ClmRun.uMachine] at hs
      split at hs
      · cases hs
      · rename_i dp hdp
        split at hs
        · cases hs
        · rename_i s2 hl
          injection hs with h1 h2
          injection h2 with h2
          subst h1 h2
          refine ⟨?_, rfl⟩
          have hp' : s2.p = s.p + dp := by
            simp only [ClmRun.look, bind, Except.bind, pure, Except.pure] at hl
            split at hl
            · cases hl
            · split at hl
              · cases hl
              · injection hl with hl; rw [← hl]
          rw [hp']; exact hl
    obtain ⟨s1, hs1⟩ : ∃ s1, Optim.run (ClmRun.uMachine env alg prior α im) false i tol costs w = (s1, .ok tr) :=
      ⟨_, Prod.ext rfl h⟩
    obtain ⟨e1, e2, e3⟩ := run_resume _ ClmRun.shapeDistance (fun s s' e hs => (hinv s s' e hs).2) tol costs w i j hs1
      (shapeDistance_euclidean ▸ hm)
    have hl : ClmRun.look env im s1.p = .ok s1 := by
      unfold Optim.run at hs1
      obtain ⟨M, st, mv, g1, g2, -, g4, -⟩ := loop_spec _ false i tol _ 0 none w s1 _ tr rfl hs1
      cases M with
      | zero =>
        rw [← g2, g1]
        have hp' : w.p = env.setTarget init := by
          have hl := hw
          simp only [ClmRun.look, bind, Except.bind, pure, Except.pure] at hl
          split at hl
          · cases hl
          · split at hl
            · cases hl
            · injection hl with hl; rw [← hl]
        rw [hp']; exact hw
      | succ M => rw [← g2]; exact (hinv _ _ _ (g4 M (by omega))).1
    rw [e3] at hp
    have hp1 : s1.p = p := by
      injection hp with hp
      injection hp
    rw [hset, ← hp1, hl]
    exact e1

/-- **C131** (resuming, project-out AAM and ATM), forward and inverse, with and without prior, with the same
algorithm object (whose cache the first fit may have changed). -/
theorem C131_resume_project_out {K : Type} [Field K] [DecidableEq K] [LinearOrder E] (env : GN.Env n m K S Im W E)
    (inverse map : Bool) (tol : E) (cache : GN.Cache n m K) (costs : Bool) (im : Im) (init : S) (i j : Nat) {tr}
    (h : (GN.poRun env inverse tol cache ⟨im, init, i, costs, map⟩).2 = .ok tr)
    (hm : StillMoving env.dist tol tr.shapes) {final p} (hf : tr.shapes.getLast? = some final)
    (hp : tr.params.getLast? = some p) (hset : env.setTarget final = p) :
    (GN.poRun env inverse tol cache ⟨im, init, (i + j : Nat), costs, map⟩).2 =
      (GN.poRun env inverse tol (GN.poRun env inverse tol cache ⟨im, init, i, costs, map⟩).1
        ⟨im, final, j, costs, map⟩).2.map (continued tr) := by
  simp only [GN.poRun] at h ⊢
  cases hw : env.warp im (env.setTarget init) with
  | error e => simp [hw] at h
  | ok w =>
    simp only [hw] at h ⊢
    have hinv : ∀ s s' e, ((GN.poMachine env inverse map im).step s) = (s', .ok e) →
        env.warp im s'.p = .ok s'.i ∧ e = env.dist (env.target s.p) (env.target s'.p) := by
      intro s s' e hs
      simp only [GN.poMachine, GN.poStep] at hs
      split at hs
      · cases hs
      · rename_i dp hdp
        split at hs
        · cases hs
        · rename_i i' hi
          injection hs with h1 h2
          injection h2 with h2
          subst h1 h2
          exact ⟨hi, rfl⟩
    obtain ⟨s1, hs1⟩ : ∃ s1, Optim.run (GN.poMachine env inverse map im) false i tol costs
        ⟨cache, env.setTarget init, w⟩ = (s1, .ok tr) := ⟨_, Prod.ext rfl h⟩
    obtain ⟨e1, e2, e3⟩ := run_resume _ env.dist (fun s s' e hs => (hinv s s' e hs).2) tol costs _ i j hs1 hm
    have hl : env.warp im s1.p = .ok s1.i := by
      have hs1 := hs1
      unfold Optim.run at hs1
      obtain ⟨M, st, mv, g1, g2, -, g4, -⟩ := loop_spec _ false i tol _ 0 none _ s1 _ tr rfl hs1
      cases M with
      | zero => rw [← g2, g1]; exact hw
      | succ M => rw [← g2]; exact (hinv _ _ _ (g4 M (by omega))).1
    rw [e3] at hp
    have hp1 : s1.p = p := by
      injection hp
    rw [hs1]
    simp only
    rw [hset, ← hp1, hl]
    exact e1

/-- **C131** (resuming, modified alternating AAM): its appearance parameters are those of the projection at
every iteration, so nothing is lost. -/
theorem C131_resume_modified {K : Type} [Field K] [DecidableEq K] [LinearOrder E] (z : Aam.Setup n a m K S Im W E)
    (inverse map : Bool) (tol : E) (costs : Bool) (im : Im) (init : S) (i j : Nat) {tr}
    (h : Aam.run z .modifiedAlternating inverse map i tol costs im init = .ok tr)
    (hm : StillMoving z.dist tol tr.shapes) {final p c} (hf : tr.shapes.getLast? = some final)
    (hp : tr.params.getLast? = some (p, c)) (hset : z.setTarget final = p) :
    Aam.run z .modifiedAlternating inverse map (i + j : Nat) tol costs im init =
      (Aam.run z .modifiedAlternating inverse map j tol costs im final).map (continued tr) := by
  simp only [Aam.run] at h ⊢
  cases hw : z.warp im (z.setTarget init) with
  | error e => simp [hw] at h
  | ok w =>
    simp only [hw] at h ⊢
    have hinv : ∀ s s' e, ((Aam.machine z .modifiedAlternating inverse map im).step s) = (s', .ok e) →
        (z.warp im s'.p = .ok s'.i ∧ s'.c = z.pinvA.mulVec (z.mask s'.i - z.aBar)) ∧
        e = z.dist (z.target s.p) (z.target s'.p) := by
      intro s s' e hs
      simp only [Aam.machine, Aam.step, Aam.modStep] at hs
      split at hs
      · cases hs
      · rename_i dp hdp
        simp only [Aam.advance] at hs
        split at hs
        · cases hs
        · rename_i i' hi
          injection hs with h1 h2
          injection h2 with h2
          subst h1 h2
          exact ⟨⟨hi, rfl⟩, rfl⟩
    obtain ⟨s1, hs1⟩ : ∃ s1, Optim.run (Aam.machine z .modifiedAlternating inverse map im) false i tol costs
        ⟨z.setTarget init, z.pinvA.mulVec (z.mask w - z.aBar), w, 0⟩ = (s1, .ok tr) := ⟨_, Prod.ext rfl h⟩
    obtain ⟨e1, e2, e3⟩ := run_resume _ z.dist (fun s s' e hs => (hinv s s' e hs).2) tol costs _ i j hs1 hm
    have hl : z.warp im s1.p = .ok s1.i ∧ s1.c = z.pinvA.mulVec (z.mask s1.i - z.aBar) := by
      unfold Optim.run at hs1
      obtain ⟨M, st, mv, g1, g2, -, g4, -⟩ := loop_spec _ false i tol _ 0 none _ s1 _ tr rfl hs1
      cases M with
      | zero => rw [← g2, g1]; exact ⟨hw, rfl⟩
      | succ M => rw [← g2]; exact (hinv _ _ _ (g4 M (by omega))).1
    rw [e3] at hp
    have hp1 : s1.p = p := by
      injection hp with hp
      injection hp
    rw [hset, ← hp1, hl.1]
    simp only
    rw [e1, ← hl.2]
    congr 1
    unfold Optim.run
    refine (loop_sim (Aam.machine z .modifiedAlternating inverse map im) false j tol
      (fun s t => s.p = t.p ∧ s.c = t.c ∧ s.i = t.i) ?_ ?_ _ 0 none s1 ⟨s1.p, s1.c, s1.i, 0⟩ _ rfl ⟨rfl, rfl, rfl⟩).2.trans ?_
    · rintro ⟨p, c, i, d⟩ ⟨p', c', i', d'⟩ ⟨rfl, rfl, rfl⟩
      exact ⟨rfl, rfl, rfl⟩
    · rintro ⟨p, c, i, d⟩ ⟨p', c', i', d'⟩ ⟨h1, h2, h3⟩
      simp only at h1 h2 h3
      subst h1 h2 h3
      simp only [Aam.machine, Aam.step, Aam.modStep, Aam.jacobian]
      split
      · exact ⟨⟨rfl, rfl, rfl⟩, rfl⟩
      · simp only [Aam.advance]
        split
        · exact ⟨⟨rfl, rfl, rfl⟩, rfl⟩
        · exact ⟨⟨rfl, rfl, rfl⟩, rfl⟩
    · rfl

/-- **C131** (resuming, forward simultaneous and Wiberg AAM), with and without prior: the appearance parameters are
not those of a new fit, but a forward iteration does not depend on them.  Assumed: linearly independent appearance
components (Wiberg), at most 256 shape parameters (simultaneous with prior; see C22). -/
theorem C131_resume_forward {K : Type} [Field K] [DecidableEq K] [LinearOrder E] (z : Aam.Setup n a m K S Im W E)
    (alg : Aam.Alg) (map : Bool)
    (halg : alg = .simultaneous ∧ (map = true → n ≤ 256) ∨ alg = .wiberg ∧ z.pinvA * z.A = 1) (tol : E) (costs : Bool)
    (im : Im) (init : S) (i j : Nat) {tr}
    (h : Aam.run z alg false map i tol costs im init = .ok tr)
    (hm : StillMoving z.dist tol tr.shapes) {final p c} (hf : tr.shapes.getLast? = some final)
    (hp : tr.params.getLast? = some (p, c)) (hset : z.setTarget final = p) :
    Aam.run z alg false map (i + j : Nat) tol costs im init =
      (Aam.run z alg false map j tol costs im final).map (continued tr) := by
  have hforget : ∀ (p : Fin n → K) (w : W) (c c' : Fin a → K) (d d' : Fin m → K),
      (Aam.step z alg false map im ⟨p, c, w, d⟩).2 = (Aam.step z alg false map im ⟨p, c', w, d'⟩).2 ∧
      ∀ e, (Aam.step z alg false map im ⟨p, c, w, d⟩).2 = .ok e →
        (Aam.step z alg false map im ⟨p, c, w, d⟩).1 = (Aam.step z alg false map im ⟨p, c', w, d'⟩).1 := by
    rcases halg with ⟨rfl, hn⟩ | ⟨rfl, hind⟩
    · exact Aam.sim_forward_forgets z map hn im
    · exact Aam.wiberg_forward_forgets z hind map im
  have hinv : ∀ s s' e, ((Aam.machine z alg false map im).step s) = (s', .ok e) →
      z.warp im s'.p = .ok s'.i ∧ e = z.dist (z.target s.p) (z.target s'.p) := by
    intro s s' e hs
    have hadv : ∀ J dp c', Aam.advance z false im s J dp c' = (s', .ok e) →
        z.warp im s'.p = .ok s'.i ∧ e = z.dist (z.target s.p) (z.target s'.p) := by
      intro J dp c' hs
      simp only [Aam.advance] at hs
      split at hs
      · cases hs
      · rename_i i' hi
        injection hs with h1 h2
        injection h2 with h2
        subst h1 h2
        exact ⟨hi, rfl⟩
    rcases halg with ⟨rfl, -⟩ | ⟨rfl, -⟩
    · simp only [Aam.machine, Aam.step, Aam.simStep] at hs
      split at hs
      · cases hs
      · exact hadv _ _ _ hs
    · simp only [Aam.machine, Aam.step, Aam.wibStep] at hs
      split at hs
      · cases hs
      · exact hadv _ _ _ hs
  simp only [Aam.run] at h ⊢
  cases hw : z.warp im (z.setTarget init) with
  | error e => simp [hw] at h
  | ok w =>
    simp only [hw] at h ⊢
    obtain ⟨s1, hs1⟩ : ∃ s1, Optim.run (Aam.machine z alg false map im) false i tol costs
        ⟨z.setTarget init, z.pinvA.mulVec (z.mask w - z.aBar), w, 0⟩ = (s1, .ok tr) := ⟨_, Prod.ext rfl h⟩
    obtain ⟨e1, e2, e3⟩ := run_resume _ z.dist (fun s s' e hs => (hinv s s' e hs).2) tol costs _ i j hs1 hm
    have hl : z.warp im s1.p = .ok s1.i := by
      unfold Optim.run at hs1
      obtain ⟨M, st, mv, g1, g2, -, g4, -⟩ := loop_spec _ false i tol _ 0 none _ s1 _ tr rfl hs1
      cases M with
      | zero => rw [← g2, g1]; exact hw
      | succ M => rw [← g2]; exact (hinv _ _ _ (g4 M (by omega))).1
    rw [e3] at hp
    have hp1 : s1.p = p := by
      injection hp with hp
      injection hp
    rw [hset, ← hp1, hl]
    simp only
    rw [e1]
    obtain ⟨p1, c1, w1, d1⟩ := s1
    exact run_same_continued _ _ _ _ _ _ _ (hforget p1 w1 _ _ _ _).1 (hforget p1 w1 _ _ _ _).2

/-- **C131** (resuming, Lucas-Kanade with SSD or FourierSSD, any residual without memory).  A forward compositional
fit that goes on after `i` iterations consists of the fit with `i` iterations and one from its final shape, if setting
a shape the transform takes as target gives the transform back. -/
theorem C131_resume_lk {c h w : Nat} {T V A H B : Type} (r : Lk.Residual c h w n Im T Unit A H B) (env : Lk.Env c h w Im T)
    (tr : Lk.Transform n T S V) (hset : ∀ t t', tr.setTarget t (tr.target t') = t') (dW : Lk.Jac h w n)
    (template : Lk.Planes c h w) (eps : ℝ) (t t' : T) (im : Im) (initial : S) (i j : Nat) {x}
    (hr : Lk.fcRun r env tr dW template eps () t im initial (i + j : Nat) = .ok x) (hlen : i + 1 < x.shapes.length) :
    ∃ x₁ final, Lk.fcRun r env tr dW template eps () t im initial i = .ok x₁ ∧ x₁.shapes.getLast? = some final ∧
      (Lk.fcRun r env tr dW template eps () t' im final j).map (continued x₁) = .ok x := by
  obtain ⟨s1, tr1, h1, h2, h3⟩ := run_halves _ true eps _ i j (Prod.ext rfl hr) hlen
  refine ⟨tr1, _, ?_, h2, ?_⟩
  · simp only [Lk.fcRun]; rw [h1]
  · simp only [Lk.fcRun, Lk.fcMachine, hset]
    exact h3

/-! ### The hypotheses are met -/

/-- A constrained local model whose experts always ask for a squeeze: after one iteration the fit is still moving, and
the shape model has not collapsed. -/
example : ∃ (a : Shared.Alg Shared.xKind) (tr : _) (p₁ : OPdm 4),
    OrthoSpec crossOrtho (similarityComponents Shared.xModel.mean) Shared.xModel.comps ∧
    newOPdm crossOrtho Shared.xModel = .ok (Shared.xAt 1 0) ∧
    Shared.run Shared.xKind a 0 ⟨(), ⟨4, 2, MI.cross⟩, (1 : Nat), false⟩ (Shared.xAt 1 0) = (p₁, .ok tr) ∧
    StillMoving euclidean 0 tr.shapes ∧
    ∀ s, Generates p₁.simMean p₁.simComps p₁.simWeights s → ¬ Collapsed s := by
  obtain ⟨⟨K, D⟩, -, h6, ha⟩ := Shared.x_build one_ne_zero 0
  simp only at h6 ha
  subst h6
  have h1 : oSetTarget (Shared.xAt 1 0) ⟨4, 2, MI.cross⟩ = (Shared.xAt 1 0, .ok ()) := by
    have := Shared.x_setTarget one_ne_zero 1 0
    rwa [one_smul] at this
  have hstep : (Shared.machine Shared.xKind ⟨6, D⟩ ()).step (Shared.xAt 1 0) =
      (Shared.xAt 1 (1 / 1), .ok (Shared.distance (Shared.xAt 1 0).target (Shared.xAt 1 (1 / 1)).target)) := by
    have hz : List.zipWith (· + ·) (oAsVector (Shared.xAt 1 0))
        (List.ofFn fun i : Fin 6 => if i.val = 4 then (1 : ℝ) / 1 else 0) = [0, 0, 0, 0, 1 / 1, 0] := by
      simp [oAsVector, Shared.xAt, List.ofFn_succ]
    simp only [Shared.machine]
    rw [if_pos (by rfl)]
    simp only [ha, hz, Shared.x_fromVector]
    rfl
  have hs : Shared.xKind.start () false (Shared.xAt 1 0).target = .ok () := rfl
  have hrun : ∃ tr, Shared.run Shared.xKind ⟨6, D⟩ 0 ⟨(), ⟨4, 2, MI.cross⟩, (1 : Nat), false⟩ (Shared.xAt 1 0) =
      (Shared.xAt 1 (1 / 1), .ok tr) ∧ tr.shapes = [(Shared.xAt 1 0).target, (Shared.xAt 1 (1 / 1)).target] := by
    unfold Shared.run
    simp only [h1, hs, Optim.run]
    rw [loop_unfold, if_pos ⟨by decide, trivial⟩]
    simp only [hstep]
    rw [loop_unfold, if_neg (by simp)]
    exact ⟨_, rfl, rfl⟩
  obtain ⟨tr, hr, htr⟩ := hrun
  refine ⟨⟨6, D⟩, tr, _, Shared.xSpec, Shared.x_new, hr, ?_, ?_⟩
  · intro pre s s' he
    rw [htr] at he
    cases pre with
    | cons u us =>
      have := congrArg List.length he
      simp at this
    | nil =>
      simp only [List.nil_append, List.cons.injEq, and_true] at he
      obtain ⟨rfl, rfl⟩ := he
      simp only [distance_euclidean, Shared.distance, Real.sqrt_pos]
      refine Finset.sum_pos' (fun _ _ => sq_nonneg _) ⟨(0, 0), Finset.mem_univ _, ?_⟩
      simp [Shared.xAt, squeeze, flat]
  · intro s hs'
    rw [generates_iff] at hs'
    have : instanceOf MI.cross crossSim [0, 0, 0, 0] = .ok MI.cross := by
      rw [instanceOf_ok]
      refine ⟨by simp [crossSim, similarityComponents], ?_⟩
      have := combine_zero 4 crossSim
      simp only [List.replicate] at this
      rw [this, add_zero]
    have e : s = MI.cross := by
      have h2 : instanceOf MI.cross crossSim [2 * (1 - 1), 0, 0, 0] = .ok s := hs'
      rw [sub_self, mul_zero, this] at h2
      exact (Except.ok.inj h2).symm
    rw [e]
    have := Shared.x_not_collapsed one_ne_zero
    rwa [one_smul] at this

/-- Two shapes that differ: still moving. -/
theorem stillMoving_pair {S E : Type} [LT E] {dist : S → S → E} {tol : E} {x y : S} (h : tol < dist x y) :
    StillMoving dist tol [x, y] := by
  intro pre s s' he
  cases pre with
  | cons u us =>
    have := congrArg List.length he
    simp at this
  | nil =>
    simp only [List.nil_append, List.cons.injEq, and_true] at he
    obtain ⟨rfl, rfl⟩ := he
    exact h

/-- A template model with one parameter and one feature; the gradient is half of what it should be, so every iteration
overshoots and the fit goes on for ever. -/
noncomputable def overshootEnv : GN.Env 1 1 ℚ ℚ Unit ℚ ℚ where
  setTarget s := fun _ => s
  target p := p 0
  warp _ p := .ok (p 0)
  mask w := fun _ => w
  jac _ := !![1 / 2]
  aBar := fun _ => 1
  Q := 1
  prior := 1
  dist a b := |a - b|

/-- The hypotheses of `C131_resume_project_out` are met by this model. -/
example (cache : GN.Cache 1 1 ℚ) : ∃ tr,
    (GN.poRun overshootEnv false 0 cache ⟨(), 0, (1 : Nat), false, false⟩).2 = .ok tr ∧
    StillMoving overshootEnv.dist 0 tr.shapes ∧ tr.shapes.getLast? = some 2 ∧ tr.params.getLast? = some (fun _ => 2) ∧
    overshootEnv.setTarget 2 = fun _ => 2 := by
  have hstep : GN.poStep overshootEnv false false () ⟨cache, fun _ => 0, 0⟩ =
      (⟨cache, fun _ => 2, 2⟩, .ok |0 - 2|) := by
    have hs : GN.solveForward overshootEnv false ⟨cache, fun _ => 0, 0⟩ = .ok fun _ => 2 := by
      have hd : (Matrix.transpose !![(1 / 2 : ℚ)] * !![1 / 2]).det = 1 / 4 := by
        simp [Matrix.det_fin_one, Matrix.mul_apply]; norm_num
      simp only [GN.solveForward, Bool.false_eq_true, if_false, overshootEnv, GN.solveShapeMl, GN.npSolve, Matrix.one_mul]
      rw [hd, if_neg (by norm_num)]
      simp only [Except.map]
      congr 1
      funext i
      fin_cases i
      simp [Matrix.inv_def, Matrix.det_fin_one, Matrix.mulVec, dotProduct, Matrix.mul_apply, Matrix.adjugate_fin_one]
    simp only [GN.poStep, hs, Bool.false_eq_true, if_false]
    simp only [overshootEnv]
    congr 1
    · congr 1
      · funext i; simp
      · simp
    · simp
  refine ⟨⟨[0, 2], [fun _ => 0, fun _ => 2], none⟩, ?_, stillMoving_pair (by simp [overshootEnv]), rfl, rfl, rfl⟩
  unfold GN.poRun
  simp only
  rw [show overshootEnv.warp () (overshootEnv.setTarget 0) = .ok 0 from rfl]
  simp only [Optim.run]
  rw [loop_unfold, if_pos ⟨by decide, trivial⟩]
  rw [show (GN.poMachine overshootEnv false false ()).step
    ⟨cache, overshootEnv.setTarget 0, 0⟩ = _ from hstep]
  simp only
  rw [loop_unfold, if_neg (by simp)]
  rfl

/-- Lucas-Kanade with SSD on one pixel whose brightness is the parameter. -/
def pixelEnv : Lk.Env 1 1 1 Unit ℝ where
  warp _ t := fun _ _ => t
  grad _ _ := fun _ _ => 1
  fwdGrad _ _ _ := fun _ _ => 1
  normIm := .ok

/-- The transform is the number itself. -/
def pixelTransform : Lk.Transform 1 ℝ ℝ ℝ where
  compose t d := t + d 0
  target t := t
  vector t := t
  setTarget _ s := s

/-- The hypotheses of `C131_resume_lk` are met: the fit with two iterations uses both. -/
example : (∀ t t', pixelTransform.setTarget t (pixelTransform.target t') = t') ∧
    ∃ x, Lk.fcRun (Lk.ssd pixelEnv none) pixelEnv pixelTransform (fun d _ _ => if d = 0 then 1 else 0)
      (fun _ _ => 5) 0 () 7 () 0 ((1 : Nat) + (1 : Nat) : Nat) = .ok x ∧ 1 + 1 < x.shapes.length := by
  refine ⟨fun _ _ => rfl, ?_⟩
  have hstep : ∀ t : ℝ, (Lk.fcMachine (Lk.ssd pixelEnv none) pixelEnv pixelTransform
      (fun d _ _ => if d = 0 then 1 else 0) (fun _ _ => 5) ()).step ((), t) = (((), 5), .ok |t - 5|) := by
    intro t
    have hs : Lk.sdi (n := 1) (pixelEnv.grad (pixelEnv.warp () t)) (fun d _ _ => if d = 0 then 1 else 0) =
        Matrix.of fun _ _ => 1 := by
      funext x k; simp [Lk.sdi, pixelEnv]
    have hi : Lk.fcIncrement (Lk.ssd pixelEnv none) (fun d _ _ => if d = 0 then 1 else 0) (fun _ _ => 5) ()
        (pixelEnv.warp () t) = .ok ((), fun _ : Fin 1 => -(t - 5)) := by
      simp only [Lk.fcIncrement, Lk.ssd, Lk.gradientOf, bind, Except.bind, pure, Except.pure, hs]
      have hm : (Matrix.map (Matrix.of fun _ _ => 1 : Matrix (Lk.Px 1 1 1) (Fin 1) ℝ) fun x : ℝ => (x : ℂ)) =
          Matrix.of fun _ _ => 1 := by
        ext i j; simp
      have hd : (Matrix.of fun _ _ => 1 : Matrix (Lk.Px 1 1 1) (Fin 1) ℂ).transpose *
          (Matrix.of fun _ _ => 1 : Matrix (Lk.Px 1 1 1) (Fin 1) ℂ) = 1 := by
        ext i j; fin_cases i; fin_cases j; simp [Matrix.mul_apply]
      rw [hm, hd]
      simp only [Lk.solveRe, GN.npSolve, Matrix.det_one, if_neg one_ne_zero, inv_one, Matrix.one_mulVec, Except.map]
      congr 2
      funext i
      simp [Matrix.mulVec, dotProduct, Lk.cx, Lk.difference, pixelEnv]
    simp only [Lk.fcMachine, hi, pixelTransform]
    congr 1
    · simp
    · rw [← Real.sqrt_sq_eq_abs]; simp only [dotProduct, Fin.sum_univ_one]; congr 2; ring
  simp only [Lk.fcRun, Optim.run]
  rw [loop_unfold, if_pos ⟨by decide, trivial⟩]
  simp only [pixelTransform] at hstep ⊢
  rw [hstep]
  simp only
  rw [loop_unfold, if_pos ⟨by decide, by simp [goOn]⟩, hstep]
  simp only
  rw [loop_unfold, if_neg (by simp)]
  exact ⟨_, rfl, by simp⟩

end Menpofit
