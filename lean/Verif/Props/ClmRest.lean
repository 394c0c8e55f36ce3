import Verif.Lemmas.ClmRest
import Verif.Lemmas.Placement
import Verif.Lemmas.SharedWitness
import Verif.Props.Clm
/-!
# Properties: what constrained local models do with the responses of their experts (C125)
-/

namespace Menpofit
open MI Matrix Warp ClmRun Spec Optim GN Place Clm

/-! ### Every iteration -/

section
variable {N k : Nat} {Im : Type}

theorem sqNorm_distances (t : Fin N → ℝ × ℝ) (s : Pts N 2) (v : Fin (N * 2) → ℝ) :
    sqNorm ((ravel t - ravel (coordinatesOf s)) - v) = squaredDistances t s v := by
  unfold sqNorm squaredDistances
  rw [← Equiv.sum_comp (finProdFinEquiv (m := N) (n := 2)), Fintype.sum_prod_type]
  refine Finset.sum_congr rfl fun i _ => ?_
  rw [Fin.sum_univ_two]
  simp only [Pi.sub_apply, ravel, Equiv.symm_apply_apply, coordinatesOf, if_true, one_ne_zero, if_false]

/-- **C125** (mean shift).  In every iteration of a run of the regularised landmark mean-shift algorithm the
experts were asked about the shape reported before it; the new parameters are the only ones
whose linearised shape is closest, in the sum of squared distances (plus the prior energy with
`map_inference`), to points `t i` that all lie in the search windows around the landmarks of
that shape. -/
theorem C125_every_iteration (env : ClmRun.Env N k Im) (hc : 0 < env.c) (hprior : ∀ i, 0 ≤ env.prior i)
    (hresp : ∀ im s maps, env.respond im s = .ok maps →
      ∀ i, IsDistribution (maps i) ∧ (maps i).length = env.h * env.w)
    (map : Bool) (maxIters : Int) (tol : ℝ) (im : Im) (init : Pts N 2)
    (r : Trace (Pts N 2) (Fin k → ℝ) Unit)
    (hr : ClmRun.run env .meanShift map maxIters tol im init = .ok r) :
    r.params[0]? = some (env.setTarget init) ∧ r.shapes = r.params.map env.shape ∧
    ∀ (j : Nat) p s p', r.params[j]? = some p → r.shapes[j]? = some s → r.params[j + 1]? = some p' →
      (∃ maps, env.respond im s = .ok maps) ∧
      ∃ t : Fin N → ℝ × ℝ, (∀ i, t i ∈ convexHull ℝ (searchWindow env.h env.w (s (i, 0), s (i, 1)))) ∧
        UniqueMin (fun q => squaredDistances t s (env.J *ᵥ (q - p)) +
          if map then priorEnergy env.prior q else 0) p' := by
  unfold ClmRun.run at hr
  obtain ⟨n, st, mv, h0, -, -, hs, -, -, -, hsh, hpa, -⟩ := loop_spec (machine env .meanShift map im) false
    maxIters tol _ 0 none (env.setTarget init) _ _ r rfl (Prod.ext rfl hr)
  have hpar : r.params = (List.range (n + 1)).map st := by
    rw [hpa, List.range_succ_eq_map, List.map_cons, List.map_map, h0]; rfl
  have hsha : r.shapes = r.params.map env.shape := by
    rw [hsh, hpa]
    simp only [List.map_append, List.map_map, List.map_cons, List.map_nil]
    rfl
  refine ⟨by rw [hpa]; rfl, hsha, ?_⟩
  intro j p s p' h1 h2 h3
  rw [hsha, List.getElem?_map, h1] at h2
  simp only [Option.map_some, Option.some.injEq] at h2
  have get : ∀ (i : Nat) x, r.params[i]? = some x → i ≤ n ∧ st i = x := by
    intro i x hx
    rw [hpar, List.getElem?_map] at hx
    cases hi : (List.range (n + 1))[i]? with
    | none => rw [hi] at hx; cases hx
    | some a =>
      rw [hi] at hx
      obtain ⟨hl, rfl⟩ := List.getElem?_eq_some_iff.1 hi
      simp only [List.length_range] at hl
      simp only [List.getElem_range, Option.map_some, Option.some.injEq] at hx
      exact ⟨by omega, hx⟩
  obtain ⟨-, e1⟩ := get j p h1
  obtain ⟨hj, e2⟩ := get (j + 1) p' h3
  have hstep := hs j (by omega)
  rw [e1, e2] at hstep
  simp only [machine] at hstep
  cases hu : update env .meanShift map im p with
  | error e => rw [hu] at hstep; cases hstep
  | ok q' =>
    rw [hu] at hstep
    have hq : q' = p' := congrArg Prod.fst hstep
    subst hq
    unfold update at hu
    subst h2
    cases hm : env.respond im (env.shape p) with
    | error e => simp only [hm, bind, Except.bind] at hu; cases hu
    | ok maps =>
      refine ⟨⟨maps, rfl⟩, ?_⟩
      have hres := hresp _ _ _ hm
      obtain ⟨t, ht1, ht2⟩ := C54_update env.h env.w env.c hc env.J env.prior hprior
        (fun p => coordinatesOf (env.shape p)) (fun _ => .ok maps) map p q' maps rfl (fun i => (hres i).1)
        (fun i => (hres i).2) (by
          simp only [hm, bind, Except.bind, pure, Except.pure] at hu
          simp only [rlmsStep, bind, Except.bind, pure, Except.pure]
          exact hu)
      refine ⟨t, ht1, ?_⟩
      simp only [sqNorm_distances] at ht2
      exact ht2

/-- What the two algorithms take for the error of a landmark. -/
noncomputable def landmarkError (env : ClmRun.Env N k Im) (alg : ClmRun.Alg) (s : Pts N 2) (maps : Fin N → List ℝ)
    (i : Fin N) : ℝ × ℝ :=
  match alg with
  | .activeShape => asmError env.h env.w env.c (coordinatesOf s i) (maps i)
  | .meanShift => rlmsError env.h env.w env.c (coordinatesOf s i) (maps i)

theorem update_eq (env : ClmRun.Env N k Im) (alg : ClmRun.Alg) (map : Bool) (im : Im) (p : Fin k → ℝ)
    (maps : Fin N → List ℝ) (hr : env.respond im (env.shape p) = .ok maps) :
    update env alg map im p = (if map then GN.clmMapStep env.J env.prior
      (ravel (landmarkError env alg (env.shape p) maps)) p
      else GN.clmMlStep env.J (ravel (landmarkError env alg (env.shape p) maps))).map (p + ·) := by
  cases alg with
  | activeShape =>
    simp only [update, asmStep, hr, bind, Except.bind, pure, Except.pure]
    have : (ravel fun i => asmError env.h env.w env.c (landmarks (env.shape p) i) (maps i)) =
        ravel (landmarkError env .activeShape (env.shape p) maps) := rfl
    rw [this]
    cases map with
    | false =>
      simp only [Bool.false_eq_true, if_false]
      cases GN.clmMlStep env.J (ravel (landmarkError env .activeShape (env.shape p) maps)) <;> rfl
    | true =>
      simp only [if_true]
      cases GN.clmMapStep env.J env.prior (ravel (landmarkError env .activeShape (env.shape p) maps)) p <;> rfl
  | meanShift =>
    simp only [update, hr, bind, Except.bind, pure, Except.pure]
    have : (ravel fun i => rlmsError env.h env.w env.c (landmarks (env.shape p) i) (maps i)) =
        ravel (landmarkError env .meanShift (env.shape p) maps) := rfl
    rw [this]
    cases map with
    | false =>
      simp only [Bool.false_eq_true, if_false]
      cases GN.clmMlStep env.J (ravel (landmarkError env .meanShift (env.shape p) maps)) <;> rfl
    | true =>
      simp only [if_true]
      cases GN.clmMapStep env.J env.prior (ravel (landmarkError env .meanShift (env.shape p) maps)) p <;> rfl

theorem clm_rest (env : ClmRun.Env N k Im) (alg : ClmRun.Alg) (map : Bool) (im : Im) (init : Pts N 2)
    (maps : Fin N → List ℝ) (hr : env.respond im (env.shape (env.setTarget init)) = .ok maps)
    (he : ∀ i, landmarkError env alg (env.shape (env.setTarget init)) maps i = (0, 0))
    (hp : map = true → env.prior * env.setTarget init = 0) (maxIters : Int) (tol : ℝ) (htol : 0 ≤ tol) :
    (∀ r, ClmRun.run env alg map maxIters tol im init = .ok r →
      StaysAt maxIters false (env.shape (env.setTarget init)) (env.setTarget init) r) ∧
    ((maxIters ≤ 0 ∨ (env.Jᵀ * env.J + if map then diagonal env.prior else 0).det ≠ 0) →
      ∃ r, ClmRun.run env alg map maxIters tol im init = .ok r) := by
  obtain ⟨p, hpp⟩ : ∃ p, p = env.setTarget init := ⟨_, rfl⟩
  rw [← hpp] at hr he hp ⊢
  have e0 : ravel (landmarkError env alg (env.shape p) maps) = 0 := by
    funext i
    simp only [ravel, he, ite_self, Pi.zero_apply]
  have hu : update env alg map im p = if (env.Jᵀ * env.J + if map then diagonal env.prior else 0).det = 0
      then .error .linAlgError else .ok p := by
    rw [update_eq env alg map im p maps hr, e0]
    cases map with
    | false =>
      by_cases hd : (env.Jᵀ * env.J).det = 0 <;>
        simp [GN.clmMlStep, GN.npSolveMat, hd, bind, Except.bind, pure, Except.pure, Except.map]
    | true =>
      by_cases hd : (env.Jᵀ * env.J + diagonal env.prior).det = 0 <;>
        simp [GN.clmMapStep, GN.npInv, hd, hp rfl, bind, Except.bind, pure, Except.pure, Except.map]
  unfold ClmRun.run
  rw [← hpp]
  have key := run_rest (machine env alg map im) maxIters tol false p p ?_ rfl
  · refine ⟨key.1, fun h => key.2 ?_⟩
    rcases h with h | h
    · exact Or.inl h
    · refine Or.inr ⟨shapeDistance (env.shape p) (env.shape p), ?_⟩
      simp only [machine, hu, if_neg h]
  · by_cases hd : (env.Jᵀ * env.J + if map then diagonal env.prior else 0).det = 0
    · left
      exact ⟨.linAlgError, by simp only [machine, hu, if_pos hd]⟩
    · right
      refine ⟨shapeDistance (env.shape p) (env.shape p), by simp only [machine, hu, if_neg hd], ?_, rfl, rfl, rfl⟩
      simpa [shapeDistance] using htol

/-- **C125**, the converse: without a prior an iteration keeps the parameters only if the
landmark errors are orthogonal to every column of the Jacobian. -/
theorem C125_rest_is_stationary (env : ClmRun.Env N k Im) (alg : ClmRun.Alg) (im : Im) (p p' : Fin k → ℝ)
    (maps : Fin N → List ℝ) (hr : env.respond im (env.shape p) = .ok maps)
    (h : update env alg false im p = .ok p') :
    p' = p ↔ ∀ c : Fin k, ∑ i, ((landmarkError env alg (env.shape p) maps i).1 * env.J (finProdFinEquiv (i, 0)) c +
      (landmarkError env alg (env.shape p) maps i).2 * env.J (finProdFinEquiv (i, 1)) c) = 0 := by
  obtain ⟨e, he⟩ : ∃ e, e = landmarkError env alg (env.shape p) maps := ⟨_, rfl⟩
  have hsum : ∀ c, ∑ i, ((e i).1 * env.J (finProdFinEquiv (i, 0)) c +
      (e i).2 * env.J (finProdFinEquiv (i, 1)) c) = (env.Jᵀ *ᵥ ravel e) c := by
    intro c
    simp only [mulVec, dotProduct, transpose_apply]
    rw [← Equiv.sum_comp (finProdFinEquiv (m := N) (n := 2)), Fintype.sum_prod_type]
    refine Finset.sum_congr rfl fun i _ => ?_
    rw [Fin.sum_univ_two]
    simp only [ravel, Equiv.symm_apply_apply, if_true, one_ne_zero, if_false]
    ring
  rw [update_eq env alg false im p maps hr] at h
  rw [← he] at h ⊢
  simp only [hsum]
  simp only [Bool.false_eq_true, if_false, GN.clmMlStep, GN.npSolveMat] at h
  split at h
  · cases h
  · next hdet =>
    simp only [bind, Except.bind, pure, Except.pure, Except.map] at h
    injection h with h
    rw [← h, add_eq_left, ← mulVec_mulVec]
    constructor
    · intro h0
      have := congrArg ((env.Jᵀ * env.J) *ᵥ ·) h0
      rw [mulVec_mulVec, mul_nonsing_inv _ (isUnit_iff_ne_zero.mpr hdet), one_mulVec, mulVec_zero] at this
      exact congrFun this
    · intro h0
      have : env.Jᵀ *ᵥ ravel e = 0 := funext h0
      rw [this, mulVec_zero]

end

/-! ### A CLM around an OrthoPDM -/

section
variable {N q : Nat} {Pic C : Type}

theorem respond_ok {h w : Nat} (offs : Fin q → P 2) (sample : Pic → P 2 → C)
    (expert : Fin N → (Fin q → C) → List ℝ) (hx : ∀ i patch, (expert i patch).length = h * w)
    (im : Pic) (s : Pts N 2) (hf : ∀ i, ¬ IsFlat (expert i (patches offs sample im s i))) :
    ∃ maps, respond h w offs sample expert im s = .ok maps ∧
      ∀ i, IsDistribution (maps i) ∧ (maps i).length = h * w ∧
        ∀ (j k : Nat) a b a' b', (expert i (patches offs sample im s i))[j]? = some a →
          (expert i (patches offs sample im s i))[k]? = some b → (maps i)[j]? = some a' →
          (maps i)[k]? = some b' → (a' ≤ b' ↔ a ≤ b) := by
  obtain ⟨out, ho, hfa⟩ := C55_probability_partial h w
    (List.ofFn fun i => expert i (patches offs sample im s i)) (by
      intro m hm
      obtain ⟨i, rfl⟩ := (List.mem_ofFn' ..).1 hm
      exact hx _ _) (by
      intro m hm
      obtain ⟨i, rfl⟩ := (List.mem_ofFn' ..).1 hm
      exact hf _)
  refine ⟨fun i => out.getD i.val [], by unfold respond; rw [ho]; rfl, fun i => ?_⟩
  have hlen := hfa.length_eq
  have hi : i.val < out.length := by rw [← hlen]; simp
  simp only [List.getD_eq_getElem _ _ hi]
  have := (List.forall₂_iff_get.1 hfa).2 i.val (by simp) hi
  simp only [List.get_eq_getElem, List.getElem_ofFn, Fin.eta] at this
  exact ⟨this.1, by rw [this.2.1, hx], this.2.2⟩

theorem turn_transfer {m o : List ℝ} (hl : o.length = m.length) (ht : m.reverse = m)
    (hord : ∀ (j k : Nat) a b a' b', m[j]? = some a → m[k]? = some b → o[j]? = some a' →
      o[k]? = some b' → (a' ≤ b' ↔ a ≤ b)) : o.reverse = o := by
  apply List.ext_getElem (by simp)
  intro j h1 h2
  rw [List.getElem_reverse]
  have hm : m[m.length - 1 - j]'(by omega) = m[j]'(by omega) := by
    have : m.reverse[j]'(by simp; omega) = m[m.length - 1 - j]'(by omega) := List.getElem_reverse ..
    rw [← this]
    congr 1
  have e : o.length - 1 - j = m.length - 1 - j := by omega
  have g1 : o[o.length - 1 - j]? = some (o[o.length - 1 - j]'(by omega)) := List.getElem?_eq_getElem _
  have g2 : o[j]? = some o[j] := List.getElem?_eq_getElem _
  have g3 : m[o.length - 1 - j]? = some (m[m.length - 1 - j]'(by omega)) := by
    rw [e]; exact List.getElem?_eq_getElem _
  have g4 : m[j]? = some (m[j]'(by omega)) := List.getElem?_eq_getElem _
  apply le_antisymm
  · exact (hord _ _ _ _ _ _ g3 g4 g1 g2).2 hm.le
  · exact (hord _ _ _ _ _ _ g4 g3 g2 g1).2 hm.ge

theorem peak_transfer {h w a b : Nat} {m o : List ℝ} (hl : o.length = m.length) (hp : PeaksAt h w m a b)
    (hord : ∀ (j k : Nat) a b a' b', m[j]? = some a → m[k]? = some b → o[j]? = some a' →
      o[k]? = some b' → (a' ≤ b' ↔ a ≤ b)) : PeaksAt h w o a b := by
  obtain ⟨ha, hb, hm, hk⟩ := hp
  refine ⟨ha, hb, by rw [hl, hm], ?_⟩
  intro k v hv hne
  obtain ⟨hkl, -⟩ := List.getElem?_eq_some_iff.1 hv
  have g : m[k]? = some (m[k]'(by omega)) := List.getElem?_eq_getElem _
  obtain ⟨u, hu, hlt⟩ := hk k _ g hne
  obtain ⟨hpl, -⟩ := List.getElem?_eq_some_iff.1 hu
  have g' : o[a * w + b]? = some (o[a * w + b]'(by omega)) := List.getElem?_eq_getElem _
  refine ⟨_, g', ?_⟩
  by_contra hle
  exact absurd ((hord _ _ _ _ _ _ hu g g' hv).1 (not_lt.1 hle)) (not_le.2 hlt)

theorem gram_prior_det {k l : Nat} (J : Matrix (Fin l) (Fin k) ℝ) (hJ : ∀ d, J *ᵥ d = 0 → d = 0)
    (prior : Fin k → ℝ) (hp : ∀ i, 0 ≤ prior i) (map : Bool) :
    (Jᵀ * J + if map then diagonal prior else 0).det ≠ 0 := by
  intro h0
  obtain ⟨v, hv, h1⟩ := exists_mulVec_eq_zero_iff.mpr h0
  apply hv
  apply hJ
  have h2 : v ⬝ᵥ ((Jᵀ * J + if map then diagonal prior else 0) *ᵥ v) = 0 := by rw [h1, dotProduct_zero]
  rw [add_mulVec, dotProduct_add, ← mulVec_mulVec, dotProduct_mulVec, vecMul_transpose] at h2
  have h3 : 0 ≤ v ⬝ᵥ ((if map then diagonal prior else 0) *ᵥ v) := by
    cases map with
    | false => simp
    | true =>
      simp only [if_true, mulVec_diagonal, dotProduct]
      exact Finset.sum_nonneg fun i _ => by nlinarith [hp i, mul_self_nonneg (v i), mul_nonneg (hp i) (mul_self_nonneg (v i))]
  have h4 : 0 ≤ (J *ᵥ v) ⬝ᵥ (J *ᵥ v) := Finset.sum_nonneg fun i _ => mul_self_nonneg _
  exact dotProduct_self_eq_zero.1 (by linarith)

theorem clmPrior_nonneg {k : Nat} (rho2 : ℝ) (hr : 0 ≤ rho2) (L : Fin k → ℝ) (hL : ∀ i, 0 < L i) (i) :
    0 ≤ clmPrior rho2 L i := by
  refine Fin.addCases (fun i => ?_) (fun i => ?_) i
  · rw [clmPrior, Fin.append_left]
  · rw [clmPrior, Fin.append_right]; exact div_nonneg hr (hL i).le

theorem clmPrior_rest {k : Nat} (rho2 : ℝ) (L : Fin k → ℝ) (p : Fin (4 + k) → ℝ)
    (hp : ∀ i, 4 ≤ i.val → p i = 0) : clmPrior rho2 L * p = 0 := by
  funext i
  rw [Pi.mul_apply]
  by_cases hi : i.val < 4
  · have : clmPrior rho2 L i = 0 := by
      have e : i = Fin.castAdd _ ⟨i.val, hi⟩ := rfl
      rw [e, clmPrior, Fin.append_left]
    rw [this, zero_mul]; rfl
  · rw [hp i (by omega), mul_zero]; rfl

/-- **C125** (symmetric responses).  If at the first reported shape every expert's map is
unchanged by turning it by 180 degrees (and not flat), the mean-shift run stays where it is: every reported shape and all reported
parameters are the first ones.  With a prior, it is enough that the non-rigid parameters are zero: the prior does
not pull the position, size or orientation.  The run returns if the columns of the Jacobian are independent. -/
theorem C125_symmetric_rest (M : OPdm N) (h w : Nat) (hh : h % 2 = 1) (hw : w % 2 = 1) (offs : Fin q → P 2)
    (sample : Pic → P 2 → C) (expert : Fin N → (Fin q → C) → List ℝ)
    (hx : ∀ i patch, (expert i patch).length = h * w) (c : ℝ) (hc : 0 < c)
    (J : Matrix (Fin (N * 2)) (Fin (nPar M)) ℝ) (rho2 : ℝ) (hrho : 0 ≤ rho2) (L : Fin M.model.active.length → ℝ)
    (hL : ∀ i, 0 < L i) (im : Pic) (init : Pts N 2) (s : Pts N 2) (hs : s = pdmShape M (pdmParams M init))
    (hsym : ∀ i, TurnSymmetric (expert i (patches offs sample im s i)))
    (hf : ∀ i, ¬ IsFlat (expert i (patches offs sample im s i)))
    (map : Bool) (hmap : map = true → ∀ i, 4 ≤ i.val → pdmParams M init i = 0)
    (maxIters : Int) (tol : ℝ) (htol : 0 ≤ tol) :
    (∀ r, ClmRun.run (clmEnv M h w offs sample expert c J rho2 L) .meanShift map maxIters tol im init = .ok r →
      StaysAt maxIters false s (pdmParams M init) r) ∧
    ((∀ d, J *ᵥ d = 0 → d = 0) →
      ∃ r, ClmRun.run (clmEnv M h w offs sample expert c J rho2 L) .meanShift map maxIters tol im init = .ok r) := by
  subst hs
  obtain ⟨maps, hr, hmaps⟩ := respond_ok offs sample expert hx im _ hf
  have key := clm_rest (clmEnv M h w offs sample expert c J rho2 L) .meanShift map im init maps hr ?_
    (fun hm => clmPrior_rest rho2 L _ (hmap hm)) maxIters tol htol
  · exact ⟨key.1, fun hJ => key.2 (Or.inr (gram_prior_det J hJ _ (clmPrior_nonneg rho2 hrho L hL) map))⟩
  · intro i
    obtain ⟨hd, hl, hord⟩ := hmaps i
    have hpos : ∃ v ∈ maps i, 0 < v := by
      by_contra hne
      push Not at hne
      have : (maps i).sum = 0 := List.sum_eq_zero fun v hv => le_antisymm (hne v hv) (hd.1 v hv)
      rw [hd.2] at this
      norm_num at this
    have := rlmsTarget_turn hh hw hc (coordinatesOf (pdmShape M (pdmParams M init)) i) (maps i) hl
      (turn_transfer (by rw [hl, hx]) (hsym i) hord) hd.1 hpos
    show rlmsError h w c (coordinatesOf (pdmShape M (pdmParams M init)) i) (maps i) = (0, 0)
    simp [rlmsError, this]

/-- **C125** (active shape model), for windows whose sides are 1 modulo 4: if every expert's map has its
peak at the centre of the window, the run stays where it is. -/
theorem C125_peak_rest_partial (M : OPdm N) (h w : Nat) (hh : h % 4 = 1) (hw : w % 4 = 1) (hhw : 1 < h * w)
    (offs : Fin q → P 2)
    (sample : Pic → P 2 → C) (expert : Fin N → (Fin q → C) → List ℝ)
    (hx : ∀ i patch, (expert i patch).length = h * w) (c : ℝ) (hc : 0 < c)
    (J : Matrix (Fin (N * 2)) (Fin (nPar M)) ℝ) (rho2 : ℝ) (hrho : 0 ≤ rho2) (L : Fin M.model.active.length → ℝ)
    (hL : ∀ i, 0 < L i) (im : Pic) (init : Pts N 2) (s : Pts N 2) (hs : s = pdmShape M (pdmParams M init))
    (hpeak : ∀ i, PeaksAt h w (expert i (patches offs sample im s i)) (h / 2) (w / 2))
    (map : Bool) (hmap : map = true → ∀ i, 4 ≤ i.val → pdmParams M init i = 0)
    (maxIters : Int) (tol : ℝ) (htol : 0 ≤ tol) :
    (∀ r, ClmRun.run (clmEnv M h w offs sample expert c J rho2 L) .activeShape map maxIters tol im init = .ok r →
      StaysAt maxIters false s (pdmParams M init) r) ∧
    ((∀ d, J *ᵥ d = 0 → d = 0) →
      ∃ r, ClmRun.run (clmEnv M h w offs sample expert c J rho2 L) .activeShape map maxIters tol im init = .ok r) := by
  subst hs
  obtain ⟨maps, hr, hmaps⟩ := respond_ok offs sample expert hx im _ fun i => peak_not_flat hhw (hpeak i)
  have key := clm_rest (clmEnv M h w offs sample expert c J rho2 L) .activeShape map im init maps hr ?_
    (fun hm => clmPrior_rest rho2 L _ (hmap hm)) maxIters tol htol
  · exact ⟨key.1, fun hJ => key.2 (Or.inr (gram_prior_det J hJ _ (clmPrior_nonneg rho2 hrho L hL) map))⟩
  · intro i
    obtain ⟨hd, hl, hord⟩ := hmaps i
    have hp := peak_transfer (by rw [hl, hx]) (hpeak i) hord
    have := C56_peak_partial h w hh hw c hc (coordinatesOf (pdmShape M (pdmParams M init)) i) (maps i) _ _ hp
    exact Prod.ext (this.1.2 rfl) (this.2.2.2.1.2 rfl)

/-- The Jacobian of a shape model reached in any way contains every translation. -/
theorem C125_jacobian_translates (ortho : Ortho N) (mdl : Pca N 2)
    (h0 : OrthoSpec ortho (similarityComponents mdl.mean) mdl.comps) (M₀ : OPdm N)
    (hn : newOPdm ortho mdl = .ok M₀) (ops : List (PdmOp N 2))
    (ho : ∀ m', .increment m' ∈ ops → OrthoSpec ortho (similarityComponents m'.mean) m'.comps)
    (M : OPdm N) (hM : M = ops.foldl (opdmStep ortho) M₀) (t : Fin 2 → ℝ) :
    ∃ d, Shared.jacobian M (nPar M) *ᵥ d = ravel fun _ : Fin N => (t 0, t 1) := by
  have hm : Movable M := by rw [hM]; exact movable_reach ortho mdl h0 hn ops ho
  refine ⟨shiftOf M t, ?_⟩
  have hspan := combine_span hm.orth (hm.span t)
  have h4 := hm.four
  funext r
  obtain ⟨x, rfl⟩ := (finProdFinEquiv (m := N) (n := 2)).surjective r
  have hx := congrFun hspan x
  have e : ∀ c : Fin (nPar M), Shared.jacobian M (nPar M) (finProdFinEquiv x) c * shiftOf M t c =
      (M.simComps.getD c.val 0) x * shiftOf M t c := by
    intro c
    by_cases hc : c.val < 4
    · simp only [Shared.jacobian, of_apply, Homog.opdmDdp, Homog.gpdmDdp, if_pos hc, Equiv.symm_apply_apply]
    · rw [shiftOf_only hm t c (by omega), mul_zero, mul_zero]
  simp only [mulVec, dotProduct, e]
  rw [Fin.sum_univ_add, Finset.sum_eq_zero (s := Finset.univ (α := Fin M.model.active.length)), add_zero]
  · rw [Fin.sum_univ_four]
    have e2 : ravel (fun _ : Fin N => (t 0, t 1)) (finProdFinEquiv x) = Place.trans N t x := by
      obtain ⟨i, j⟩ := x
      simp only [ravel, Equiv.symm_apply_apply, Place.trans]
      match j with
      | 0 => simp
      | 1 => simp
    rw [e2, ← hx]
    match hl : M.simComps, h4 with
    | [a, b, c, d], _ =>
      simp [shiftOf, hl, combine]
      ring
  · intro c _
    rw [shiftOf_only hm t _ (by simp), mul_zero]

/-- **C125** fails for the active shape model with windows whose height is not 1 modulo 4: although
every expert is most confident exactly where the landmark is, every run leaves the shape parameters.  (The Jacobian is only assumed to be able
to move the shape up and down.) -/
theorem C125_peak_rest_violated (M : OPdm N) (hN : 0 < N) (h w : Nat) (hh : h % 4 ≠ 1) (h2 : 2 ≤ h)
    (offs : Fin q → P 2)
    (sample : Pic → P 2 → C) (expert : Fin N → (Fin q → C) → List ℝ)
    (hx : ∀ i patch, (expert i patch).length = h * w) (c : ℝ) (hc : 0 < c)
    (J : Matrix (Fin (N * 2)) (Fin (nPar M)) ℝ) (hJ : ∃ d, J *ᵥ d = ravel fun _ => (1, 0))
    (rho2 : ℝ) (L : Fin M.model.active.length → ℝ) (im : Pic) (init : Pts N 2)
    (hpeak : ∀ i, PeaksAt h w (expert i (patches offs sample im (pdmShape M (pdmParams M init)) i)) (h / 2) (w / 2))
    (maxIters : Int) (hm : 0 < maxIters) (tol : ℝ) (r : Trace (Pts N 2) (Fin (nPar M) → ℝ) Unit)
    (hr : ClmRun.run (clmEnv M h w offs sample expert c J rho2 L) .activeShape false maxIters tol im init = .ok r) :
    ∃ p', r.params[1]? = some p' ∧ p' ≠ pdmParams M init := by
  obtain ⟨env, henv⟩ : ∃ env, env = clmEnv M h w offs sample expert c J rho2 L := ⟨_, rfl⟩
  have hhw : 1 < h * w := by
    have hw : 0 < w := by have := (hpeak ⟨0, hN⟩).2.1; omega
    nlinarith
  obtain ⟨maps, hresp, hmaps⟩ := respond_ok offs sample expert hx im _ fun i => peak_not_flat hhw (hpeak i)
  unfold ClmRun.run at hr
  obtain ⟨p', eps, hstep, hpar⟩ := run_second _ _ _ _ _ _ hm hr
  refine ⟨p', hpar, ?_⟩
  intro heq
  simp only [machine] at hstep
  have hset : (clmEnv M h w offs sample expert c J rho2 L).setTarget init = pdmParams M init := rfl
  rw [hset] at hstep
  cases hu : update (clmEnv M h w offs sample expert c J rho2 L) .activeShape false im (pdmParams M init) with
  | error e =>
    rw [hu] at hstep; cases hstep
  | ok q' =>
    rw [hu] at hstep
    have hq : q' = p' := congrArg Prod.fst hstep
    subst hq
    have hst := (C125_rest_is_stationary (clmEnv M h w offs sample expert c J rho2 L) .activeShape im
      (pdmParams M init) q' maps hresp hu).1 heq
    obtain ⟨d, hd⟩ := hJ
    obtain ⟨e, he⟩ : ∃ e, e = landmarkError (clmEnv M h w offs sample expert c J rho2 L) .activeShape
      (pdmShape M (pdmParams M init)) maps := ⟨_, rfl⟩
    change ∀ k : Fin (nPar M), ∑ i, ((landmarkError (clmEnv M h w offs sample expert c J rho2 L) .activeShape
      (pdmShape M (pdmParams M init)) maps i).1 * J (finProdFinEquiv (i, 0)) k +
      (landmarkError (clmEnv M h w offs sample expert c J rho2 L) .activeShape
      (pdmShape M (pdmParams M init)) maps i).2 * J (finProdFinEquiv (i, 1)) k) = 0 at hst
    rw [← he] at hst
    have hsum : ∑ i, (e i).1 = 0 := by
      have h1 : ∀ i : Fin N, (J *ᵥ d) (finProdFinEquiv (i, 0)) = 1 ∧ (J *ᵥ d) (finProdFinEquiv (i, 1)) = 0 := by
        intro i
        rw [hd]
        simp [ravel]
      calc ∑ i, (e i).1 = ∑ i, ((e i).1 * (J *ᵥ d) (finProdFinEquiv (i, 0)) +
            (e i).2 * (J *ᵥ d) (finProdFinEquiv (i, 1))) := by
            refine Finset.sum_congr rfl fun i _ => ?_
            rw [(h1 i).1, (h1 i).2]; ring
        _ = ∑ k, d k * ∑ i, ((e i).1 * J (finProdFinEquiv (i, 0)) k + (e i).2 * J (finProdFinEquiv (i, 1)) k) := by
            simp only [mulVec, dotProduct, Finset.mul_sum, ← Finset.sum_add_distrib]
            rw [Finset.sum_comm]
            refine Finset.sum_congr rfl fun k _ => Finset.sum_congr rfl fun i _ => ?_
            ring
        _ = 0 := Finset.sum_eq_zero fun k _ => by rw [hst, mul_zero]
    have hpk : ∀ i, PeaksAt h w (maps i) (h / 2) (w / 2) := fun i => by
      obtain ⟨hd, hl, hord⟩ := hmaps i
      exact peak_transfer (by rw [hl, hx]) (hpeak i) hord
    have hval : ∀ i, (e i).1 = (asmError h w c (coordinatesOf (pdmShape M (pdmParams M init)) i) (maps i)).1 := by
      intro i; rw [he]; rfl
    have hne : (Finset.univ (α := Fin N)).Nonempty := ⟨⟨0, hN⟩, Finset.mem_univ _⟩
    rcases Nat.even_or_odd h with hev | hod
    · have : 0 < ∑ i, (e i).1 := Finset.sum_pos (fun i _ => by
        rw [hval]
        exact C56_even_window_violated h w (Nat.even_iff.1 hev) h2 c hc _ _ (hpk i)) hne
      linarith
    · have : ∑ i, (e i).1 < 0 := by
        have := Finset.sum_lt_sum_of_nonempty hne (f := fun i => (e i).1) (g := fun _ => (0 : ℝ)) (fun i _ => by
          rw [hval]
          exact C56_odd_window_violated h w (by have := Nat.odd_iff.1 hod; omega) c hc _ _ (hpk i))
        simpa using this
      linarith

/-! ### Unified models -/

variable {a m : Nat} {W : Type}

theorem two_gram_det {k l l' : Nat} (Ja : Matrix (Fin l') (Fin k) ℝ) (Jc : Matrix (Fin l) (Fin k) ℝ)
    (hJ : ∀ d, Jc *ᵥ d = 0 → d = 0) (u v : ℝ) (hu : 0 ≤ u) (hv : 0 < v) (D : Fin k → ℝ) (hD : ∀ i, 0 ≤ D i) :
    (u • (Jaᵀ * Ja) + v • (Jcᵀ * Jc) + diagonal D).det ≠ 0 := by
  intro h0
  obtain ⟨x, hx, h1⟩ := exists_mulVec_eq_zero_iff.mpr h0
  apply hx
  apply hJ
  have h2 : x ⬝ᵥ ((u • (Jaᵀ * Ja) + v • (Jcᵀ * Jc) + diagonal D) *ᵥ x) = 0 := by rw [h1, dotProduct_zero]
  have g : ∀ {l : Nat} (J : Matrix (Fin l) (Fin k) ℝ), x ⬝ᵥ ((Jᵀ * J) *ᵥ x) = (J *ᵥ x) ⬝ᵥ (J *ᵥ x) := by
    intro l J
    rw [← mulVec_mulVec, dotProduct_mulVec, vecMul_transpose]
  rw [add_mulVec, add_mulVec, dotProduct_add, dotProduct_add, smul_mulVec, smul_mulVec, dotProduct_smul,
    dotProduct_smul, g, g, smul_eq_mul, smul_eq_mul] at h2
  have h3 : 0 ≤ x ⬝ᵥ (diagonal D *ᵥ x) := by
    simp only [mulVec_diagonal, dotProduct]
    exact Finset.sum_nonneg fun i _ => by nlinarith [mul_nonneg (hD i) (mul_self_nonneg (x i))]
  have h4 : ∀ {l : Nat} (y : Fin l → ℝ), 0 ≤ y ⬝ᵥ y := fun y => Finset.sum_nonneg fun i _ => mul_self_nonneg _
  have h5 := mul_nonneg hu (h4 (Ja *ᵥ x))
  have h6 : v * ((Jc *ᵥ x) ⬝ᵥ (Jc *ᵥ x)) = 0 := by
    have := mul_nonneg hv.le (h4 (Jc *ᵥ x))
    linarith
  exact dotProduct_self_eq_zero.1 ((mul_eq_zero.1 h6).resolve_left hv.ne')

/-- **C125** (unified models).  If at the first reported shape every expert's map is symmetric and
the image shows exactly what the appearance model expects (its mean for the project-out algorithm, any of its instances
for the alternating one), both algorithms stay where they are, at zero cost. -/
theorem C125_unified_rest (M : OPdm N) (h w : Nat) (hh : h % 2 = 1) (hw : w % 2 = 1) (offs : Fin q → P 2)
    (sample : Pic → P 2 → C) (expert : Fin N → (Fin q → C) → List ℝ)
    (hx : ∀ i patch, (expert i patch).length = h * w) (c : ℝ) (hc : 0 < c)
    (J : Matrix (Fin (N * 2)) (Fin (nPar M)) ℝ) (L : Fin M.model.active.length → ℝ)
    (hL : ∀ i, 0 < L i) (look : Pic → Pts N 2 → Except PyErr W) (z : Appearance (nPar M) a m W)
    (jPo : Matrix (Fin m) (Fin (nPar M)) ℝ) (invSigma2 invRho2 : ℝ)
    (im : Pic) (init : Pts N 2) (s : Pts N 2) (hs : s = pdmShape M (pdmParams M init))
    (hsym : ∀ i, TurnSymmetric (expert i (patches offs sample im s i)))
    (hf : ∀ i, ¬ IsFlat (expert i (patches offs sample im s i)))
    (i : W) (hi : look im s = .ok i) (alg : ClmRun.UAlg)
    (hperfect : match alg with
      | .projectOut => z.mask i = z.aBar
      | .alternating => z.A * z.pinvA * z.A = z.A ∧ ∃ b, z.mask i = z.aBar + z.A *ᵥ b)
    (prior : Bool) (hprior : prior = true → ∀ i, 4 ≤ i.val → pdmParams M init i = 0)
    (α : ℝ) (maxIters : Int) (tol : ℝ) (htol : 0 ≤ tol) (costs : Bool)
    (env : ClmRun.UEnv N (nPar M) a m Pic W)
    (henv : env = unifiedEnv M (clmEnv M h w offs sample expert c J 1 L) look z jPo invSigma2 invRho2) :
    (∀ r, ClmRun.uRun env alg prior α maxIters tol costs im init = .ok r →
      StaysAt maxIters costs s (pdmParams M init, z.pinvA *ᵥ (z.mask i - z.aBar)) r) ∧
    ((∀ d, J *ᵥ d = 0 → d = 0) → 0 ≤ invSigma2 → 0 < invRho2 → 0 ≤ α → α < 1 →
      ∃ r, ClmRun.uRun env alg prior α maxIters tol costs im init = .ok r) := by
  subst hs
  obtain ⟨maps, hr, hmaps⟩ := respond_ok offs sample expert hx im _ hf
  have f1 : env.setTarget = pdmParams M := by rw [henv]; rfl
  have f2 : env.shape = pdmShape M := by rw [henv]; rfl
  have f3 : env.respond = respond h w offs sample expert := by rw [henv]; rfl
  have f4 : env.h = h ∧ env.w = w ∧ env.c = c ∧ env.J = J := by rw [henv]; exact ⟨rfl, rfl, rfl, rfl⟩
  have f5 : env.prior = clmPrior 1 L := by rw [henv]; rfl
  have f6 : env.warp = look ∧ env.mask = z.mask ∧ env.aBar = z.aBar ∧ env.U = z.A ∧ env.pinvU = z.pinvA := by
    rw [henv]; exact ⟨rfl, rfl, rfl, rfl, rfl⟩
  have f7 : env.invSigma2 = invSigma2 ∧ env.invRho2 = invRho2 := by rw [henv]; exact ⟨rfl, rfl⟩
  obtain ⟨p, hp⟩ : ∃ p, p = pdmParams M init := ⟨_, rfl⟩
  rw [← hp] at hr hi hmaps hprior ⊢
  have hec : ClmRun.clmError env im p = .ok 0 := by
    unfold ClmRun.clmError
    rw [f2, f3, hr, f4.1, f4.2.1, f4.2.2.1]
    simp only [bind, Except.bind, pure, Except.pure]
    congr 1
    funext x
    have : ∀ i, rlmsError h w c (landmarks (pdmShape M p) i) (maps i) = (0, 0) := by
      intro i
      obtain ⟨hd, hl, hord⟩ := hmaps i
      have hpos : ∃ v ∈ maps i, 0 < v := by
        by_contra hne
        push Not at hne
        have : (maps i).sum = 0 := List.sum_eq_zero fun v hv => le_antisymm (hne v hv) (hd.1 v hv)
        rw [hd.2] at this
        norm_num at this
      have := rlmsTarget_turn hh hw hc (landmarks (pdmShape M p) i) (maps i) hl
        (turn_transfer (by rw [hl, hx]) (by rw [hp]; exact hsym i) hord) hd.1 hpos
      simp [rlmsError, this]
    simp only [ravel, this, ite_self, Pi.zero_apply]
  obtain ⟨st, hst⟩ : ∃ st : ClmRun.UState (nPar M) (N * 2) W, st = ⟨p, i, 0⟩ := ⟨_, rfl⟩
  have hlook : ClmRun.look env im p = .ok st := by
    unfold ClmRun.look
    rw [f6.1, f2, hi, hec, hst]
    rfl
  have hie : ClmRun.imageError env alg st = 0 := by
    cases alg with
    | projectOut =>
      simp only [ClmRun.imageError, f6.2.1, f6.2.2.1, hst]
      simp only at hperfect
      rw [hperfect, sub_self]
    | alternating =>
      obtain ⟨hpinv, b, hb⟩ := hperfect
      simp only [ClmRun.imageError, ClmRun.uAppearance, f6.2.1, f6.2.2.1, f6.2.2.2.1, f6.2.2.2.2, hst, hb]
      rw [add_sub_cancel_left, mulVec_mulVec, mulVec_mulVec, hpinv]
      abel
  have hpr : prior = true → env.prior * st.p = 0 := by
    intro hpt
    rw [f5, hst]
    exact clmPrior_rest 1 L _ (hprior hpt)
  have hinc : ∀ d, ClmRun.increment env alg prior α st = .ok d → d = 0 := by
    intro d hd
    have hec0 : st.ec = 0 := by rw [hst]
    cases alg with
    | projectOut =>
      simp only [ClmRun.increment, hie, hec0, Unified.projectOutStep] at hd
      obtain ⟨A, -, hd⟩ := bind_ok hd
      obtain ⟨B, -, hd⟩ := bind_ok hd
      obtain ⟨G, -, hd⟩ := bind_ok hd
      cases prior with
      | true =>
        simp only [if_true, pure, Except.pure, hpr rfl, mulVec_zero, smul_zero, sub_zero, neg_zero] at hd
        injection hd with hd; exact hd.symm
      | false =>
        simp only [Bool.false_eq_true, if_false, pure, Except.pure, mulVec_zero, add_zero] at hd
        injection hd with hd; exact hd.symm
    | alternating =>
      simp only [ClmRun.increment, hie, hec0, Unified.alternatingStep] at hd
      cases prior with
      | true =>
        simp only [if_true, hpr rfl, mulVec_zero, smul_zero, sub_zero] at hd
        unfold npSolve at hd
        split at hd
        · cases hd
        · simp only [Except.map, mulVec_zero, neg_zero] at hd
          injection hd with hd; exact hd.symm
      | false =>
        simp only [Bool.false_eq_true, if_false, mulVec_zero, smul_zero, add_zero] at hd
        unfold npSolve at hd
        split at hd
        · cases hd
        · simp only [mulVec_zero] at hd
          injection hd with hd; exact hd.symm
  have hcost : (ClmRun.uMachine env alg prior α im).cost st = 0 := by
    show Unified.cost α (ClmRun.imageError env alg st) st.ec = 0
    rw [hie, hst]
    simp [Unified.cost]
  have hsp : st.p = p := by rw [hst]
  have hstep : (∃ err, (ClmRun.uMachine env alg prior α im).step st = (st, .error err)) ∨
      (ClmRun.uMachine env alg prior α im).step st = (st, .ok 0) ∧ ∃ d, ClmRun.increment env alg prior α st = .ok d := by
    simp only [ClmRun.uMachine]
    cases hd : ClmRun.increment env alg prior α st with
    | error e => left; exact ⟨e, rfl⟩
    | ok d =>
      right
      refine ⟨?_, d, rfl⟩
      rw [hinc d hd]
      simp only
      rw [add_zero, hsp, hlook]
      simp only [hsp, shapeDistance, sub_self]
      simp
  have hrun : ClmRun.uRun env alg prior α maxIters tol costs im init =
      (Optim.run (ClmRun.uMachine env alg prior α im) false maxIters tol costs st).2 := by
    unfold ClmRun.uRun
    rw [f1, ← hp, hlook]
    rfl
  rw [hrun]
  have key := run_rest (ClmRun.uMachine env alg prior α im) maxIters tol costs st st (by
    rcases hstep with h | ⟨h, -⟩
    · exact Or.inl h
    · exact Or.inr ⟨0, h, htol, rfl, rfl, hcost⟩) hcost
  have e1 : (ClmRun.uMachine env alg prior α im).shape st = pdmShape M p := by
    show env.shape st.p = _; rw [f2, hsp]
  have e2 : (ClmRun.uMachine env alg prior α im).params st = (p, z.pinvA *ᵥ (z.mask i - z.aBar)) := by
    show (st.p, ClmRun.uAppearance env st) = _
    rw [hsp]
    simp only [ClmRun.uAppearance, f6.2.1, f6.2.2.1, f6.2.2.2.2, hst]
  rw [e1, e2] at key
  refine ⟨key.1, fun hJ h1 h2 h3 h4 => key.2 ?_⟩
  right
  have hok : ∃ d, ClmRun.increment env alg prior α st = .ok d := by
    have nn := clmPrior_nonneg 1 zero_le_one L hL
    have dz : diagonal (0 : Fin (nPar M) → ℝ) = 0 := diagonal_zero
    cases alg with
    | projectOut =>
      have d1 := two_gram_det env.jPo J hJ invSigma2 invRho2 h1 h2 0 (fun _ => le_refl _)
      have d2 := two_gram_det env.jPo J hJ invSigma2 invRho2 h1 h2 _ nn
      rw [dz, add_zero] at d1
      simp only [ClmRun.increment, Unified.projectOutStep, f5, f4.2.2.2, f7.1, f7.2, transpose_smul, Matrix.smul_mul,
        npSolveMat, npInv, if_neg d1, if_neg d2, bind, Except.bind, pure, Except.pure]
      cases prior <;> exact ⟨_, rfl⟩
    | alternating =>
      have hv : 0 < (1 - α) * invRho2 := mul_pos (by linarith) h2
      have d1 := two_gram_det (env.jac (ClmRun.uAppearance env st)) J hJ (α * invSigma2) _ (mul_nonneg h3 h1) hv 0 (fun _ => le_refl _)
      have d2 := two_gram_det (env.jac (ClmRun.uAppearance env st)) J hJ (α * invSigma2) _ (mul_nonneg h3 h1) hv _ nn
      rw [dz, add_zero] at d1
      simp only [ClmRun.increment, Unified.alternatingStep, f5, f4.2.2.2, f7.1, f7.2, transpose_smul, Matrix.smul_mul,
        smul_smul, npSolve, if_neg d1, if_neg d2]
      cases prior <;> exact ⟨_, rfl⟩
  rcases hstep with ⟨e, h⟩ | ⟨h, -⟩
  · obtain ⟨d, hd⟩ := hok
    exfalso
    simp only [ClmRun.uMachine, hd] at h
    rw [hinc d hd, add_zero, hsp, hlook] at h
    cases h
  · exact ⟨0, h⟩

end

/-! ### The hypotheses are met -/

/-- An expert for windows of five by five pixels that sees how well the picture agrees with a bump
around the landmark. -/
def bump : List ℝ := (List.range 25).map fun k => if k = 12 then 1 else 0

example : TurnSymmetric bump ∧ ¬ IsFlat bump ∧ PeaksAt 5 5 bump (5 / 2) (5 / 2) ∧ bump.length = 5 * 5 := by
  refine ⟨by simp [TurnSymmetric, bump, List.range, List.range.loop], ?_, ⟨by norm_num, by norm_num, by simp [bump], ?_⟩,
    by simp [bump]⟩
  · intro hf
    have := hf 0 (by simp [bump]; exact ⟨0, by norm_num, by norm_num⟩) 1 (by simp [bump])
    norm_num at this
  · intro k v hk hne
    refine ⟨1, by simp [bump], ?_⟩
    simp only [bump, List.getElem?_map] at hk
    cases hr : (List.range 25)[k]? with
    | none => rw [hr] at hk; cases hk
    | some j =>
      rw [hr] at hk
      obtain ⟨hl, rfl⟩ := List.getElem?_eq_some_iff.1 hr
      simp only [List.getElem_range, Option.map_some, Option.some.injEq] at hk
      rw [if_neg (by simpa using hne)] at hk
      rw [← hk]; norm_num

/-- The Jacobian of the cross has independent columns. -/
example : ∀ d, Shared.jacobian (Shared.xAt 1 0) (nPar (Shared.xAt 1 0)) *ᵥ d = 0 → d = 0 := by
  intro d hd
  have hg := Shared.jacobian_gram (Shared.x_ready 1 0) rfl
  have h1 : ((Shared.jacobian (Shared.xAt 1 0) (nPar (Shared.xAt 1 0)))ᵀ *
      Shared.jacobian (Shared.xAt 1 0) (nPar (Shared.xAt 1 0))) *ᵥ d = 0 := by
    rw [← mulVec_mulVec, hd, mulVec_zero]
  have e : (Shared.jacobian (Shared.xAt 1 0) (nPar (Shared.xAt 1 0)))ᵀ *
      Shared.jacobian (Shared.xAt 1 0) (nPar (Shared.xAt 1 0)) = 1 := by
    refine hg.trans ?_
    rw [← diagonal_one]
    congr 1
    funext c
    simp [Shared.xAt]
  rw [e, one_mulVec] at h1
  exact h1

end Menpofit
