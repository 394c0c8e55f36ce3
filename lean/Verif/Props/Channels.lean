import Verif.Lemmas.ChannelsLk
import Verif.Lemmas.ChannelsRest
import Verif.Model.PatchNorm
/-!
# C141: the order of the channels of the pictures does not matter

A user may store colour pictures as red, green, blue or as blue, green, red, or list the channels of their features in
any other order, as long as they do so for all pictures.  More generally the channels may be mixed by an orthogonal matrix.
-/

namespace Menpofit
open Matrix Spec GN Optim Place MI Lk Dft

noncomputable section

/-! ## Active appearance models -/

section
variable {N a c q : Nat} {Pic W : Type} {R : Matrix (Fin c) (Fin c) ℝ} {τ : W → W}

theorem cols_mat {l : Nat} {M M' : Matrix (Fin (c * q)) (Fin l) ℝ} (h : ∀ k, M'.col k = mixedFeatures R (M.col k)) :
    M' = Mix.mat R q * M := by
  ext r k
  have := congrFun (h k) r
  rw [← Mix.mat_vec] at this
  exact this

theorem rows_mat {l : Nat} {M M' : Matrix (Fin l) (Fin (c * q)) ℝ} (h : ∀ k, M'.row k = mixedFeatures R (M.row k)) :
    M' = M * (Mix.mat R q)ᵀ := by
  have := cols_mat (R := R) (M := Mᵀ) (M' := M'ᵀ) h
  rw [← transpose_transpose M', this, transpose_mul, transpose_transpose]

theorem mixed_aam (hR : R * Rᵀ = 1) {M : OPdm N} {z z' : Appearance (nPar M) a (c * q) W} (hz : MixedAppearance R τ z z')
    {look : Pic → Pts N 2 → Except PyErr W} {im im' : Pic} (hl : ∀ s, look im' s = (look im s).map τ) (s2 : ℝ)
    (L : Fin M.model.active.length → ℝ) :
    Mix.Aam' (Mix.mat R q) τ im im' (aamSetup M look z s2 L) (aamSetup M look z' s2 L) where
  orth := Mix.mat_orth hR
  setTarget := rfl
  target := rfl
  warp p := hl _
  mask w := (hz.mask w).trans (Mix.mat_vec _).symm
  jacI w := cols_mat (hz.jacI w)
  jacA b := cols_mat (hz.jacA b)
  aBar := hz.aBar.trans (Mix.mat_vec _).symm
  A := cols_mat hz.A
  pinvA := rows_mat hz.pinvA
  priorS := rfl
  priorA := hz.priorA
  dist := rfl

/-- **C141** (active appearance models; partial, see the note).  With an appearance model learned from mixed pictures,
fitting a mixed picture gives what fitting the picture gives with the model learned from the pictures: the same shapes,
shape and appearance parameters and costs, or the same exception.  Any of the four algorithms that know the appearance,
forward or inverse, with or without prior, any number of iterations and any tolerance.  The alternating algorithm with
prior is left out where the number of components equals the number of pixels: it fails elsewhere. -/
theorem C141_aam_partial (hR : R * Rᵀ = 1) (M : OPdm N) (z z' : Appearance (nPar M) a (c * q) W)
    (hz : MixedAppearance R τ z z') (look : Pic → Pts N 2 → Except PyErr W) (im im' : Pic)
    (hl : ∀ s, look im' s = (look im s).map τ) (s2 : ℝ) (L : Fin M.model.active.length → ℝ) (alg : Aam.Alg)
    (inverse map : Bool) (ha : alg = .alternating → map = true → a ≠ c * q) (maxIters : Int) (tol : ℝ) (costs : Bool)
    (init : Pts N 2) :
    Aam.run (aamSetup M look z' s2 L) alg inverse map maxIters tol costs im' init =
      Aam.run (aamSetup M look z s2 L) alg inverse map maxIters tol costs im init :=
  Mix.aam_run (mixed_aam hR hz hl s2 L) alg inverse map ha maxIters tol costs init

/-- **C141** (project-out).  Building the project-out algorithm from the mixed Jacobian of the template and fitting. -/
theorem C141_project_out (hR : R * Rᵀ = 1) (M : OPdm N) (z z' : Appearance (nPar M) a (c * q) W)
    (hz : MixedAppearance R τ z z') (look : Pic → Pts N 2 → Except PyErr W) (im im' : Pic)
    (hl : ∀ s, look im' s = (look im s).map τ) (s2 : ℝ) (L : Fin M.model.active.length → ℝ)
    (J J' : Matrix (Fin (c * q)) (Fin (nPar M)) ℝ) (hJ : ∀ k, J'.col k = mixedFeatures R (J.col k)) (inverse map : Bool)
    (maxIters : Int) (tol : ℝ) (costs : Bool) (init : Pts N 2) :
    ((GN.precompute (Aam.projectOutEnv (aamSetup M look z' s2 L)).Q J').bind fun cache =>
      (poRun (Aam.projectOutEnv (aamSetup M look z' s2 L)) inverse tol cache ⟨im', init, maxIters, costs, map⟩).2) =
    (GN.precompute (Aam.projectOutEnv (aamSetup M look z s2 L)).Q J).bind fun cache =>
      (poRun (Aam.projectOutEnv (aamSetup M look z s2 L)) inverse tol cache ⟨im, init, maxIters, costs, map⟩).2 := by
  rw [cols_mat hJ]
  exact Mix.po_whole (Mix.po_of_aam (mixed_aam hR hz hl s2 L)) inverse tol J init maxIters costs map

/-- **C141** (active template models).  Nothing is projected out, and the template is mixed. -/
theorem C141_template {n : Nat} {S Im E : Type} [LinearOrder E] (hR : R * Rᵀ = 1) (z z' : GN.Env n (c * q) ℝ S Im W E)
    (hset : z'.setTarget = z.setTarget) (htarget : z'.target = z.target) (hprior : z'.prior = z.prior)
    (hdist : z'.dist = z.dist) (hQ : z.Q = 1) (hQ' : z'.Q = 1) (im im' : Im)
    (hwarp : ∀ p, z'.warp im' p = (z.warp im p).map τ) (hmask : ∀ w, z'.mask (τ w) = mixedFeatures R (z.mask w))
    (hjac : ∀ w k, (z'.jac (τ w)).col k = mixedFeatures R ((z.jac w).col k)) (haBar : z'.aBar = mixedFeatures R z.aBar)
    (J J' : Matrix (Fin (c * q)) (Fin n) ℝ) (hJ : ∀ k, J'.col k = mixedFeatures R (J.col k)) (inverse map : Bool)
    (maxIters : Int) (tol : E) (costs : Bool) (init : S) :
    ((GN.precompute z'.Q J').bind fun cache => (poRun z' inverse tol cache ⟨im', init, maxIters, costs, map⟩).2) =
    (GN.precompute z.Q J).bind fun cache => (poRun z inverse tol cache ⟨im, init, maxIters, costs, map⟩).2 := by
  rw [cols_mat hJ]
  refine Mix.po_whole (U := Mix.mat R q) (τ := τ) ⟨Mix.mat_orth hR, hset, htarget, hwarp,
    fun w => (hmask w).trans (Mix.mat_vec _).symm, fun w => cols_mat (hjac w), haBar.trans (Mix.mat_vec _).symm, ?_, hprior,
    hdist⟩ inverse tol J init maxIters costs map
  rw [hQ, hQ', Matrix.mul_one]
  exact (mul_eq_one_comm.1 (Mix.mat_orth hR)).symm

/-- **C141** (unified fits).  If the experts respond alike to the two pictures (`C141_ensemble`), so do unified fits. -/
theorem C141_unified (hR : R * Rᵀ = 1) (M : OPdm N) (clm clm' : ClmRun.Env N (nPar M) Pic)
    (z z' : Appearance (nPar M) a (c * q) W) (hz : MixedAppearance R τ z z') (look : Pic → Pts N 2 → Except PyErr W)
    (im im' : Pic) (hl : ∀ s, look im' s = (look im s).map τ) (jPo jPo' : Matrix (Fin (c * q)) (Fin (nPar M)) ℝ)
    (hJ : ∀ k, jPo'.col k = mixedFeatures R (jPo.col k))
    (hclm : clm' = { clm with respond := clm'.respond }) (hr : ∀ s, clm'.respond im' s = clm.respond im s)
    (sigma rho : ℝ) (alg : ClmRun.UAlg) (prior : Bool) (α : ℝ) (maxIters : Int) (tol : ℝ) (costs : Bool) (init : Pts N 2) :
    ClmRun.uRun (unifiedEnv M clm' look z' jPo' sigma rho) alg prior α maxIters tol costs im' init =
      ClmRun.uRun (unifiedEnv M clm look z jPo sigma rho) alg prior α maxIters tol costs im init := by
  obtain ⟨r', rfl⟩ : ∃ r', clm' = { clm with respond := r' } := ⟨_, hclm⟩
  have h : Mix.Uni (Mix.mat R q) τ im im' (unifiedEnv M clm look z jPo sigma rho)
      (unifiedEnv M { clm with respond := r' } look z' jPo' sigma rho) :=
    { orth := Mix.mat_orth hR
      setTarget := rfl
      shape := rfl
      clmError := fun p => congrArg (fun x => x.bind fun r => (.ok (Clm.ravel fun i => Clm.rlmsError clm.h clm.w clm.c
        (ClmRun.landmarks (clm.shape p) i) (r i)) : Except PyErr (Fin (N * 2) → ℝ))) (hr (clm.shape p))
      J := rfl
      prior := rfl
      warp := hl
      mask := fun w => (hz.mask w).trans (Mix.mat_vec _).symm
      aBar := hz.aBar.trans (Mix.mat_vec _).symm
      A := cols_mat hz.A
      pinvU := rows_mat hz.pinvA
      jPo := cols_mat hJ
      jac := fun b => cols_mat (hz.jacA b)
      invSigma2 := rfl
      invRho2 := rfl }
  exact Mix.uni_run h alg prior α maxIters tol costs init

/-- Two channels with one pixel; the picture with its channels swapped. -/
example : ∃ (R : Matrix (Fin 2) (Fin 2) ℝ) (τ : (Fin (2 * 1) → ℝ) → Fin (2 * 1) → ℝ) (z z' : Appearance 1 1 (2 * 1) (Fin (2 * 1) → ℝ)),
    R * Rᵀ = 1 ∧ R ≠ 1 ∧ MixedAppearance R τ z z' ∧ z.aBar ≠ z'.aBar := by
  have hm : ∀ v : Fin (2 * 1) → ℝ, mixedFeatures (q := 1) !![0, 1; 1, 0] v = ![v 1, v 0] := by
    intro v
    funext r
    fin_cases r
    · simp [mixedFeatures, finProdFinEquiv, Fin.divNat, Fin.modNat]
    · simp [mixedFeatures, finProdFinEquiv, Fin.divNat, Fin.modNat]
  refine ⟨!![0, 1; 1, 0], mixedFeatures (q := 1) !![0, 1; 1, 0],
    ⟨id, fun w => of fun r _ => w r, fun _ => of fun r _ => ![1, 2] r, ![5, 7], of fun r _ => ![1, 3] r,
      of fun _ r => ![1, 3] r, 0⟩,
    ⟨id, fun w => of fun r _ => w r, fun _ => of fun r _ => ![2, 1] r, ![7, 5], of fun r _ => ![3, 1] r,
      of fun _ r => ![3, 1] r, 0⟩, ?_, ?_, ?_, ?_⟩
  · ext i j; fin_cases i <;> fin_cases j <;> simp [mul_apply]
  · intro h
    have := congrFun (congrFun h 0) 0
    simp at this
  · refine ⟨fun w => rfl, fun w k => rfl, fun b k => ?_, ?_, fun k => ?_, fun k => ?_, rfl⟩
    all_goals
      rw [hm]
      funext r
      fin_cases r <;> rfl
  · intro h
    have := congrFun h 0
    norm_num at this

end

/-! ## What is measured and learned -/

section
variable {c h w n q : Nat} {Im T : Type} {R : Matrix (Fin c) (Fin c) ℝ}

/-- **C141** (steepest descent images).  Where the gradient is mixed, so is every column of the Jacobian. -/
theorem C141_steepest_descent (nabla : Fin 2 → Planes c h w) (dW : Jac h w n) (k : Fin n) (i : Fin c) (p : Pos h w) :
    sdi (fun d => mixed R (nabla d)) dW (i, p) k = mixed R (fun j p => sdi nabla dW (j, p) k) i p :=
  Mix.sdi_mixed nabla dW (i, p) k

/-- **C141** (means and principal components).  The mean of mixed vectors is the mixed mean; a mixed direction has the
same length and the same variance, and it is principal exactly where the direction was. -/
theorem C141_principal_components {m : Nat} (hR : R * Rᵀ = 1) (X : Fin m → Fin (c * q) → ℝ)
    (mean : (Fin m → Fin (c * q) → ℝ) → Fin (c * q) → ℝ) (hmean : mean = fun (X : Fin m → Fin (c * q) → ℝ) (r : Fin (c * q)) => (∑ i, X i r) / m)
    (scatter : (Fin m → Fin (c * q) → ℝ) → Matrix (Fin (c * q)) (Fin (c * q)) ℝ)
    (hscatter : scatter = fun X => of fun r s => ∑ i, (X i r - mean X r) * (X i s - mean X s)) :
    mean (fun i => mixedFeatures R (X i)) = mixedFeatures R (mean X) ∧
    (∀ v : Fin (c * q) → ℝ, mixedFeatures R v ⬝ᵥ mixedFeatures R v = v ⬝ᵥ v) ∧
    ∀ (v : Fin (c * q) → ℝ) (μ : ℝ),
      scatter (fun i => mixedFeatures R (X i)) *ᵥ mixedFeatures R v = μ • mixedFeatures R v ↔ scatter X *ᵥ v = μ • v := by
  have hU := Mix.mat_orth (q := q) hR
  have h1 : mean (fun i => mixedFeatures R (X i)) = mixedFeatures R (mean X) := by
    subst hmean
    funext r
    simp only [mixedFeatures]
    rw [Finset.sum_comm, Finset.sum_div]
    simp only [← Finset.mul_sum, mul_div_assoc]
  have h2 : ∀ v, scatter (fun i => mixedFeatures R (X i)) *ᵥ mixedFeatures R v = mixedFeatures R (scatter X *ᵥ v) := by
    intro v
    have e : ∀ Y : Fin m → Fin (c * q) → ℝ, scatter Y *ᵥ v = ∑ i, ((Y i - mean Y) ⬝ᵥ v) • (Y i - mean Y) := by
      intro Y
      rw [hscatter]
      funext r
      simp only [mulVec, dotProduct, of_apply, Finset.sum_mul, Finset.sum_apply, Pi.smul_apply, Pi.sub_apply, smul_eq_mul]
      rw [Finset.sum_comm]
      exact Finset.sum_congr rfl fun i _ => Finset.sum_congr rfl fun s _ => by ring
    have e' : ∀ (Y : Fin m → Fin (c * q) → ℝ) (u : Fin (c * q) → ℝ),
        scatter Y *ᵥ u = ∑ i, ((Y i - mean Y) ⬝ᵥ u) • (Y i - mean Y) := by
      intro Y u
      rw [hscatter]
      funext r
      simp only [mulVec, dotProduct, of_apply, Finset.sum_mul, Finset.sum_apply, Pi.smul_apply, Pi.sub_apply, smul_eq_mul]
      rw [Finset.sum_comm]
      exact Finset.sum_congr rfl fun i _ => Finset.sum_congr rfl fun s _ => by ring
    rw [e', e', h1]
    simp only [← Mix.mat_vec, ← mulVec_sub, Mix.dot hU, ← mulVec_smul, ← mulVec_sum]
  refine ⟨h1, fun v => ?_, fun v μ => ?_⟩
  · rw [← Mix.mat_vec, Mix.dot hU]
  · rw [h2, ← Mix.mat_vec, ← Mix.mat_vec, ← mulVec_smul]
    constructor
    · intro h
      have := congrArg (fun x => (Mix.mat R q)ᵀ *ᵥ x) h
      simp only [mulVec_mulVec, ← Matrix.mul_assoc, hU, Matrix.one_mul, one_mulVec] at this
      exact this
    · intro h
      rw [h]

/-! ## Lucas-Kanade -/

/-- **C141** (Lucas-Kanade with sums of squared differences, in either domain and with any filter, and with gradient
images).  Forward compositional, forward additive and inverse compositional fits are the same. -/
theorem C141_lucas_kanade (S V : Type) (env : Lk.Env c h w Im T) (hg : ChannelWise env) (hR : R * Rᵀ = 1) :
    (∀ kernel s, ChannelBlind (n := n) S V (ssd env kernel) env R (MixedPicture R env) s) ∧
    (∀ kernel s, ChannelBlind (n := n) S V (fourierSsd env kernel) env R (MixedPicture R env) s) ∧
    ChannelBlind (n := n) S V (gradientImages env) env R (MixedPicture R env) none := by
  refine ⟨fun kernel s => ?_, fun kernel s => ?_, ?_⟩
  · intro tr add pinv dW dWt template eps t im im' initial maxIters hi
    exact Mix.blind_fits (Mix.ssd_blind hR kernel) (MixedPicture R env) (fun _ _ t h => h.warp t) (Mix.frame_mixed hg)
      (fun _ _ t h => Mix.forward_mixed h t) s trivial tr add pinv dW dWt template eps t im im' initial maxIters hi
  · intro tr add pinv dW dWt template eps t im im' initial maxIters hi
    exact Mix.blind_fits (Mix.fourier_blind hR kernel) (MixedPicture R env) (fun _ _ t h => h.warp t) (Mix.frame_mixed hg)
      (fun _ _ t h => Mix.forward_mixed h t) s trivial tr add pinv dW dWt template eps t im im' initial maxIters hi
  · intro tr add pinv dW dWt template eps t im im' initial maxIters hi
    exact Mix.blind_fits (Mix.gradientImages_blind hR hg) (MixedPicture R env) (fun _ _ t h => h.warp t)
      (Mix.frame_mixed hg) (fun _ _ t h => Mix.forward_mixed h t) none rfl tr add pinv dW dWt template eps t im im' initial
      maxIters hi

/-- **C141** (enhanced correlation coefficient).  The mean over all channels is subtracted, so the weights in every row
must add up to one: reorderings, for example. -/
theorem C141_correlation_coefficient (S V : Type) (env : Lk.Env c h w Im T) (hg : ChannelWise env) (hR : R * Rᵀ = 1)
    (h1 : ∀ i, ∑ j, R i j = 1) (s : EccState n) :
    ChannelBlind S V (ecc env) env R (MixedWhole R env) s := by
  intro tr add pinv dW dWt template eps t im im' initial maxIters hi
  exact Mix.blind_fits (Mix.ecc_blind hR h1 hg) (MixedWhole R env) (fun _ _ t h => h.seen.warp t) (fun _ => rfl)
    (fun _ _ t h => ⟨rfl, h.normed⟩) s rfl tr add pinv dW dWt template eps t im im' initial maxIters hi

/-- **C141** (gradient correlation).  Orientations are computed channel by channel: reorderings only. -/
theorem C141_gradient_correlation (S V : Type) (env : Lk.Env c h w Im T) (hg : ChannelWise env)
    (σ : Equiv.Perm (Fin c)) :
    ChannelBlind (n := n) S V (gradientCorrelation env) env (orderMatrix σ) (MixedPicture (orderMatrix σ) env) none := by
  intro tr add pinv dW dWt template eps t im im' initial maxIters hi
  rw [Mix.mixed_order]
  exact Mix.blind_fits (Mix.correlation_blind hg σ) (MixedPicture (orderMatrix σ) env)
    (fun _ _ t h => (h.warp t).trans (Mix.mixed_order σ _))
    (fun x => by rw [← Mix.mixed_order]; exact Mix.frame_mixed hg x)
    (fun _ _ t h => Mix.forward_mixed h t) none rfl tr add pinv dW dWt template eps t im im' initial maxIters hi

/-- **C141** (reorderings are such mixtures).  The matrix of a reordering is orthogonal, its rows add up to one, and it
reorders. -/
theorem C141_reorderings (σ : Equiv.Perm (Fin c)) :
    orderMatrix σ * (orderMatrix σ)ᵀ = 1 ∧ (∀ i, ∑ j, orderMatrix σ i j = 1) ∧
      ∀ x : Planes c h w, mixed (orderMatrix σ) x = reordered σ x :=
  ⟨Mix.order_orth σ, Mix.order_rows σ, Mix.mixed_order σ⟩

/-- Pictures with two channels, seen through shifts; all premises are met, and the pictures differ. -/
example : ∃ (env : Lk.Env 2 1 2 (ℝ × ℝ) ℝ) (im im' : ℝ × ℝ), ChannelWise env ∧
    MixedWhole (orderMatrix (Equiv.swap (0 : Fin 2) 1)) env im im' ∧ env.warp im 0 ≠ env.warp im' 0 := by
  obtain ⟨env, henv⟩ : ∃ env : Lk.Env 2 1 2 (ℝ × ℝ) ℝ, env = {
      warp := fun im t i p => (if i = 0 then im.1 else im.2) * (t + p.2.val)
      grad := fun x d i _ => if d = 1 then x i (0, 1) - x i (0, 0) else 0
      fwdGrad := fun im _ d i _ => if d = 1 then (if i = 0 then im.1 else im.2) else 0
      normIm := fun im => .ok im } := ⟨_, rfl⟩
  have hp : ∀ a b : ℝ, MixedPicture (orderMatrix (Equiv.swap (0 : Fin 2) 1)) env (a, b) (b, a) := by
    intro a b
    subst henv
    constructor
    · intro t
      rw [Mix.mixed_order]
      funext i p
      fin_cases i <;> simp [reordered]
    · intro t d
      rw [Mix.mixed_order]
      funext i p
      fin_cases i <;> simp [reordered]
  refine ⟨env, (1, 2), (2, 1), ?_, ⟨hp 1 2, ?_⟩, ?_⟩
  · subst henv
    refine ⟨fun d => if d = 1 then LinearMap.pi fun _ => LinearMap.proj (R := ℝ) (φ := fun _ : Pos 1 2 => ℝ) (0, 1) -
      LinearMap.proj (R := ℝ) (φ := fun _ : Pos 1 2 => ℝ) (0, 0) else 0, ?_⟩
    intro x d i
    funext p
    by_cases hd : d = 1 <;> simp [hd]
  · subst henv
    exact hp 1 2
  · subst henv
    intro h
    have := congrFun (congrFun h 0) (0, 1)
    norm_num at this

end

/-! ## Correlation filters -/

section
open Cf
variable {k D : Nat} {F : Type} {R : Matrix (Fin k) (Fin k) ℝ}

/-- **C141** (multi-channel correlation filters).  Learned from mixed patches, first or incrementally, the filter is the
mixed filter, so its response to a mixed patch is the response to the patch; what is remembered for increments is mixed
as well. -/
theorem C141_filters (hR : R * Rᵀ = 1) (X : List (Spectrum k D)) (y : Fin D → ℂ) (l : ℝ) :
    mccf id (X.map (mixedSpectrum R)) y l = mixedExpert R (mixedFilter R) (mccf id X y l) ∧
    (∀ (e : MccfOut (Ix k D → ℂ) k D) (n f : ℝ),
      imccf id (mixedExpert R (mixedFilter R) e).sXY (mixedExpert R (mixedFilter R) e).sXX n (X.map (mixedSpectrum R)) y l f =
        mixedExpert R (mixedFilter R) (imccf id e.sXY e.sXX n X y l f)) ∧
    ∀ (e : MccfOut (Ix k D → ℂ) k D) (x : Spectrum k D),
      responseTo (fun i p => (mixedExpert R (mixedFilter R) e).f (i, p)) (mixedSpectrum R x) =
        responseTo (fun i p => e.f (i, p)) x :=
  ⟨Mix.mccf_mixed (back := id) hR (fun _ => rfl) X y l,
    fun e n f => Mix.imccf_mixed (back := id) hR (fun _ => rfl) e.sXY e.sXX n X y l f,
    fun e x => funext fun p => Mix.response_mixed hR e.f x p⟩

/-- **C141** (ensembles of experts).  Training an ensemble and incrementing it any number of times, with mixed patches
throughout, gives the mixed ensemble or the same exception.  `β` is what mixing does to a filter in the image domain. -/
theorem C141_ensemble (hR : R * Rᵀ = 1) (back : (Ix k D → ℂ) → F) (β : F → F)
    (hb : ∀ f, back (mixedFilter R f) = β (back f)) (y : Fin D → ℂ) (l : ℝ) (first : List (List (Spectrum k D)))
    (more : List (List (List (Spectrum k D)))) :
    ((trainEnsemble back y l (first.map (List.map (mixedSpectrum R)))).bind fun e =>
      (more.map (List.map (List.map (mixedSpectrum R)))).foldlM (incrementEnsemble back y l) e) =
    ((trainEnsemble back y l first).bind fun e => more.foldlM (incrementEnsemble back y l) e).map (mixedEnsemble R β) := by
  rw [Mix.train_mixed hR hb]
  cases trainEnsemble back y l first with
  | error e => rfl
  | ok e =>
    simp only [Except.map, Except.bind]
    induction more generalizing e with
    | nil => rfl
    | cons b bs ih =>
      simp only [List.map_cons, List.foldlM_cons, Mix.increment_mixed hR hb]
      cases incrementEnsemble back y l e b with
      | error e => rfl
      | ok e' =>
        simp only [Except.map, bind, Except.bind]
        exact ih e'

/-- **C141** (filters learned channel by channel).  `mosse` and `imosse` follow reorderings. -/
theorem C141_single_channel (σ : Equiv.Perm (Fin k)) (X : List (Spectrum k D)) (y : Fin D → ℂ) (l : ℝ) :
    (mosse id (X.map fun x i => x (σ i)) y l).f = (fun i => (mosse id X y l).f (σ i)) ∧
    ∀ (A B : Spectrum k D) (n f : ℝ), (imosse id (fun i => A (σ i)) (fun i => B (σ i)) n (X.map fun x i => x (σ i)) y l f).f =
      fun i => (imosse id A B n X y l f).f (σ i) := by
  have hs : mosseSums (X.map fun x i => x (σ i)) y = (fun i => (mosseSums X y).1 (σ i), fun i => (mosseSums X y).2 (σ i)) := by
    unfold mosseSums
    obtain ⟨g, hg⟩ : ∃ g : Spectrum k D × Spectrum k D → Spectrum k D → Spectrum k D × Spectrum k D,
        g = fun s x => (fun c j => s.1 c j + (starRingEnd ℂ) (x c j) * y j, fun c j => s.2 c j + (starRingEnd ℂ) (x c j) * x c j) :=
      ⟨_, rfl⟩
    rw [← hg, List.foldl_map]
    exact List.foldl_hom (g₁ := g) (g₂ := fun s x => g s fun i => x (σ i)) (l := X) (init := (0, 0)) (fun s : Spectrum k D × Spectrum k D => ((fun i => s.1 (σ i) : Spectrum k D), (fun i => s.2 (σ i) : Spectrum k D)))
      (fun s x => by rw [hg])
  refine ⟨?_, fun A B n f => ?_⟩
  · simp only [mosse, hs]
    rfl
  · simp only [imosse, hs, List.length_map]
    rfl

/-- C141 fails for them under other mixtures: the response to the same patch is another one. -/
theorem C141_single_channel_violated : ∃ (R : Matrix (Fin 2) (Fin 2) ℝ) (x : Spectrum 2 1) (y : Fin 1 → ℂ), R * Rᵀ = 1 ∧
    responseTo (mosse id [x] y 1).f x 0 = 1 / 2 ∧
    responseTo (mosse id [mixedSpectrum R x] y 1).f (mixedSpectrum R x) 0 = 9 / 34 + 16 / 41 := by
  refine ⟨!![3 / 5, 4 / 5; -4 / 5, 3 / 5], fun i _ => if i = 0 then 1 else 0, fun _ => 1, ?_, ?_, ?_⟩
  · ext i j
    fin_cases i <;> fin_cases j <;> simp [mul_apply, Fin.sum_univ_two] <;> norm_num
  · simp [responseTo, mosse, mosseSums, mosseFilter, Fin.sum_univ_two]
    norm_num
  · simp [responseTo, mosse, mosseSums, mosseFilter, Fin.sum_univ_two, mixedSpectrum]
    norm_num

/-- A rotation of two channels is such a mixture. -/
example : ∃ R : Matrix (Fin 2) (Fin 2) ℝ, R * Rᵀ = 1 ∧ R 0 1 ≠ 0 ∧
    mccf id [mixedSpectrum R fun (i : Fin 2) (_ : Fin 1) => if i = 0 then 1 else 0] (fun _ => 1) 1 ≠
      mccf id [fun i _ => if i = 0 then 1 else 0] (fun _ => 1) 1 := by
  refine ⟨!![3 / 5, 4 / 5; -4 / 5, 3 / 5], ?_, ?_, ?_⟩
  · ext i j
    fin_cases i <;> fin_cases j <;> simp [mul_apply, Fin.sum_univ_two] <;> norm_num
  · simp
  · intro h
    have := congrFun (congrArg MccfOut.sXY h) (1, 0)
    simp [mccf, mccfSums, diagX, mixedSpectrum, mulVec, dotProduct] at this

end

/-! ## Patches -/

section
open PatchNorm
variable {c N : Nat}

theorem split_flatten (f : ℝ → ℝ) (p : List (List ℝ)) : split (p.map List.length) (p.flatten.map f) = p.map (List.map f) := by
  induction p with
  | nil => rfl
  | cons a p ih =>
    simp only [List.map_cons, List.flatten_cons, List.map_append, split]
    have hl : a.length = (a.map f).length := by simp
    rw [hl, List.take_left, List.drop_left, ih]

theorem normed_perm {u v : List ℝ} (h : u.Perm v) : ∃ f : ℝ → ℝ, normed u = u.map f ∧ normed v = v.map f := by
  have ha : avg v = avg u := by unfold avg; rw [h.sum_eq, h.length_eq]
  have hc : (PatchNorm.centred u).Perm (PatchNorm.centred v) := by unfold PatchNorm.centred; rw [ha]; exact h.map _
  have hl : len (PatchNorm.centred v) = len (PatchNorm.centred u) := by unfold len; rw [(hc.map _).sum_eq]
  refine ⟨fun x => (x - avg u) / if len (PatchNorm.centred u) = 0 then 1 else len (PatchNorm.centred u), ?_, ?_⟩
  · simp only [normed, List.map_map]
    unfold PatchNorm.centred
    simp only [List.map_map]
    rfl
  · simp only [normed, List.map_map, hl]
    unfold PatchNorm.centred
    simp only [List.map_map, ha]
    rfl

/-- **C141** (normalised patches).  The patches of reordered pictures are normalised to the reordered patches: where the
channels are normalised one by one, as in training, and where the patch of a landmark is normalised as a whole, as in
fitting. -/
theorem C141_patches (σ : Equiv.Perm (Fin c)) (patches : Fin N → Fin c → List ℝ) :
    ∃ one all : Fin N → Fin c → List ℝ,
      (∀ i, normalise3 (List.ofFn (patches i)) = List.ofFn (one i) ∧
        normalise3 (List.ofFn fun j => patches i (σ j)) = List.ofFn fun j => one i (σ j)) ∧
      normalise4 (List.ofFn fun i => List.ofFn (patches i)) = List.ofFn (fun i => List.ofFn (all i)) ∧
      normalise4 (List.ofFn fun i => List.ofFn fun j => patches i (σ j)) = List.ofFn fun i => List.ofFn fun j => all i (σ j) := by
  have hp : ∀ i, ∃ f : ℝ → ℝ, normed (List.ofFn (patches i)).flatten = (List.ofFn (patches i)).flatten.map f ∧
      normed (List.ofFn fun j => patches i (σ j)).flatten = (List.ofFn fun j => patches i (σ j)).flatten.map f := fun i =>
    normed_perm (Equiv.Perm.ofFn_comp_perm σ (patches i)).symm.flatten
  choose f hf using hp
  refine ⟨fun i j => normed (patches i j), fun i j => (patches i j).map (f i), fun i => ⟨?_, ?_⟩, ?_, ?_⟩
  · simp [normalise3, List.map_ofFn, Function.comp_def]
  · simp [normalise3, List.map_ofFn, Function.comp_def]
  · simp only [normalise4, List.map_ofFn, Function.comp_def]
    congr 1
    funext i
    have := split_flatten (f i) (List.ofFn (patches i))
    rw [← (hf i).1] at this
    simpa [List.map_ofFn, Function.comp_def] using this
  · simp only [normalise4, List.map_ofFn, Function.comp_def]
    congr 1
    funext i
    have := split_flatten (f i) (List.ofFn fun j => patches i (σ j))
    rw [← (hf i).2] at this
    simpa [List.map_ofFn, Function.comp_def] using this

/-- C141 fails for the normalisation used in training under other mixtures: the channels lose their relative weight. -/
theorem C141_patches_violated : ∃ a b : List ℝ, ∃ r s : ℝ, r * r + s * s = 1 ∧
    normalise3 [List.zipWith (fun x y => r * x + s * y) a b, List.zipWith (fun x y => -s * x + r * y) a b] ≠
      (fun n : List (List ℝ) => [List.zipWith (fun x y => r * x + s * y) (n.getD 0 []) (n.getD 1 []),
        List.zipWith (fun x y => -s * x + r * y) (n.getD 0 []) (n.getD 1 [])]) (normalise3 [a, b]) := by
  have hn : ∀ t : ℝ, 0 < t → normed [t, -t] = [1 / Real.sqrt 2, -1 / Real.sqrt 2] := by
    intro t ht
    have hs : Real.sqrt (t ^ 2 + t ^ 2) = t * Real.sqrt 2 := by
      rw [show t ^ 2 + t ^ 2 = t ^ 2 * 2 by ring, Real.sqrt_mul (sq_nonneg t), Real.sqrt_sq ht.le]
    have h2 : Real.sqrt 2 ≠ 0 := by positivity
    have h3 : t * Real.sqrt 2 ≠ 0 := mul_ne_zero ht.ne' h2
    simp [normed, PatchNorm.centred, avg, len, hs, ht.ne', h2]
    constructor <;> field_simp
  refine ⟨[1, -1], [2, -2], 3 / 5, 4 / 5, by norm_num, ?_⟩
  have e1 : List.zipWith (fun x y : ℝ => 3 / 5 * x + 4 / 5 * y) [1, -1] [2, -2] = [11 / 5, -(11 / 5)] := by norm_num
  have e2 : List.zipWith (fun x y : ℝ => -(4 / 5) * x + 3 / 5 * y) [1, -1] [2, -2] = [2 / 5, -(2 / 5)] := by norm_num
  simp only [normalise3, List.map_cons, List.map_nil, e1, e2]
  rw [hn _ (by norm_num), hn _ (by norm_num), hn _ (by norm_num), hn _ (by norm_num)]
  intro h
  have h2 : (Real.sqrt 2) ≠ 0 := by positivity
  simp only [List.getD_cons_zero, List.getD_cons_succ, List.zipWith_cons_cons, List.zipWith_nil_left, List.cons.injEq] at h
  have := h.1.1
  field_simp at this
  norm_num at this

end

end

end Menpofit
