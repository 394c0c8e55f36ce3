import Verif.Spec.Channels
import Verif.Lemmas.Lighting
import Verif.Lemmas.Dft
/-!
# Lemmas: Lucas-Kanade fits on pictures with mixed channels
-/

namespace Menpofit
namespace Mix
set_option linter.unusedSectionVars false
open Matrix GN Optim Spec Lk Dft

/-! ### Simulation of runs with the order of the checks used by Lucas-Kanade -/

theorem loop_same {σ S V C E : Type} [LinearOrder E] (m m' : Machine σ S V C E) (Q : σ → σ → Prop) (b0 : Bool)
    (maxIters : Int) (tol : E)
    (hshape : ∀ s t, Q s t → m'.shape t = m.shape s) (hparams : ∀ s t, Q s t → m'.params t = m.params s)
    (hcost : ∀ s t, Q s t → m'.cost t = m.cost s)
    (hstep : ∀ s t, Q s t → (m'.step t).2 = (m.step s).2 ∧ ∀ e, (m.step s).2 = .ok e → Q (m.step s).1 (m'.step t).1)
    (hcost0 : ∀ s t, Q s t → ∀ e, (m.step s).2 = .ok e → m'.cost t = m.cost s) :
    ∀ (b : Nat) (j : Int) (eps : Option E) (s t : σ) (tr : Trace S V C),
      (maxIters - j).toNat = b → Q s t →
      (loop m' b0 maxIters tol j eps t tr).2 = (loop m b0 maxIters tol j eps s tr).2 := by
  intro b
  induction b with
  | zero =>
    intro j eps s t tr hk hR
    rw [loop_unfold, loop_unfold m, if_neg (by omega), if_neg (by omega)]
  | succ b ih =>
    intro j eps s t tr hk hR
    rw [loop_unfold, loop_unfold m]
    by_cases hg : j < maxIters ∧ goOn tol eps
    · rw [if_pos hg, if_pos hg]
      obtain ⟨h1, h2⟩ := hstep s t hR
      rcases hs1 : m.step s with ⟨s', x⟩
      rcases hs2 : m'.step t with ⟨t', y⟩
      rw [hs1, hs2] at h1 h2
      simp only at h1 h2
      subst h1
      cases y with
      | error e => rfl
      | ok e =>
        have hR' := h2 e rfl
        simp only [hshape _ _ hR', hparams _ _ hR', hcost _ _ hR', hcost _ _ hR]
        exact ih (j + 1) (some e) s' t' _ (by omega) hR'
    · rw [if_neg hg, if_neg hg]

theorem run_same {σ S V C E : Type} [LinearOrder E] (m m' : Machine σ S V C E) (Q : σ → σ → Prop) (b0 : Bool)
    (maxIters : Int) (tol : E)
    (hshape : ∀ s t, Q s t → m'.shape t = m.shape s) (hparams : ∀ s t, Q s t → m'.params t = m.params s)
    (hcost : ∀ s t, Q s t → m'.cost t = m.cost s)
    (hstep : ∀ s t, Q s t → (m'.step t).2 = (m.step s).2 ∧ ∀ e, (m.step s).2 = .ok e → Q (m.step s).1 (m'.step t).1)
    (costs : Bool) (s t : σ) (hR : Q s t) :
    (Optim.run m' b0 maxIters tol costs t).2 = (Optim.run m b0 maxIters tol costs s).2 := by
  unfold Optim.run
  simp only [hshape _ _ hR, hparams _ _ hR, hcost _ _ hR]
  exact loop_same m m' Q b0 maxIters tol hshape hparams hcost hstep (fun s t h _ _ => hcost s t h) _ 0 none s t _ rfl hR

/-! ### Residuals -/

section
variable {c h w n : Nat} {Im T ρ A H B S V : Type}

/-- The residual does not see that the channels are mixed. -/
structure Blind (r : Residual c h w n Im T ρ A H B) (μ : Planes c h w → Planes c h w)
    (Src : Source c h w Im T → Source c h w Im T → Prop) (QS : ρ → ρ → Prop) (QA : A → A → Prop) : Prop where
  images : ∀ s s' x x' dW, Src x x' → QS s s' →
    BothWays (fun a b => QS a.1 b.1 ∧ QA a.2.1 b.2.1 ∧ QA a.2.2 b.2.2) (r.images s x dW) (r.images s' x' dW)
  hessian : ∀ s s' J J' M M', QS s s' → QA J J' → QA M M' →
    BothWays (fun a b => QS a.1 b.1 ∧ b.2 = a.2) (r.hessian s J M) (r.hessian s' J' M')
  update : ∀ s s' J J' x t, QS s s' → QA J J' →
    BothWays (fun a b => QS a.1 b.1 ∧ b.2 = a.2) (r.update s J x t) (r.update s' J' (μ x) (μ t))

variable {r : Residual c h w n Im T ρ A H B} {μ : Planes c h w → Planes c h w}
  {Src : Source c h w Im T → Source c h w Im T → Prop} {QS : ρ → ρ → Prop} {QA : A → A → Prop} {env : Lk.Env c h w Im T}

theorem solve_same (g : (Fin n → ℝ) → Fin n → ℝ) {s s' : ρ} (hs : QS s s') (x : Except PyErr (Fin n → ℝ)) :
    BothWays (fun a b : ρ × (Fin n → ℝ) => QS a.1 b.1 ∧ b.2 = a.2) (x.bind fun dp => .ok (s, g dp))
      (x.bind fun dp => .ok (s', g dp)) := by
  cases x with
  | error e => exact rfl
  | ok d => exact ⟨hs, rfl⟩

theorem increment_same (hb : Blind r μ Src QS QA) (dW : Jac h w n) {x x' : Source c h w Im T} (hx : Src x x')
    (y t : Planes c h w) (g : (Fin n → ℝ) → Fin n → ℝ) {s s' : ρ} (hs : QS s s') :
    BothWays (fun a b : ρ × (Fin n → ℝ) => QS a.1 b.1 ∧ b.2 = a.2)
      ((r.images s x dW).bind fun a => (r.hessian a.1 a.2.1 a.2.2).bind fun b => (r.update b.1 a.2.1 y t).bind fun d =>
        (r.solve b.2 d.2).bind fun dp => .ok (d.1, g dp))
      ((r.images s' x' dW).bind fun a => (r.hessian a.1 a.2.1 a.2.2).bind fun b =>
        (r.update b.1 a.2.1 (μ y) (μ t)).bind fun d => (r.solve b.2 d.2).bind fun dp => .ok (d.1, g dp)) := by
  refine Lighting.both_bind (hb.images s s' x x' dW hx hs) ?_
  rintro a a' ⟨h1, h2, h3⟩
  refine Lighting.both_bind (hb.hessian _ _ _ _ _ _ h1 h2 h3) ?_
  rintro b b' ⟨h4, h5⟩
  refine Lighting.both_bind (hb.update _ _ _ _ y t h4 h2) ?_
  rintro d d' ⟨h6, h7⟩
  rw [h5, h7]
  exact solve_same g h6 _

theorem step_both {σ : Type} {ρ : Type} {QS : ρ → ρ → Prop} {T : Type} (x y : Except PyErr (ρ × (Fin n → ℝ)))
    (hxy : BothWays (fun a b : ρ × (Fin n → ℝ) => QS a.1 b.1 ∧ b.2 = a.2) x y) (t : T) (f : (Fin n → ℝ) → T) (s s' : ρ) :
    (match y with
      | .error e => ((s', t), (.error e : Except PyErr ℝ))
      | .ok (s, dp) => ((s, f dp), .ok (Real.sqrt (dp ⬝ᵥ dp)))).2 =
    (match x with
      | .error e => ((s, t), (.error e : Except PyErr ℝ))
      | .ok (s, dp) => ((s, f dp), .ok (Real.sqrt (dp ⬝ᵥ dp)))).2 ∧
    ∀ e, (match x with
      | .error e => ((s, t), (.error e : Except PyErr ℝ))
      | .ok (s, dp) => ((s, f dp), .ok (Real.sqrt (dp ⬝ᵥ dp)))).2 = .ok e →
      (fun a b : ρ × T => QS a.1 b.1 ∧ b.2 = a.2)
        (match x with
          | .error e => ((s, t), (.error e : Except PyErr ℝ))
          | .ok (s, dp) => ((s, f dp), .ok (Real.sqrt (dp ⬝ᵥ dp)))).1
        (match y with
          | .error e => ((s', t), (.error e : Except PyErr ℝ))
          | .ok (s, dp) => ((s, f dp), .ok (Real.sqrt (dp ⬝ᵥ dp)))).1 := by
  cases x with
  | error e =>
    cases y with
    | error e' =>
      have : e = e' := hxy
      subst this
      exact ⟨rfl, fun _ h => by cases h⟩
    | ok y => exact hxy.elim
  | ok x =>
    cases y with
    | error e' => exact hxy.elim
    | ok y =>
      obtain ⟨h1, h2⟩ := hxy
      rcases x with ⟨a, b⟩
      rcases y with ⟨a', b'⟩
      simp only at h1 h2
      subst h2
      exact ⟨rfl, fun _ _ => ⟨h1, rfl⟩⟩

theorem blind_fits (hb : Blind r μ Src QS QA) (pic : Im → Im → Prop)
    (hwarp : ∀ im im' t, pic im im' → env.warp im' t = μ (env.warp im t))
    (hframe : ∀ x, Src (.frame x) (.frame (μ x)))
    (hfwd : ∀ im im' t, pic im im' → Src (.forward im t) (.forward im' t)) (s : ρ) (hs : QS s s)
    (tr : Lk.Transform n T S V) (add : T → (Fin n → ℝ) → T) (pinv : T → (Fin n → ℝ) → (Fin n → ℝ)) (dW : Jac h w n)
    (dWt : T → Jac h w n) (template : Planes c h w) (eps : ℝ) (t : T) (im im' : Im) (initial : S) (maxIters : Int)
    (hp : pic im im') :
    fcRun r env tr dW (μ template) eps s t im' initial maxIters =
      fcRun r env tr dW template eps s t im initial maxIters ∧
    faRun r env tr add dWt (μ template) eps s t im' initial maxIters =
      faRun r env tr add dWt template eps s t im initial maxIters ∧
    icFit r env tr pinv dW (μ template) eps s t im' initial maxIters =
      icFit r env tr pinv dW template eps s t im initial maxIters := by
  refine ⟨?_, ?_, ?_⟩
  · unfold fcRun
    refine run_same _ _ (fun a b : ρ × T => QS a.1 b.1 ∧ b.2 = a.2) true maxIters eps ?_ ?_ (fun _ _ _ => rfl) ?_ false _ _
      ⟨hs, rfl⟩
    · rintro ⟨a, t⟩ ⟨a', t'⟩ ⟨h1, h2⟩
      exact congrArg tr.target h2
    · rintro ⟨a, t⟩ ⟨a', t'⟩ ⟨h1, h2⟩
      exact congrArg tr.vector h2
    · rintro ⟨a, t⟩ ⟨a', t'⟩ ⟨h1, h2⟩
      simp only at h1 h2
      subst h2
      have := increment_same hb dW (hframe (env.warp im t')) (env.warp im t') template (fun d => -d) h1
      simp only [fcMachine, hwarp im im' t' hp]
      exact step_both (σ := Unit) _ _ this t' (tr.compose t') a a'
  · unfold faRun
    refine run_same _ _ (fun a b : ρ × T => QS a.1 b.1 ∧ b.2 = a.2) true maxIters eps ?_ ?_ (fun _ _ _ => rfl) ?_ false _ _
      ⟨hs, rfl⟩
    · rintro ⟨a, t⟩ ⟨a', t'⟩ ⟨h1, h2⟩
      exact congrArg tr.target h2
    · rintro ⟨a, t⟩ ⟨a', t'⟩ ⟨h1, h2⟩
      exact congrArg tr.vector h2
    · rintro ⟨a, t⟩ ⟨a', t'⟩ ⟨h1, h2⟩
      simp only at h1 h2
      subst h2
      have := increment_same hb (dWt t') (hfwd im im' t' hp) (env.warp im t') template (fun d => -d) h1
      rw [← hwarp im im' t' hp] at this
      simp only [faMachine]
      exact step_both (σ := Unit) _ _ this t' (add t') a a'
  · have hpre : BothWays (fun a b : ρ × A × H => QS a.1 b.1 ∧ QA a.2.1 b.2.1 ∧ b.2.2 = a.2.2)
        (icPrecompute r dW template s) (icPrecompute r dW (μ template) s) := by
      unfold icPrecompute
      refine Lighting.both_bind (hb.images s s _ _ dW (hframe template) hs) ?_
      rintro a a' ⟨h1, h2, h3⟩
      refine Lighting.both_bind (hb.hessian _ _ _ _ _ _ h1 h2 h3) ?_
      rintro b b' ⟨h4, h5⟩
      exact ⟨h4, h2, h5⟩
    unfold icFit
    revert hpre
    cases icPrecompute r dW template s with
    | error e =>
      cases icPrecompute r dW (μ template) s with
      | error e' => intro h; have : e = e' := h; subst this; rfl
      | ok y => exact fun h => h.elim
    | ok x =>
      cases icPrecompute r dW (μ template) s with
      | error e' => exact fun h => h.elim
      | ok y =>
        rintro ⟨h1, h2, h3⟩
        show icRun r env tr pinv (μ template) eps y t im' initial maxIters =
          icRun r env tr pinv template eps x t im initial maxIters
        unfold icRun
        refine run_same _ _ (fun a b : ρ × T => QS a.1 b.1 ∧ b.2 = a.2) true maxIters eps ?_ ?_ (fun _ _ _ => rfl) ?_ false
          _ _ ⟨h1, rfl⟩
        · rintro ⟨a, t⟩ ⟨a', t'⟩ ⟨h1, h2⟩
          exact congrArg tr.target h2
        · rintro ⟨a, t⟩ ⟨a', t'⟩ ⟨h1, h2⟩
          exact congrArg tr.vector h2
        · rintro ⟨a, t⟩ ⟨a', t'⟩ ⟨h4, h5⟩
          simp only at h4 h5
          subst h5
          have : BothWays (fun a b : ρ × (Fin n → ℝ) => QS a.1 b.1 ∧ b.2 = a.2)
              (icIncrement r (a, x.2.1, x.2.2) template (env.warp im t'))
              (icIncrement r (a', y.2.1, y.2.2) (μ template) (env.warp im' t')) := by
            unfold icIncrement
            rw [hwarp im im' t' hp]
            refine Lighting.both_bind (hb.update _ _ _ _ _ _ h4 h2) ?_
            rintro ⟨d1, d2⟩ ⟨d1', d2'⟩ ⟨h6, h7⟩
            simp only at h6 h7
            simp only [h3, h7]
            exact solve_same id h6 _
          simp only [icMachine]
          exact step_both (σ := Unit) _ _ this t' (fun dp => tr.compose t' (pinv t' dp)) a a'

end

/-! ### Sums over channels -/

section
variable {K : Type} [CommRing K] {c : Nat} {R : Matrix (Fin c) (Fin c) K}

theorem sum_mix (hR : Rᵀ * R = 1) (x y : Fin c → K) :
    ∑ i, (∑ j, R i j * x j) * (∑ j, R i j * y j) = ∑ j, x j * y j := by
  have h : (R *ᵥ x) ⬝ᵥ (R *ᵥ y) = x ⬝ᵥ y := by rw [dotProduct_mulVec, vecMul_mulVec, hR, vecMul_one]
  exact h

end

section
variable {c h w n : Nat} {Im T : Type} {R : Matrix (Fin c) (Fin c) ℝ} {env : Lk.Env c h w Im T}

theorem sum_px {K : Type} [AddCommMonoid K] (f : Px c h w → K) : ∑ x, f x = ∑ p : Pos h w, ∑ i, f (i, p) :=
  Fintype.sum_prod_type_right f

theorem orth' (hR : R * Rᵀ = 1) : Rᵀ * R = 1 := mul_eq_one_comm.1 hR

theorem grad_mixed (hg : ChannelWise env) (x : Planes c h w) (d : Fin 2) : env.grad (mixed R x) d = mixed R (env.grad x d) := by
  obtain ⟨D, hD⟩ := hg
  funext i p
  have : mixed R x i = ∑ j, R i j • x j := by
    funext p
    simp [mixed, Finset.sum_apply]
  rw [hD, this, map_sum, Finset.sum_apply]
  simp only [mixed, hD, map_smul, Pi.smul_apply, smul_eq_mul]

theorem sdi_mixed (g : Fin 2 → Planes c h w) (dW : Jac h w n) (x : Px c h w) (k : Fin n) :
    sdi (fun d => mixed R (g d)) dW x k = ∑ j, R x.1 j * sdi g dW (j, x.2) k := by
  unfold sdi mixed
  simp only [Finset.sum_mul, Finset.mul_sum]
  rw [Finset.sum_comm]
  simp only [mul_assoc]

theorem difference_mixed (x t : Planes c h w) (q : Px c h w) :
    difference (mixed R x) (mixed R t) q = ∑ j, R q.1 j * difference x t (j, q.2) := by
  unfold difference mixed
  rw [← Finset.sum_sub_distrib]
  simp only [mul_sub]

/-- The columns are mixed. -/
def Cols {K : Type} [CommRing K] [Algebra ℝ K] (R : Matrix (Fin c) (Fin c) ℝ) (J J' : Matrix (Px c h w) (Fin n) K) : Prop :=
  ∀ x k, J' x k = ∑ j, algebraMap ℝ K (R x.1 j) * J (j, x.2) k

/-- A vector is mixed. -/
def Vec {K : Type} [CommRing K] [Algebra ℝ K] (R : Matrix (Fin c) (Fin c) ℝ) (v v' : Px c h w → K) : Prop :=
  ∀ x, v' x = ∑ j, algebraMap ℝ K (R x.1 j) * v (j, x.2)

theorem alg_orth {K : Type} [CommRing K] [Algebra ℝ K] (hR : R * Rᵀ = 1) :
    (R.map (algebraMap ℝ K))ᵀ * R.map (algebraMap ℝ K) = 1 := by
  rw [← transpose_map, ← Matrix.map_mul, orth' hR]
  exact Matrix.map_one _ (map_zero _) (map_one _)

theorem vec_dot {K : Type} [CommRing K] [Algebra ℝ K] (hR : R * Rᵀ = 1) {v v' u u' : Px c h w → K}
    (hv : Vec R v v') (hu : Vec R u u') : v' ⬝ᵥ u' = v ⬝ᵥ u := by
  unfold dotProduct
  rw [sum_px, sum_px]
  refine Finset.sum_congr rfl fun p _ => ?_
  have e : ∀ i : Fin c, v' (i, p) * u' (i, p) = (∑ j, algebraMap ℝ K (R i j) * v (j, p)) *
      ∑ j, algebraMap ℝ K (R i j) * u (j, p) := fun i => by rw [hv, hu]
  simp only [e]
  exact sum_mix (alg_orth hR) (fun j => v (j, p)) fun j => u (j, p)

theorem cols_gram {K : Type} [CommRing K] [Algebra ℝ K] (hR : R * Rᵀ = 1) {J J' M M' : Matrix (Px c h w) (Fin n) K}
    (hJ : Cols R J J') (hM : Cols R M M') : J'ᵀ * M' = Jᵀ * M := by
  ext k l
  simp only [mul_apply, transpose_apply]
  exact vec_dot hR (fun x => hJ x k) fun x => hM x l

theorem cols_vec {K : Type} [CommRing K] [Algebra ℝ K] (hR : R * Rᵀ = 1) {J J' : Matrix (Px c h w) (Fin n) K}
    (hJ : Cols R J J') {v v' : Px c h w → K} (hv : Vec R v v') : J'ᵀ *ᵥ v' = Jᵀ *ᵥ v := by
  funext k
  simp only [mulVec, transpose_apply]
  exact vec_dot hR (fun x => hJ x k) hv

theorem conj_vec {v v' : Px c h w → ℂ} (hv : Vec R v v') : Vec R (star v) (star v') := by
  intro x
  simp only [Pi.star_apply, hv x, star_sum, star_mul', RCLike.star_def]
  simp

theorem cols_gram_conj (hR : R * Rᵀ = 1) {J J' M M' : Matrix (Px c h w) (Fin n) ℂ}
    (hJ : Cols R J J') (hM : Cols R M M') : J'ᴴ * M' = Jᴴ * M := by
  ext k l
  simp only [mul_apply, conjTranspose_apply]
  exact vec_dot hR (conj_vec (v := fun x => J x k) (v' := fun x => J' x k) fun x => hJ x k) fun x => hM x l

theorem cols_vec_conj (hR : R * Rᵀ = 1) {J J' : Matrix (Px c h w) (Fin n) ℂ}
    (hJ : Cols R J J') {v v' : Px c h w → ℂ} (hv : Vec R v v') : J'ᴴ *ᵥ v' = Jᴴ *ᵥ v := by
  funext k
  simp only [mulVec, conjTranspose_apply]
  exact vec_dot hR (conj_vec (v := fun x => J x k) (v' := fun x => J' x k) fun x => hJ x k) hv

/-- A linear map of planes commutes with mixing. -/
theorem plane_mixed (f : (Pos h w → ℂ) →ₗ[ℂ] (Pos h w → ℂ)) {v v' : Px c h w → ℂ} (hv : Vec R v v') :
    Vec R (fun x => f (fun p => v (x.1, p)) x.2) fun x => f (fun p => v' (x.1, p)) x.2 := by
  intro x
  have e : (fun p => v' (x.1, p)) = ∑ j, (algebraMap ℝ ℂ (R x.1 j)) • fun p => v (j, p) := by
    funext p
    rw [hv]
    simp [Finset.sum_apply]
  simp only [e, map_sum, Finset.sum_apply, map_smul, Pi.smul_apply, smul_eq_mul]

theorem planes_mixed (f : (Pos h w → ℂ) →ₗ[ℂ] (Pos h w → ℂ)) {J J' : Matrix (Px c h w) (Fin n) ℂ} (hJ : Cols R J J') :
    Cols R (onPlanes f J) (onPlanes f J') := fun x k =>
  plane_mixed f (v := fun x => J x k) (v' := fun x => J' x k) (fun x => hJ x k) x

theorem cx_vec {v v' : Px c h w → ℝ} (hv : Vec R v v') : Vec R (cx v) (cx v') := by
  intro x
  simp [cx, hv x]

/-! ### Sums of squared differences -/

/-- The gradients are mixed. -/
def GradMixed (R : Matrix (Fin c) (Fin c) ℝ) (env : Lk.Env c h w Im T) (x x' : Source c h w Im T) : Prop :=
  gradientOf env x' = fun d => mixed R (gradientOf env x d)

theorem frame_mixed (hg : ChannelWise env) (x : Planes c h w) : GradMixed R env (.frame x) (.frame (mixed R x)) := by
  funext d
  exact grad_mixed hg x d

theorem forward_mixed {im im' : Im} (hi : MixedPicture R env im im') (t : T) :
    GradMixed R env (.forward im t) (.forward im' t) := by
  funext d
  exact hi.fwdGrad t d

theorem sdi_cols {x x' : Source c h w Im T} (hx : GradMixed R env x x') (dW : Jac h w n) :
    Cols R ((sdi (gradientOf env x) dW).map fun x : ℝ => (x : ℂ)) ((sdi (gradientOf env x') dW).map fun x : ℝ => (x : ℂ)) := by
  intro q k
  rw [map_apply, hx, sdi_mixed]
  simp

theorem sdi_cols_real {x x' : Source c h w Im T} (hx : GradMixed R env x x') (dW : Jac h w n) :
    Cols R (sdi (gradientOf env x) dW) (sdi (gradientOf env x') dW) := by
  intro q k
  rw [hx, sdi_mixed]
  simp

/-- `fft2` as a linear map. -/
noncomputable def fftLin (h w : Nat) : (Pos h w → ℂ) →ₗ[ℂ] (Pos h w → ℂ) := (dft2 h w).mulVecLin

/-- Multiplication by the kernel. -/
noncomputable def kernelLin (k : Pos h w → ℂ) : (Pos h w → ℂ) →ₗ[ℂ] (Pos h w → ℂ) := LinearMap.mulLeft ℂ k

/-- `ifft2` as a linear map. -/
noncomputable def ifftLin (h w : Nat) : (Pos h w → ℂ) →ₗ[ℂ] (Pos h w → ℂ) :=
  (((h * w : ℕ) : ℂ))⁻¹ • ((dft2 h w)ᴴ).mulVecLin

theorem difference_vec (x t : Planes c h w) :
    Vec R (difference x t) (difference (mixed R x) (mixed R t)) := fun q => by
  rw [difference_mixed]
  rfl

theorem ssd_blind (hR : R * Rᵀ = 1) (kernel : Option (Pos h w → ℂ)) :
    Blind (n := n) (ssd env kernel) (mixed R) (GradMixed R env) (fun _ _ => True) (Cols R) where
  images s s' x x' dW hx _ := by
    have hc := sdi_cols (n := n) hx dW
    cases kernel with
    | none => exact ⟨trivial, hc, hc⟩
    | some k => exact ⟨trivial, planes_mixed ((ifftLin h w).comp ((kernelLin k).comp (fftLin h w))) hc, hc⟩
  hessian s s' J J' M M' _ hJ hM := ⟨trivial, cols_gram hR hJ hM⟩
  update s s' J J' x t _ hJ := ⟨trivial, cols_vec hR hJ (cx_vec (difference_vec x t))⟩

theorem fourier_blind (hR : R * Rᵀ = 1) (kernel : Option (Pos h w → ℂ)) :
    Blind (n := n) (fourierSsd env kernel) (mixed R) (GradMixed R env) (fun _ _ => True) (Cols R) where
  images s s' x x' dW hx _ := by
    have hc := planes_mixed (fftLin h w) (sdi_cols (n := n) hx dW)
    cases kernel with
    | none => exact ⟨trivial, hc, hc⟩
    | some k => exact ⟨trivial, planes_mixed (kernelLin k) hc, hc⟩
  hessian s s' J J' M M' _ hJ hM := ⟨trivial, cols_gram_conj hR hJ hM⟩
  update s s' J J' x t _ hJ :=
    ⟨trivial, cols_vec_conj hR hJ (plane_mixed (fftLin h w) (cx_vec (difference_vec x t)))⟩

/-! ### Gradient images -/

theorem magnitude_mixed (hR : R * Rᵀ = 1) (g : Fin 2 → Planes c h w) (p : Pos h w) :
    magnitude (fun d => mixed R (g d)) p = magnitude g p := by
  unfold magnitude mixed
  congr 1
  refine Finset.sum_congr rfl fun d _ => ?_
  simp only [pow_two]
  exact sum_mix (orth' hR) (fun j => g d j p) fun j => g d j p

theorem regularise_mixed (hR : R * Rᵀ = 1) (g : Fin 2 → Planes c h w) :
    regularise (fun d => mixed R (g d)) = fun d => mixed R (regularise g d) := by
  have hm : magnitude (fun d => mixed R (g d)) = magnitude g := funext (magnitude_mixed hR g)
  funext d i p
  simp only [regularise, medianMagnitude, hm]
  unfold mixed
  rw [Finset.sum_div]
  simp only [mul_div_assoc]
  rfl

/-- The columns are mixed in both components. -/
def Cols2 (R : Matrix (Fin c) (Fin c) ℝ) (J J' : Matrix (Fin 2 × Px c h w) (Fin n) ℝ) : Prop :=
  ∀ e x k, J' (e, x) k = ∑ j, R x.1 j * J (e, (j, x.2)) k

theorem gradientSdi_mixed (hg : ChannelWise env) (g : Fin 2 → Planes c h w) (dW : Jac h w n) :
    Cols2 R (gradientSdi env g dW) (gradientSdi env (fun d => mixed R (g d)) dW) := by
  intro e x k
  have hf : ∀ d, fixCrossed (fun d e => env.grad (mixed R (g e)) d) d e =
      mixed R (fixCrossed (fun d e => env.grad (g e) d) d e) := by
    intro d
    unfold fixCrossed
    split_ifs <;> exact grad_mixed hg _ _
  unfold gradientSdi
  simp only [hf]
  unfold mixed
  simp only [Finset.sum_mul, Finset.mul_sum]
  rw [Finset.sum_comm]
  simp only [mul_assoc]

theorem vec2_dot (hR : R * Rᵀ = 1) {v v' u u' : Fin 2 × Px c h w → ℝ}
    (hv : ∀ e x, v' (e, x) = ∑ j, R x.1 j * v (e, (j, x.2))) (hu : ∀ e x, u' (e, x) = ∑ j, R x.1 j * u (e, (j, x.2))) :
    v' ⬝ᵥ u' = v ⬝ᵥ u := by
  unfold dotProduct
  rw [Fintype.sum_prod_type, Fintype.sum_prod_type]
  refine Finset.sum_congr rfl fun e _ => ?_
  exact vec_dot (K := ℝ) hR (v := fun x => v (e, x)) (v' := fun x => v' (e, x)) (u := fun x => u (e, x))
    (u' := fun x => u' (e, x)) (hv e) (hu e)

theorem gradientImages_blind (hR : R * Rᵀ = 1) (hg : ChannelWise env) :
    Blind (n := n) (gradientImages env) (mixed R) (GradMixed R env)
      (fun s s' => s' = s.map fun g d => mixed R (g d)) (Cols2 R) where
  images s s' x x' dW hx _ := by
    have e : regularise (gradientOf env x') = fun d => mixed R (regularise (gradientOf env x) d) := by
      rw [show gradientOf env x' = _ from hx, regularise_mixed hR]
    simp only [gradientImages, BothWays, e, Option.map]
    exact ⟨trivial, gradientSdi_mixed hg _ dW, gradientSdi_mixed hg _ dW⟩
  hessian s s' J J' M M' hs hJ hM := by
    refine ⟨hs, ?_⟩
    ext k l
    simp only [mul_apply, transpose_apply]
    exact vec2_dot hR (fun e x => hJ e x k) fun e x => hM e x l
  update s s' J J' x t hs hJ := by
    subst hs
    cases s with
    | none => exact rfl
    | some g =>
      refine ⟨rfl, ?_⟩
      funext k
      simp only [mulVec, transpose_apply]
      refine vec2_dot hR (fun e x => hJ e x k) fun e q => ?_
      have : env.grad (mixed R x) = fun d => mixed R (env.grad x d) := funext (grad_mixed hg x)
      simp only [gradientError, this, regularise_mixed hR]
      unfold mixed
      rw [← Finset.sum_sub_distrib]
      simp only [mul_sub]

/-! ### Enhanced correlation coefficient -/

theorem cols_one (hR : R * Rᵀ = 1) (h1 : ∀ i, ∑ j, R i j = 1) (j : Fin c) : ∑ i, R i j = 1 := by
  have a : R *ᵥ 1 = 1 := by funext i; simp [mulVec, dotProduct, h1]
  have b : Rᵀ *ᵥ 1 = 1 := by
    conv_lhs => rw [← a]
    rw [mulVec_mulVec, orth' hR, one_mulVec]
  simpa [mulVec, dotProduct] using congrFun b j

theorem sum_mixed (hR : R * Rᵀ = 1) (h1 : ∀ i, ∑ j, R i j = 1) (x : Planes c h w) :
    ∑ i : Px c h w, mixed R x i.1 i.2 = ∑ i : Px c h w, x i.1 i.2 := by
  rw [sum_px, sum_px]
  refine Finset.sum_congr rfl fun p _ => ?_
  unfold mixed
  rw [Finset.sum_comm]
  simp only [← Finset.sum_mul, cols_one hR h1, one_mul]

theorem normalise_mixed (hR : R * Rᵀ = 1) (h1 : ∀ i, ∑ j, R i j = 1) (x : Planes c h w) :
    normalise (mixed R x) = (normalise x).map (mixed R) := by
  unfold normalise
  simp only [sum_mixed hR h1]
  generalize (∑ i : Px c h w, x i.1 i.2) / ((c * (h * w) : ℕ) : ℝ) = μ
  have hc : ∀ i p, mixed R x i p - μ = mixed R (fun i p => x i p - μ) i p := by
    intro i p
    simp only [mixed, mul_sub, Finset.sum_sub_distrib, ← Finset.sum_mul, h1, one_mul]
  simp only [hc]
  have hs : ∑ i : Px c h w, mixed R (fun i p => x i p - μ) i.1 i.2 ^ 2 = ∑ i : Px c h w, (x i.1 i.2 - μ) ^ 2 := by
    rw [sum_px, sum_px]
    refine Finset.sum_congr rfl fun p _ => ?_
    simp only [pow_two]
    exact sum_mix (orth' hR) (fun j => x j p - μ) fun j => x j p - μ
  rw [hs]
  split_ifs
  · rfl
  · simp only [Except.map]
    congr 1
    funext i p
    simp only [mixed, Finset.sum_div, mul_div_assoc]

theorem eccLambda_mixed (hR : R * Rᵀ = 1) (hInv : Matrix (Fin n) (Fin n) ℝ) {s s' : Matrix (Px c h w) (Fin n) ℝ}
    (hs : Cols R s s') {a a' b b' : Px c h w → ℝ} (ha : Vec R a a') (hb : Vec R b b') :
    eccLambda hInv s' a' b' = eccLambda hInv s a b := by
  unfold eccLambda
  simp only [cols_vec hR hs ha, cols_vec hR hs hb, vec_dot hR ha ha, vec_dot hR hb ha]

/-- What is handed to the enhanced correlation coefficient. -/
def EccSrc (R : Matrix (Fin c) (Fin c) ℝ) (env : Lk.Env c h w Im T) : Source c h w Im T → Source c h w Im T → Prop
  | .frame x, .frame x' => x' = mixed R x
  | .forward im t, .forward im' t' => t' = t ∧ BothWays (MixedPicture R env) (env.normIm im) (env.normIm im')
  | _, _ => False

theorem eccSource (hR : R * Rᵀ = 1) (h1 : ∀ i, ∑ j, R i j = 1) (hg : ChannelWise env) {x x' : Source c h w Im T}
    (hx : EccSrc R env x x') : BothWays (GradMixed R env) (normaliseSource env x) (normaliseSource env x') := by
  cases x with
  | frame x =>
    cases x' with
    | frame x' =>
      have : x' = mixed R x := hx
      subst this
      simp only [normaliseSource, normalise_mixed hR h1]
      cases normalise x with
      | error e => exact rfl
      | ok y => exact frame_mixed hg y
    | forward im t => exact hx.elim
  | forward im t =>
    cases x' with
    | frame x' => exact hx.elim
    | forward im' t' =>
      obtain ⟨rfl, h⟩ := hx
      simp only [normaliseSource]
      revert h
      cases env.normIm im with
      | error e =>
        cases env.normIm im' with
        | error e' => exact id
        | ok y => exact fun h => h.elim
      | ok y =>
        cases env.normIm im' with
        | error e' => exact fun h => h.elim
        | ok y' => exact fun h => forward_mixed h t'

theorem planes_vec (x : Planes c h w) : Vec R (fun q : Px c h w => x q.1 q.2) fun q => mixed R x q.1 q.2 := fun _ => rfl

theorem ecc_blind (hR : R * Rᵀ = 1) (h1 : ∀ i, ∑ j, R i j = 1) (hg : ChannelWise env) :
    Blind (n := n) (ecc env) (mixed R) (EccSrc R env) (fun s s' => s' = s) (Cols R) where
  images s s' x x' dW hx hs := by
    refine Lighting.both_bind (eccSource hR h1 hg hx) ?_
    intro y y' hy
    exact ⟨hs, sdi_cols_real hy dW, sdi_cols_real hy dW⟩
  hessian s s' J J' M M' hs hJ hM := by
    have e := cols_gram hR hJ hM
    simp only [ecc, e]
    cases npInv (Jᵀ * M) with
    | error e => exact rfl
    | ok y => exact ⟨rfl, rfl⟩
  update s s' J J' x t hs hJ := by
    subst hs
    simp only [ecc, normalise_mixed hR h1]
    cases normalise x with
    | error e => exact rfl
    | ok wn =>
      cases normalise t with
      | error e => exact rfl
      | ok tn =>
        cases s' with
        | none => exact rfl
        | some hInv =>
          simp only [Except.map, bind, Except.bind]
          rw [eccLambda_mixed hR hInv hJ (planes_vec wn) (planes_vec tn)]
          refine ⟨rfl, cols_vec hR hJ fun q => ?_⟩
          simp only [mixed, Finset.mul_sum, ← Finset.sum_sub_distrib]
          refine Finset.sum_congr rfl fun j _ => ?_
          simp only [Algebra.algebraMap_self, RingHom.id_apply]
          ring

/-! ### Gradient correlation -/

theorem mixed_order (σ : Equiv.Perm (Fin c)) (x : Planes c h w) : mixed (orderMatrix σ) x = reordered σ x := by
  funext i p
  simp [mixed, orderMatrix, reordered]

theorem order_orth (σ : Equiv.Perm (Fin c)) : orderMatrix σ * (orderMatrix σ)ᵀ = 1 := by
  ext i j
  simp [mul_apply, orderMatrix, one_apply, eq_comm]

theorem order_rows (σ : Equiv.Perm (Fin c)) (i : Fin c) : ∑ j, orderMatrix σ i j = 1 := by
  simp [orderMatrix]

theorem grad_ordered (hg : ChannelWise env) (σ : Equiv.Perm (Fin c)) (x : Planes c h w) (d : Fin 2) :
    env.grad (reordered σ x) d = reordered σ (env.grad x d) := by
  rw [← mixed_order, grad_mixed hg, mixed_order]

theorem correlationSdi_ordered (hg : ChannelWise env) (σ : Equiv.Perm (Fin c)) (phi : Planes c h w) (dW : Jac h w n)
    (x : Px c h w) (k : Fin n) :
    correlationSdi env (reordered σ phi) dW x k = correlationSdi env phi dW (σ x.1, x.2) k := by
  have h1 : ∀ d e, env.grad (if e = (0 : Fin 2) then (fun i p => Real.sin (reordered σ phi i p) : Planes c h w) else
      fun i p => Real.cos (reordered σ phi i p)) d =
      reordered σ (env.grad (if e = (0 : Fin 2) then (fun i p => Real.sin (phi i p) : Planes c h w) else
        fun i p => Real.cos (phi i p)) d) := by
    intro d e
    rw [← grad_ordered hg]
    congr 1
    split_ifs <;> rfl
  have h2 : ∀ d e, fixCrossed (fun d e => env.grad (if e = (0 : Fin 2) then
      (fun i p => Real.sin (reordered σ phi i p) : Planes c h w) else fun i p => Real.cos (reordered σ phi i p)) d) d e =
      reordered σ (fixCrossed (fun d e => env.grad (if e = (0 : Fin 2) then (fun i p => Real.sin (phi i p) : Planes c h w)
        else fun i p => Real.cos (phi i p)) d) d e) := by
    intro d e
    unfold fixCrossed
    split_ifs <;> exact h1 _ _
  unfold correlationSdi
  simp only [h2]
  rfl

theorem dot_ordered (σ : Equiv.Perm (Fin c)) (v u : Px c h w → ℝ) :
    (fun x : Px c h w => v (σ x.1, x.2)) ⬝ᵥ (fun x => u (σ x.1, x.2)) = v ⬝ᵥ u := by
  unfold dotProduct
  exact Equiv.sum_comp (Equiv.prodCongr σ (Equiv.refl _)) fun x => v x * u x

theorem correlation_blind (hg : ChannelWise env) (σ : Equiv.Perm (Fin c)) :
    Blind (n := n) (gradientCorrelation env) (reordered σ) (GradMixed (orderMatrix σ) env)
      (fun s s' => s' = s.map (reordered σ)) (fun J J' => ∀ x k, J' x k = J (σ x.1, x.2) k) where
  images s s' x x' dW hx _ := by
    have e : orientation (gradientOf env x') = reordered σ (orientation (gradientOf env x)) := by
      rw [show gradientOf env x' = _ from hx]
      simp only [mixed_order]
      rfl
    simp only [gradientCorrelation, BothWays, e, Option.map]
    exact ⟨trivial, correlationSdi_ordered hg σ _ dW, correlationSdi_ordered hg σ _ dW⟩
  hessian s s' J J' M M' hs hJ hM := by
    refine ⟨hs, ?_⟩
    ext k l
    simp only [mul_apply, transpose_apply, hJ, hM]
    exact dot_ordered σ (fun x => J x k) fun x => M x l
  update s s' J J' x t hs hJ := by
    subst hs
    cases s with
    | none => exact rfl
    | some phi =>
      have hw : orientation (env.grad (reordered σ x)) = reordered σ (orientation (env.grad x)) := by
        have : env.grad (reordered σ x) = fun d => reordered σ (env.grad x d) := funext (grad_ordered hg σ x)
        rw [this]
        rfl
      have hs : correlationScale (reordered σ phi) (reordered σ (orientation (env.grad x))) =
          correlationScale phi (orientation (env.grad x)) := by
        unfold correlationScale
        congr 1
        exact Equiv.sum_comp (Equiv.prodCongr σ (Equiv.refl _)) fun x_1 : Px c h w =>
          Real.cos (phi x_1.1 x_1.2) * Real.cos (orientation (env.grad x) x_1.1 x_1.2) +
            Real.sin (phi x_1.1 x_1.2) * Real.sin (orientation (env.grad x) x_1.1 x_1.2)
      have he : J'ᵀ *ᵥ correlationError (reordered σ phi) (reordered σ (orientation (env.grad x))) =
          Jᵀ *ᵥ correlationError phi (orientation (env.grad x)) := by
        funext k
        simp only [mulVec, transpose_apply]
        have := dot_ordered σ (fun x => J x k) (correlationError phi (orientation (env.grad x)))
        simp only [← hJ] at this
        exact this
      simp only [gradientCorrelation, BothWays, Option.map, hw, hs, he]
      exact ⟨trivial, trivial⟩

end

end Mix
end Menpofit
