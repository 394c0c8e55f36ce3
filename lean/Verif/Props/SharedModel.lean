import Verif.Lemmas.SharedWitness
import Verif.Lemmas.Aps
import Verif.Props.Aps
import Verif.Props.Homogeneous
/-!
# C105: fitters made from the same trained model
-/

namespace Menpofit
open Matrix MI Homog Shared Spec

variable {n : Nat} {Im C : Type}

/-- **C46** (part): the matrix that the CLM and APS fitters keep has one column for every parameter that the shape model
takes, and is, in the states of `C46_ortho_pdm_partial`, the derivative of the target's coordinates, point after point. -/
theorem C46_fitter_jacobian_partial (ortho : Ortho n) (m : Pca n 2)
    (ho : OrthoSpec ortho (similarityComponents m.mean) m.comps) {p₀ : OPdm n}
    (h₀ : newOPdm ortho m = .ok p₀) (ops : List (PdmOp n 2)) (hops : ∀ o ∈ ops, NoIncrement o)
    (q : Nat → ℝ) (p₁ : OPdm n)
    (h : let p := ops.foldl (opdmStep ortho) p₀
      oFromVector p (vectorOf q (nParams p.model.active.length)) = .ok p₁)
    (hc : ¬ Collapsed p₁.target) (hw : ∀ j, q (4 + j) = 0) (hr : p₁.glob.b = 0)
    (f) (hf : OTargets p₁ f) :
    nParameters p₁ = nParams p₁.model.active.length ∧
    ∀ (i : Fin n) (d : Fin 2) (k : Fin (nParameters p₁)),
      HasDerivAt (fun t => f (Function.update q k t) i d) (jacobian p₁ (nParameters p₁) (finProdFinEquiv (i, d)) k) (q k) := by
  have key := C46_ortho_pdm_partial ortho m ho h₀ ops hops q p₁ h hc hw hr f hf
  refine ⟨rfl, fun i d k => ?_⟩
  have := key i k d k.isLt
  unfold jacobian
  rw [of_apply, Equiv.symm_apply_apply]
  exact this

/-- **C105** (fits): what a fit returns does not depend on the other fits and the other fitters made
from the same trained model in between, as long as none of them asked for a number of shape
components. -/
theorem C105_fits_independent (K : Kind n Im C) (a : Alg K) (eps : ℝ) (r : Request Im) (p₀ : OPdm n)
    (uses : List (Use n)) (h : ∀ u ∈ uses, KeepsComponents u) :
    (run K a eps r (uses.foldl afterUse p₀)).2 = (run K a eps r p₀).2 :=
  run_forgets K a eps r (sameModel_uses uses h)

/-- **C105** (the steps of a CLM fitter).  What the constructor keeps is enough: with the Jacobian `J` and the variances known
when the fitter was built, every later step solves the least squares problem of the landmark errors `e`, and with a prior the
problem in which every parameter beyond the four of the similarity is drawn to zero in proportion to the noise over its
variance. -/
theorem C105_clm_steps (noise eig : Nat → ℝ) (map : Bool) (error : Im → Pts n 2 → Except PyErr (Fin (n * 2) → ℝ)) (k : Nat)
    (J : Matrix (Fin (n * 2)) (Fin k) ℝ) (a) (ha : (clmKind noise eig map error).pre k J = .ok a) (im : Im) (s : Pts n 2)
    (p d : Fin k → ℝ) (hd : (clmKind noise eig map error).step a im s p = .ok d) :
    ∃ e, error im s = .ok e ∧
      (map = false → (Jᵀ * J) *ᵥ d = Jᵀ *ᵥ e) ∧
      (map = true → (Jᵀ * J) *ᵥ d + (fun i => if i.val < 4 then 0 else noise (k - 4) / eig (i.val - 4) * (d i + p i)) =
        Jᵀ *ᵥ e) := by
  simp only [clmKind, bind, Except.bind, pure, Except.pure] at ha hd
  cases h1 : GN.npSolveMat (Jᵀ * J) Jᵀ with
  | error x => rw [h1] at ha; cases ha
  | ok G =>
    rw [h1] at ha
    simp only at ha
    obtain ⟨pr, hpr⟩ : ∃ pr : Fin k → ℝ, pr = fun i => if i.val < 4 then 0 else noise (k - 4) / eig (i.val - 4) := ⟨_, rfl⟩
    rw [← hpr] at ha
    cases h2 : GN.npInv (Jᵀ * J + diagonal pr) with
    | error x => rw [h2] at ha; cases ha
    | ok H =>
      rw [h2] at ha
      simp only at ha
      obtain rfl := Except.ok.inj ha
      cases h3 : error im s with
      | error x => rw [h3] at hd; cases hd
      | ok e =>
        rw [h3] at hd
        refine ⟨e, rfl, ?_, ?_⟩
        · rintro rfl
          simp only [Bool.false_eq_true, if_false, Except.ok.injEq] at hd
          rw [← hd, mulVec_mulVec, (npSolveMat_ok h1).2.1]
        · rintro rfl
          simp only [if_true, Except.ok.injEq] at hd
          have e1 : (Jᵀ * J + diagonal pr) *ᵥ d = Jᵀ *ᵥ e - pr * p := by
            rw [← hd, mulVec_neg, mulVec_mulVec, (npInv_ok h2).2, one_mulVec, neg_sub]
          rw [add_mulVec] at e1
          have e2 : (fun i : Fin k => if i.val < 4 then 0 else noise (k - 4) / eig (i.val - 4) * (d i + p i)) =
              diagonal pr *ᵥ d + pr * p := by
            funext i
            rw [Pi.add_apply, mulVec_diagonal, Pi.mul_apply, hpr]
            dsimp only
            split_ifs <;> ring
          rw [e2, ← add_assoc, e1, sub_add_cancel]

/-- A fitter with one landmark and two parameters. -/
example : ∃ a d, (clmKind (n := 1) (Im := Unit) (fun _ => 1) (fun _ => 1) true fun _ _ => .ok fun _ => 1).pre 2 1 = .ok a ∧
    (clmKind (n := 1) (fun _ => 1) (fun _ => 1) true fun (_ : Unit) _ => .ok fun _ => 1).step a () 0 0 = .ok d := by
  have h1 : ((1 : Matrix (Fin (1 * 2)) (Fin 2) ℝ)ᵀ * (1 : Matrix (Fin (1 * 2)) (Fin 2) ℝ)) = 1 := by
    exact (congrArg (· * _) transpose_one).trans (one_mul _)
  have h2 : (fun i : Fin 2 => if i.val < 4 then (0 : ℝ) else 1 / 1) = 0 := by
    funext i
    exact if_pos (by omega)
  have h3 : ∃ a, (clmKind (n := 1) (Im := Unit) (fun _ => 1) (fun _ => 1) true fun _ _ => .ok fun _ => 1).pre 2 1 = .ok a := by
    simp only [clmKind, GN.npSolveMat, GN.npInv, h1, h2, bind, Except.bind, pure, Except.pure]
    simp only [det_one, one_ne_zero, if_false, diagonal_zero', add_zero]
    exact ⟨_, rfl⟩
  obtain ⟨a, ha⟩ := h3
  exact ⟨a, _, ha, rfl⟩

/-- **C105** (constructors, part): a fitter made from a model whose last use was a fit of zero
iterations from the mean shape is the same as one made from the model as trained. -/
theorem C105_build_partial (ortho : Ortho n) (m : Pca n 2) {p₀ : OPdm n} (h₀ : newOPdm ortho m = .ok p₀)
    (uses : List (Use n)) (h : ∀ u ∈ uses, KeepsComponents u)
    {Im' C' : Type} (K' : Kind n Im' C') (a' : Alg K') (eps : ℝ) (im : Im') (costs : Bool)
    (K : Kind n Im C) :
    (build K none (afterUse (uses.foldl afterUse p₀) (.fit K' a' eps ⟨im, ⟨n, 2, m.mean⟩, 0, costs⟩))).2 =
      (build K none p₀).2 := by
  obtain ⟨q, hq⟩ : ∃ q, q = uses.foldl afterUse p₀ := ⟨_, rfl⟩
  have hs : SameModel q p₀ := hq ▸ sameModel_uses uses h
  rw [← hq]
  obtain ⟨x, hx, h1, h2, h3, h4, h5, h6, h7, h8, h9⟩ := newOPdm_eq ortho m
  rw [h₀] at hx
  injection hx with hx
  subst hx
  have hrun : (run K' a' eps ⟨im, ⟨n, 2, m.mean⟩, 0, costs⟩ q).1 = (oSetTarget q ⟨n, 2, m.mean⟩).1 := by
    unfold run
    simp only [oSetTarget, cloud_fit]
    rw [oSyncState_eq]
    simp only
    split
    · rfl
    · simp only [Optim.run]
      rw [loop_unfold, if_neg (by simp)]
  have hg : (oSetTarget q ⟨n, 2, m.mean⟩).1.glob = p₀.glob := by
    simp only [oSetTarget, cloud_fit]
    rw [oSyncState_eq]
    simp only [hs.source, hs.simMean, hs.simComps, h1, h3, h6, projectOn_mean, combine_zero, add_zero]
  show newAlg K (run K' a' eps ⟨im, ⟨n, 2, m.mean⟩, 0, costs⟩ q).1 = newAlg K p₀
  rw [hrun]
  exact newAlg_eq K ((sameModel_setTarget q _).trans hs) (by rw [hg]) (by rw [hg])

/-- **C105** (constructors, violated): a fitter made after a fit differs from one made before.  The
same request then leads to different shapes: the Jacobian of the algorithm object was computed at the
shape the other fitter had left behind. -/
theorem C105_build_violated :
    ∃ (m : Pca 4 2) (p₀ : OPdm 4) (K : Kind 4 Unit Unit) (a₁ a₂ : Alg K) (u : Use 4) (r : Request Unit)
      (t₁ t₂ : _), newOPdm crossOrtho m = .ok p₀ ∧
      OrthoSpec crossOrtho (similarityComponents m.mean) m.comps ∧
      KeepsComponents u ∧ (build K none p₀).2 = .ok a₁ ∧ (build K none (afterUse p₀ u)).2 = .ok a₂ ∧
      (run K a₁ 0 r p₀).2 = .ok t₁ ∧ (run K a₂ 0 r p₀).2 = .ok t₂ ∧ t₁.shapes ≠ t₂.shapes := by
  obtain ⟨a₁, b₁, k₁, s₁⟩ := x_build one_ne_zero 0
  obtain ⟨a₂, b₂, k₂, s₂⟩ := x_build two_ne_zero 0
  obtain ⟨t₁, r₁, e₁⟩ := x_run k₁ s₁ 0 (xAt 1 0) (.refl _)
  obtain ⟨t₂, r₂, e₂⟩ := x_run k₂ s₂ 0 (xAt 1 0) (.refl _)
  refine ⟨xModel, xAt 1 0, xKind, a₁, a₂, .fit xKind a₁ 0 ⟨(), ⟨4, 2, (2 : ℝ) • MI.cross⟩, 0, false⟩,
    ⟨(), ⟨4, 2, MI.cross⟩, 1, false⟩, t₁, t₂, x_new, xSpec, trivial, by rw [b₁], ?_, r₁, r₂, ?_⟩
  · have : afterUse (xAt 1 0) (.fit xKind a₁ 0 ⟨(), ⟨4, 2, (2 : ℝ) • MI.cross⟩, 0, false⟩) = xAt 2 0 := by
      show (run xKind a₁ 0 _ (xAt 1 0)).1 = _
      unfold run
      simp only [x_setTarget two_ne_zero]
      have hs : xKind.start () false (xAt 2 0).target = .ok () := rfl
      simp only [hs, Optim.run]
      rw [loop_unfold, if_neg (by simp)]
    rw [this, b₂]
  · rw [e₁, e₂]
    intro h
    injection h with _ h
    injection h with h _
    have := congrFun h (0, 0)
    norm_num at this

/-- **C105** (components, violated): when a second fitter is made with another number of shape
components, every later fit of the first one with at least one iteration raises `ValueError`, whatever
happens in between (once the initial shape is accepted and the algorithm can start). -/
theorem C105_components_violated (ortho : Ortho n) (m : Pca n 2) {p₀ p₁ p₂ : OPdm n}
    (h₀ : newOPdm ortho m = .ok p₀) (ho : OrthoSpec ortho (similarityComponents m.mean) m.comps)
    (K : Kind n Im C) {s₁ : Option Int} {a : Alg K} (h₁ : build K s₁ p₀ = (p₁, .ok a))
    {Im' C' : Type} (K' : Kind n Im' C') {s₂ : Option Int} {a' : Alg K'}
    (h₂ : build K' s₂ p₁ = (p₂, .ok a')) (hne : p₂.model.active.length ≠ p₁.model.active.length)
    (uses : List (Use n)) (hk : ∀ u ∈ uses, KeepsComponents u) (eps : ℝ) (r : Request Im)
    (hi : (oSetTarget p₁ r.init).2 = .ok ()) (hst : ∀ s, K.start r.im r.costs s = .ok ())
    (hm : 0 < r.maxIters) :
    (run K a eps r (uses.foldl afterUse p₂)).2 = .error .valueError := by
  have hact : ∀ (p : OPdm n) v, (oSetActive p v).1.simComps = p.simComps := by
    intro p v
    unfold oSetActive
    split
    · rfl
    · rw [oSyncState_eq]
  have hb : ∀ {Im C : Type} (K : Kind n Im C) s (p p' : OPdm n) (x : Alg K), build K s p = (p', .ok x) →
      p'.simComps = p.simComps ∧ newAlg K p' = .ok x := by
    intro Im C K s p p' x h
    unfold build at h
    cases s with
    | none => injection h with h h'; subst h; exact ⟨rfl, h'⟩
    | some v =>
      simp only at h
      have hv := hact p v
      obtain ⟨y, hy⟩ : ∃ y, y = oSetActive p v := ⟨_, rfl⟩
      rw [← hy] at h hv
      obtain ⟨y1, y2⟩ := y
      cases y2 with
      | error e => exact absurd (congrArg Prod.snd h) (by simp)
      | ok u => injection h with h h'; subst h; exact ⟨hv, h'⟩
  obtain ⟨x, hx, h1, h2, h3, h4, -⟩ := newOPdm_eq ortho m
  rw [h₀] at hx
  injection hx with hx
  subst hx
  have hlen : p₀.simComps.length = 4 := by rw [h4, ho.1]; simp [similarityComponents]
  obtain ⟨c1, n1⟩ := hb K s₁ p₀ p₁ a h₁
  obtain ⟨c2, -⟩ := hb K' s₂ p₁ p₂ a' h₂
  have hak : a.k = nParameters p₁ := by
    unfold newAlg at n1
    cases hp : K.pre (nParameters p₁) (jacobian p₁ (nParameters p₁)) with
    | error e => rw [hp] at n1; cases n1
    | ok d =>
      rw [hp] at n1
      injection n1 with n1
      rw [← n1]
  have hs := sameModel_uses (p := p₂) uses hk
  refine run_mismatch K a eps r _ (by rw [hs.simComps, c2, c1, hlen]) ?_ ?_ (hst _) hm
  · rw [hak, nParameters, nParameters, hs.model]; omega
  · simp only [oSetTarget] at hi ⊢
    cases hf : r.init.fit n 2 with
    | none => rw [hf] at hi; cases hi
    | some t => simp only; rw [oSyncState_eq]

/-- The hypotheses of `C105_components_violated` are met: two CLM fitters, the second with one of the
two shape components. -/
example : ∃ p₁ p₂ a a', build xKind none (xAt 1 0) = (p₁, .ok a) ∧ build xKind (some 1) p₁ = (p₂, .ok a') ∧
    p₂.model.active.length ≠ p₁.model.active.length ∧
    (oSetTarget p₁ ⟨4, 2, MI.cross⟩).2 = .ok () ∧ ∀ s, xKind.start () false s = .ok () := by
  obtain ⟨a, b, -⟩ := x_build one_ne_zero 0
  obtain ⟨p₂, a', h, h1⟩ := x_build_one
  refine ⟨xAt 1 0, p₂, a, a', b, h, by rw [h1]; decide, ?_, fun _ => rfl⟩
  have := x_setTarget one_ne_zero 1 0
  rw [one_smul] at this
  rw [this]

/-- A fit that succeeds, and a history, as in `C105_fits_independent`. -/
example : ∃ (a : Alg xKind) (u : Use 4) (tr : _), KeepsComponents u ∧
    (run xKind a 0 ⟨(), ⟨4, 2, MI.cross⟩, 1, false⟩ (afterUse (xAt 1 0) u)).2 = .ok tr ∧
    tr.shapes = [MI.cross, MI.cross + (1 / 1 : ℝ) • squeeze] := by
  obtain ⟨a, b, h6, hs⟩ := x_build one_ne_zero 0
  obtain ⟨tr, h1, h2⟩ := x_run h6 hs 0
    (afterUse (xAt 1 0) (.fit xKind a 0 ⟨(), ⟨4, 2, (2 : ℝ) • MI.cross⟩, 1, false⟩)) (sameModel_run _ _ _ _ _)
  exact ⟨a, .fit xKind a 0 ⟨(), ⟨4, 2, (2 : ℝ) • MI.cross⟩, 1, false⟩, tr, trivial, h1, h2⟩

end Menpofit
