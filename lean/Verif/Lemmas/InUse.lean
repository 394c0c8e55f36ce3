import Verif.Lemmas.SharedModel
import Verif.Spec.InUse
/-!
# Lemmas: shape models that differ only in components that are not in use
-/

namespace Menpofit
namespace InUse
open MI Spec Shared Homog Matrix

variable {n d : Nat} {T : Type}

theorem project_same {m m' : Pca n d} (h : SameInUse m m') (x : Pts n d) : m'.project x = m.project x := by
  unfold Pca.project; rw [h.mean, h.active]

theorem inst_same {m m' : Pca n d} (h : SameInUse m m') (w : List ℝ) : m'.inst w = m.inst w := by
  unfold Pca.inst; rw [h.mean, h.active]

/-! ### PDM -/

theorem setTarget_pdm {p q : Pdm n d} (h : SamePdm p q) (c : Cloud) :
    (MI.setTarget q c).2 = (MI.setTarget p c).2 ∧ SamePdm (MI.setTarget p c).1 (MI.setTarget q c).1 := by
  unfold MI.setTarget
  cases c.fit n d with
  | none => exact ⟨rfl, h⟩
  | some t =>
    simp only [syncState]
    rw [inst_same h.model, project_same h.model]
    cases p.model.inst (p.model.project t) with
    | error e => exact ⟨rfl, h.model, rfl, rfl⟩
    | ok y => exact ⟨rfl, h.model, rfl, rfl⟩

theorem fromVector_pdm {p q : Pdm n d} (h : SamePdm p q) (v : List ℝ) :
    (∃ e, MI.fromVector p v = .error e ∧ MI.fromVector q v = .error e) ∨
    ∃ p' q', MI.fromVector p v = .ok p' ∧ MI.fromVector q v = .ok q' ∧ SamePdm p' q' := by
  unfold MI.fromVector MI.fromVectorInplace
  simp only
  rw [inst_same h.model]
  cases p.model.inst v with
  | error e => exact .inl ⟨e, rfl, rfl⟩
  | ok y => exact .inr ⟨_, _, rfl, rfl, h.model, rfl, rfl⟩

/-! ### GlobalPDM -/

theorem targetOf_glob (tr : Transforms T n d) {p q : GPdm T n d} (h : SameInUse p.model q.model)
    (hw : q.weights = p.weights) (hg : q.glob = p.glob) : gTargetOf tr q = gTargetOf tr p := by
  unfold gTargetOf; rw [inst_same h, hw, hg]

theorem setTarget_glob (tr : Transforms T n d) {p q : GPdm T n d} (h : SameGlobalPdm p q) (c : Cloud) :
    (gSetTarget tr q c).2 = (gSetTarget tr p c).2 ∧ SameGlobalPdm (gSetTarget tr p c).1 (gSetTarget tr q c).1 := by
  unfold gSetTarget
  cases c.fit n d with
  | none => exact ⟨rfl, h⟩
  | some t =>
    simp only [gSyncState]
    rw [h.glob, project_same h.model]
    generalize tr.setTarget p.glob t = g
    generalize p.model.project (tr.apply (tr.pinv g) t) = w
    rw [targetOf_glob tr (p := ⟨p.model, w, t, g⟩) (q := ⟨q.model, w, t, g⟩) h.model rfl rfl]
    cases gTargetOf tr ⟨p.model, w, t, g⟩ with
    | error e => exact ⟨rfl, h.model, rfl, rfl, rfl⟩
    | ok y => exact ⟨rfl, h.model, rfl, rfl, rfl⟩

theorem fromVector_glob (tr : Transforms T n d) {p q : GPdm T n d} (h : SameGlobalPdm p q) (v : List ℝ) :
    (∃ e, gFromVector tr p v = .error e ∧ gFromVector tr q v = .error e) ∨
    ∃ p' q', gFromVector tr p v = .ok p' ∧ gFromVector tr q v = .ok q' ∧ SameGlobalPdm p' q' := by
  unfold gFromVector
  rw [h.glob]
  cases tr.ofVec p.glob (v.take tr.nParams) with
  | error e => exact .inl ⟨e, rfl, rfl⟩
  | ok g =>
    simp only [bind, Except.bind]
    rw [targetOf_glob tr (p := ⟨p.model, v.drop tr.nParams, p.target, g⟩)
      (q := ⟨q.model, v.drop tr.nParams, q.target, g⟩) h.model rfl rfl]
    cases gTargetOf tr ⟨p.model, v.drop tr.nParams, p.target, g⟩ with
    | error e => exact .inl ⟨e, rfl, rfl⟩
    | ok y => exact .inr ⟨_, _, rfl, rfl, h.model, rfl, rfl, rfl⟩

/-! ### OrthoPDM -/

theorem setTarget_ortho {p q : OPdm n} (h : SameOrthoPdm p q) (c : Cloud) :
    (oSetTarget q c).2 = (oSetTarget p c).2 ∧ SameOrthoPdm (oSetTarget p c).1 (oSetTarget q c).1 := by
  unfold oSetTarget
  cases c.fit n 2 with
  | none => exact ⟨rfl, h⟩
  | some t =>
    simp only
    rw [oSyncState_eq, oSyncState_eq]
    simp only [h.simMean, h.simComps, h.source, project_same h.model, h.model.mean, h.model.active]
    exact ⟨trivial, h.model, rfl, rfl, rfl, rfl, rfl, rfl, rfl⟩

theorem fromVector_ortho {p q : OPdm n} (h : SameOrthoPdm p q) (v : List ℝ) :
    (∃ e, oFromVector p v = .error e ∧ oFromVector q v = .error e) ∨
    ∃ p' q', oFromVector p v = .ok p' ∧ oFromVector q v = .ok q' ∧ SameOrthoPdm p' q' := by
  unfold oFromVector oUpdateGlobalWeights oTargetOf
  rw [h.simMean, h.simComps, h.source]
  cases instanceOf p.simMean p.simComps (v.take 4) with
  | error e => exact .inl ⟨e, rfl, rfl⟩
  | ok g =>
    simp only [bind, Except.bind]
    rw [inst_same h.model]
    cases p.model.inst (v.drop 4) with
    | error e => exact .inl ⟨e, rfl, rfl⟩
    | ok y => exact .inr ⟨_, _, rfl, rfl, h.model, rfl, rfl, rfl, rfl, rfl, rfl, rfl⟩

theorem vector_ortho {p q : OPdm n} (h : SameOrthoPdm p q) : oAsVector q = oAsVector p := by
  unfold oAsVector; rw [h.simWeights, h.weights]

theorem jacobian_ortho {p q : OPdm n} (h : SameOrthoPdm p q) (k : Nat) : jacobian q k = jacobian p k := by
  unfold jacobian opdmDdp gpdmDdp pdmDdp
  rw [h.model.active, h.simComps, h.glob]

variable {Im C : Type}

theorem newAlg_ortho (K : Kind n Im C) {p q : OPdm n} (h : SameOrthoPdm p q) : newAlg K q = newAlg K p := by
  have hn : nParameters q = nParameters p := by unfold nParameters; rw [h.model.active]
  unfold newAlg
  rw [hn, jacobian_ortho h]

theorem step_ortho (K : Kind n Im C) (a : Alg K) (im : Im) {p q : OPdm n} (h : SameOrthoPdm p q) :
    ((machine K a im).step q).2 = ((machine K a im).step p).2 ∧
    SameOrthoPdm ((machine K a im).step p).1 ((machine K a im).step q).1 := by
  simp only [machine]
  rw [vector_ortho h, h.target]
  by_cases hk : (oAsVector p).length = a.k
  · rw [if_pos hk, if_pos hk]
    cases K.step a.data im p.target (fun i => (oAsVector p).getD i 0) with
    | error e => exact ⟨rfl, h⟩
    | ok dp =>
      simp only
      rcases fromVector_ortho h (List.zipWith (· + ·) (oAsVector p) (List.ofFn dp)) with
        ⟨e, h1, h2⟩ | ⟨p', q', h1, h2, h3⟩
      · rw [h1, h2]; exact ⟨rfl, h⟩
      · rw [h1, h2]
        simp only
        rw [h3.target]
        cases K.after im p'.target with
        | error e => exact ⟨rfl, h3⟩
        | ok u => exact ⟨rfl, h3⟩
  · rw [if_neg hk, if_neg hk]; exact ⟨rfl, h⟩

theorem loop_ortho (K : Kind n Im C) (a : Alg K) (im : Im) (maxIters : Int) (tol : ℝ) : ∀ (N : Nat) (k : Int)
    (eps : Option ℝ) (p q : OPdm n) (tr), (maxIters - k).toNat = N → SameOrthoPdm p q →
    (Optim.loop (machine K a im) false maxIters tol k eps q tr).2 =
      (Optim.loop (machine K a im) false maxIters tol k eps p tr).2 ∧
    SameOrthoPdm (Optim.loop (machine K a im) false maxIters tol k eps p tr).1
      (Optim.loop (machine K a im) false maxIters tol k eps q tr).1 := by
  intro N
  induction N with
  | zero =>
    intro k eps p q tr hn h
    rw [loop_unfold _ _ _ _ _ _ p, loop_unfold _ _ _ _ _ _ q, if_neg (by omega), if_neg (by omega)]
    exact ⟨rfl, h⟩
  | succ N ih =>
    intro k eps p q tr hn h
    rw [loop_unfold _ _ _ _ _ _ p, loop_unfold _ _ _ _ _ _ q]
    by_cases hc : k < maxIters ∧ Optim.goOn tol eps
    · rw [if_pos hc, if_pos hc]
      obtain ⟨h1, h2⟩ := step_ortho K a im h
      rcases hp : (machine K a im).step p with ⟨p', x⟩
      rcases hq : (machine K a im).step q with ⟨q', y⟩
      rw [hp, hq] at h1 h2
      simp only at h1 h2
      subst h1
      cases y with
      | error e => exact ⟨rfl, h2⟩
      | ok e =>
        simp only [Bool.false_eq_true, if_false]
        have e1 : (machine K a im).shape q' = (machine K a im).shape p' := h2.target
        have e2 : (machine K a im).params q' = (machine K a im).params p' := vector_ortho h2
        have e3 : (machine K a im).cost q' = (machine K a im).cost p' := by
          simp only [machine]; rw [h2.target]
        rw [e1, e2, e3]
        exact ih _ _ _ _ _ (by omega) h2
    · rw [if_neg hc, if_neg hc]; exact ⟨rfl, h⟩

theorem run_ortho (K : Kind n Im C) (a : Alg K) (eps : ℝ) (r : Request Im) {p q : OPdm n} (h : SameOrthoPdm p q) :
    (run K a eps r q).2 = (run K a eps r p).2 ∧ SameOrthoPdm (run K a eps r p).1 (run K a eps r q).1 := by
  obtain ⟨h1, h2⟩ := setTarget_ortho h r.init
  unfold run
  rcases hp : oSetTarget p r.init with ⟨p', x⟩
  rcases hq : oSetTarget q r.init with ⟨q', y⟩
  rw [hp, hq] at h1 h2
  simp only at h1 h2
  subst h1
  cases y with
  | error e => exact ⟨rfl, h2⟩
  | ok u =>
    simp only
    rw [h2.target]
    cases K.start r.im r.costs p'.target with
    | error e => exact ⟨rfl, h2⟩
    | ok u =>
      simp only
      unfold Optim.run
      have e1 : (machine K a r.im).shape q' = (machine K a r.im).shape p' := h2.target
      have e2 : (machine K a r.im).params q' = (machine K a r.im).params p' := vector_ortho h2
      have e3 : (machine K a r.im).cost q' = (machine K a r.im).cost p' := by
        simp only [machine]; rw [h2.target]
      rw [e1, e2, e3]
      exact loop_ortho K a r.im r.maxIters eps _ _ _ _ _ _ rfl h2

theorem results_ortho (K : Kind n Im C) (a : Alg K) (eps : ℝ) : ∀ (rs : List (Request Im)) {p q : OPdm n},
    SameOrthoPdm p q → results (run K a eps) q rs = results (run K a eps) p rs := by
  intro rs
  induction rs with
  | nil => intro p q _; rfl
  | cons r rs ih =>
    intro p q h
    obtain ⟨h1, h2⟩ := run_ortho K a eps r h
    simp only [results]
    rw [h1, ih h2]

/-! ### Fresh models -/

theorem centred_pos {s : Pts n 2} (h : ¬ Collapsed s) : 0 < centred s ⬝ᵥ centred s := by
  rcases Nat.eq_zero_or_pos n with rfl | hn
  · exact absurd (fun i => i.elim0) h
  · exact lt_of_le_of_ne (pts_dot_self_nonneg _) fun e => h ((centred_zero_iff hn s).mp e.symm)

theorem procrustes_self {s : Pts n 2} (h : ¬ Collapsed s) : procrustes s s = ⟨1, 0, 0, 0⟩ := by
  have hp := centred_pos h
  have he : rotatedCcw (centred s) ⬝ᵥ centred s = 0 := by
    simp only [dotProduct, Fintype.sum_prod_type, Fin.sum_univ_two, rotatedCcw, if_true, Fin.isValue, one_ne_zero, if_false]
    exact Finset.sum_eq_zero fun i _ => by ring
  have hs : Real.sqrt ((centred s ⬝ᵥ centred s) ^ 2) = centred s ⬝ᵥ centred s := Real.sqrt_sq hp.le
  have hq : Real.sqrt (centred s ⬝ᵥ centred s) ≠ 0 := (Real.sqrt_pos.mpr hp).ne'
  simp only [procrustes, he]
  have : Real.sqrt ((centred s ⬝ᵥ centred s) ^ 2 + 0 ^ 2) = centred s ⬝ᵥ centred s := by
    rw [zero_pow two_ne_zero, add_zero, hs]
  rw [this, div_self hq, div_self hp.ne']
  simp

theorem ident_apply (s : Pts n 2) : (⟨1, 0, 0, 0⟩ : Sim).apply s = s := by
  funext ⟨i, j⟩
  match j with
  | 0 => simp [Sim.apply]
  | 1 => simp [Sim.apply]

theorem ident_inv : (⟨1, 0, 0, 0⟩ : Sim).inv = ⟨1, 0, 0, 0⟩ := by simp [Sim.inv]

theorem take_active {n d : Nat} (k : Nat) (hk : 1 ≤ k) (m : Pca n d) (hm : m.nActive = m.comps.length) :
    ∃ m', m.setActive k = .ok m' ∧ SameInUse (trim k m) m' := by
  refine ⟨{ m with nActive := min k m.comps.length }, ?_, rfl, ?_⟩
  · unfold Pca.setActive
    rw [if_neg (by omega)]
    simp
  · simp [Pca.active, trim, List.take_take, hm, min_comm]

end InUse
end Menpofit
