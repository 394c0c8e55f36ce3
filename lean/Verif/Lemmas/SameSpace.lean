import Verif.Lemmas.Lighting
import Verif.Spec.SameSpace
/-!
# Lemmas for C150
-/

namespace Menpofit
namespace SameSpace
open Matrix GN Spec Optim

/-! ### Simulation of runs that report different things -/

/-- A trace with its parameters replaced. -/
def see {S V U C : Type} (f : V → U) (r : Trace S V C) : Trace S U C := ⟨r.shapes, r.params.map f, r.costs⟩

theorem loop_see {σ σ' S V V' U C E : Type} [LinearOrder E] (lk : Bool) (m : Machine σ S V C E) (m' : Machine σ' S V' C E)
    (f : V → U) (f' : V' → U) (R : σ → σ' → Prop) (maxIters : Int) (tol : E)
    (hshape : ∀ s t, R s t → m'.shape t = m.shape s)
    (hparams : ∀ s t, R s t → f' (m'.params t) = f (m.params s))
    (hcost : ∀ s t, R s t → m'.cost t = m.cost s)
    (hstep : ∀ s t, R s t → (m'.step t).2 = (m.step s).2 ∧
      ∀ e, (m.step s).2 = .ok e → R (m.step s).1 (m'.step t).1) :
    ∀ (b : Nat) (j : Int) (eps : Option E) (s : σ) (t : σ') (tr : Trace S V C) (tr' : Trace S V' C),
      (maxIters - j).toNat = b → R s t → see f' tr' = see f tr →
      (loop m' lk maxIters tol j eps t tr').2.map (see f') =
        (loop m lk maxIters tol j eps s tr).2.map (see f) := by
  intro b
  induction b with
  | zero =>
    intro j eps s t tr tr' hk hR ht
    rw [loop_unfold, loop_unfold m, if_neg (by omega), if_neg (by omega)]
    simp only [Except.map, ht]
  | succ b ih =>
    intro j eps s t tr tr' hk hR ht
    rw [loop_unfold, loop_unfold m]
    by_cases hg : j < maxIters ∧ goOn tol eps
    · rw [if_pos hg, if_pos hg]
      obtain ⟨h1, h2⟩ := hstep s t hR
      rcases hs1 : m.step s with ⟨s', x⟩
      rcases hs2 : m'.step t with ⟨t', y⟩
      rw [hs1, hs2] at h1 h2
      simp only at h1 h2
      subst h1
      cases y with
      | error e => rfl
      | ok e =>
        simp only
        have hR' := h2 e rfl
        refine ih (j + 1) (some e) s' t' _ _ (by omega) hR' ?_
        simp only [see, Trace.mk.injEq] at ht
        obtain ⟨t1, t2, t3⟩ := ht
        simp only [see, List.map_append, List.map_cons, List.map_nil, hshape _ _ hR',
          hparams _ _ hR', hcost _ _ hR', hcost _ _ hR, t1, t2, t3]
    · rw [if_neg hg, if_neg hg]
      simp only [Except.map, ht]

theorem run_see {σ σ' S V V' U C E : Type} [LinearOrder E] (lk : Bool) (m : Machine σ S V C E) (m' : Machine σ' S V' C E)
    (f : V → U) (f' : V' → U) (R : σ → σ' → Prop) (maxIters : Int) (tol : E)
    (hshape : ∀ s t, R s t → m'.shape t = m.shape s)
    (hparams : ∀ s t, R s t → f' (m'.params t) = f (m.params s))
    (hcost : ∀ s t, R s t → m'.cost t = m.cost s)
    (hstep : ∀ s t, R s t → (m'.step t).2 = (m.step s).2 ∧
      ∀ e, (m.step s).2 = .ok e → R (m.step s).1 (m'.step t).1)
    (costs : Bool) (s : σ) (t : σ') (hR : R s t) :
    (Optim.run m' lk maxIters tol costs t).2.map (see f') =
      (Optim.run m lk maxIters tol costs s).2.map (see f) := by
  unfold Optim.run
  refine loop_see lk m m' f f' R maxIters tol hshape hparams hcost hstep _ 0 none s t _ _ rfl hR ?_
  simp [see, hshape _ _ hR, hparams _ _ hR, hcost _ _ hR]

/-! ### Projections -/

variable {K : Type} [Field K] {n a a' m : Nat} {S Im W E : Type}

/-- The orthogonal projection onto the span of the columns does not depend on the columns. -/
theorem proj_eq {A : Matrix (Fin m) (Fin a) K} {P : Matrix (Fin a) (Fin m) K} {A' : Matrix (Fin m) (Fin a') K}
    {P' : Matrix (Fin a') (Fin m) K} (h : IsPinv A P) (h' : IsPinv A' P') {R : Matrix (Fin a) (Fin a') K}
    (hR : A' = A * R) {T : Matrix (Fin a') (Fin a) K} (hT : A = A' * T) : A' * P' = A * P := by
  have e1 : A * P * (A' * P') = A' * P' := by
    conv_lhs => rw [hR, ← Matrix.mul_assoc, ← Matrix.mul_assoc, h.apa]
    rw [← hR]
  have e2 : A' * P' * (A * P) = A * P := by
    conv_lhs => rw [hT, ← Matrix.mul_assoc, ← Matrix.mul_assoc, h'.apa]
    rw [← hT]
  have e3 := congrArg transpose e1
  rw [transpose_mul, h.ap_symm, h'.ap_symm, e2] at e3
  exact e3.symm

variable [DecidableEq K]

/-- The relation between two runs. -/
structure Rel (z : Aam.Setup n a m K S Im W E) (z' : Aam.Setup n a' m K S Im W E) (s : Aam.St n a m K W)
    (t : Aam.St n a' m K W) : Prop where
  p : t.p = s.p
  i : t.i = s.i
  Jdp : t.Jdp = s.Jdp
  c : z'.A *ᵥ t.c = z.A *ᵥ s.c

variable {z : Aam.Setup n a m K S Im W E} {z' : Aam.Setup n a' m K S Im W E}

omit [DecidableEq K] in
theorem proj (hz : Spec.SameSpace z z') (hp : IsPinv z.A z.pinvA) (hp' : IsPinv z'.A z'.pinvA) :
    z'.A * z'.pinvA = z.A * z.pinvA := by
  obtain ⟨R, hR⟩ := hz.forth
  obtain ⟨T, hT⟩ := hz.back
  exact proj_eq hp hp' hR hT

omit [DecidableEq K] in
theorem jac (hz : Spec.SameSpace z z') {s : Aam.St n a m K W} {t : Aam.St n a' m K W} (h : Rel z z' s t)
    (inverse : Bool) : Aam.jacobian z' inverse t = Aam.jacobian z inverse s := by
  cases inverse
  · simp [Aam.jacobian, hz.jacI, h.i]
  · simp [Aam.jacobian, hz.jacA _ _ h.c]

omit [DecidableEq K] in
theorem app (hz : Spec.SameSpace z z') {s : Aam.St n a m K W} {t : Aam.St n a' m K W} (h : Rel z z' s t) :
    Aam.appearance z' t.c = Aam.appearance z s.c := by
  simp only [Aam.appearance, hz.aBar, h.c]

omit [DecidableEq K] in
/-- The end of a step. -/
theorem advance_rel (hz : Spec.SameSpace z z') {s : Aam.St n a m K W} {t : Aam.St n a' m K W} (h : Rel z z' s t)
    (inverse : Bool) (im : Im) (J : Matrix (Fin m) (Fin n) K) (dp : Fin n → K) (c : W → Fin a → K)
    (c' : W → Fin a' → K) (hc : ∀ i, z'.A *ᵥ c' i = z.A *ᵥ c i) :
    (Aam.advance z' inverse im t J dp c').2 = (Aam.advance z inverse im s J dp c).2 ∧
      ∀ e, (Aam.advance z inverse im s J dp c).2 = .ok e →
        Rel z z' (Aam.advance z inverse im s J dp c).1 (Aam.advance z' inverse im t J dp c').1 := by
  simp only [Aam.advance, hz.warp, hz.dist, hz.target, h.p]
  cases z.warp im (Aam.updateWarp inverse s.p dp) with
  | error e => exact ⟨rfl, fun e he => by cases he⟩
  | ok i => exact ⟨rfl, fun e _ => ⟨rfl, rfl, rfl, hc i⟩⟩

theorem alt_rel (hz : Spec.SameSpace z z') (hp : IsPinv z.A z.pinvA) (hp' : IsPinv z'.A z'.pinvA)
    (inverse : Bool) (im : Im) (s : Aam.St n a m K W) (t : Aam.St n a' m K W) (h : Rel z z' s t) :
    (Aam.altStep z' inverse false im t).2 = (Aam.altStep z inverse false im s).2 ∧
      ∀ e, (Aam.altStep z inverse false im s).2 = .ok e →
        Rel z z' (Aam.altStep z inverse false im s).1 (Aam.altStep z' inverse false im t).1 := by
  have hd : z'.A *ᵥ (z'.pinvA *ᵥ (z.mask s.i - Aam.appearance z s.c + s.Jdp)) =
      z.A *ᵥ (z.pinvA *ᵥ (z.mask s.i - Aam.appearance z s.c + s.Jdp)) := by
    rw [mulVec_mulVec _ z'.A, mulVec_mulVec _ z.A, proj hz hp hp']
  simp only [Aam.altStep, Aam.altAppearance, Aam.altShape, Bool.false_eq_true, if_false, jac hz h, app hz h, hz.mask,
    h.i, h.Jdp, hd]
  cases solveShapeMl ((Aam.jacobian z inverse s)ᵀ * Aam.jacobian z inverse s) (Aam.jacobian z inverse s)
    (z.mask s.i - Aam.appearance z s.c - z.A *ᵥ (z.pinvA *ᵥ (z.mask s.i - Aam.appearance z s.c + s.Jdp))) with
  | error e => exact ⟨rfl, fun e he => by cases he⟩
  | ok dp => exact advance_rel hz h _ _ _ _ _ _ (fun _ => by rw [mulVec_add z'.A, mulVec_add z.A, h.c, hd])

theorem mod_rel (hz : Spec.SameSpace z z') (hp : IsPinv z.A z.pinvA) (hp' : IsPinv z'.A z'.pinvA)
    (inverse map : Bool) (im : Im) (s : Aam.St n a m K W) (t : Aam.St n a' m K W) (h : Rel z z' s t) :
    (Aam.modStep z' inverse map im t).2 = (Aam.modStep z inverse map im s).2 ∧
      ∀ e, (Aam.modStep z inverse map im s).2 = .ok e →
        Rel z z' (Aam.modStep z inverse map im s).1 (Aam.modStep z' inverse map im t).1 := by
  simp only [Aam.modStep, jac hz h, app hz h, hz.mask, h.i, h.p, hz.priorS, hz.aBar]
  generalize (if map = true then _ else _ : Except PyErr (Fin n → K)) = r
  cases r with
  | error e => exact ⟨rfl, fun e he => by cases he⟩
  | ok dp => exact advance_rel hz h _ _ _ _ _ _ (fun i => by rw [mulVec_mulVec, mulVec_mulVec, proj hz hp hp'])

theorem wib_rel (hz : Spec.SameSpace z z') (hp : IsPinv z.A z.pinvA) (hp' : IsPinv z'.A z'.pinvA)
    (inverse map : Bool) (im : Im) (s : Aam.St n a m K W) (t : Aam.St n a' m K W) (h : Rel z z' s t) :
    (Aam.wibStep z' inverse map im t).2 = (Aam.wibStep z inverse map im s).2 ∧
      ∀ e, (Aam.wibStep z inverse map im s).2 = .ok e →
        Rel z z' (Aam.wibStep z inverse map im s).1 (Aam.wibStep z' inverse map im t).1 := by
  simp only [Aam.wibStep, Lighting.projectOutMat_eq, jac hz h, app hz h, hz.mask, h.i, h.p, hz.priorS, hz.aBar,
    proj hz hp hp']
  generalize (if map = true then _ else _ : Except PyErr (Fin n → K)) = r
  cases r with
  | error e => exact ⟨rfl, fun e he => by cases he⟩
  | ok dp =>
    exact advance_rel hz h _ _ _ _ _ _
      (fun i => by rw [mulVec_add z'.A, mulVec_add z.A, h.c, mulVec_mulVec _ z'.A, mulVec_mulVec _ z.A, proj hz hp hp'])

/-! ### Simultaneous -/

omit [DecidableEq K] in
/-- The change of basis of all parameters. -/
theorem sim_mul {A : Matrix (Fin m) (Fin a) K} (R : Matrix (Fin a) (Fin a) K) (J : Matrix (Fin m) (Fin n) K) :
    Aam.simJacobian (A * R) J = Aam.simJacobian A J *
      (reindex finSumFinEquiv finSumFinEquiv (fromBlocks R 0 0 (1 : Matrix (Fin n) (Fin n) K))) := by
  ext r j
  rw [mul_apply, Fin.sum_univ_add]
  refine Fin.addCases (fun j => ?_) (fun j => ?_) j
  · simp [Aam.simJacobian, mul_apply]
  · simp [Aam.simJacobian, one_apply]

theorem solve_basis {k : Nat} (H D : Matrix (Fin k) (Fin k) K) (b : Fin k → K) (hD : D.det ≠ 0) :
    (npSolve (Dᵀ * H * D) (Dᵀ *ᵥ b)).map (D *ᵥ ·) = npSolve H b := by
  have hd : (Dᵀ * H * D).det = 0 ↔ H.det = 0 := by
    rw [det_mul, det_mul, det_transpose]
    simp [hD]
  by_cases h : H.det = 0
  · rw [npSolve, npSolve, if_pos h, if_pos (hd.2 h)]; rfl
  · rw [npSolve, npSolve, if_neg h, if_neg (fun h' => h (hd.1 h'))]
    simp only [Except.map]
    congr 1
    have u : IsUnit D.det := isUnit_iff_ne_zero.2 hD
    have uH : IsUnit H.det := isUnit_iff_ne_zero.2 h
    have uT : IsUnit Dᵀ.det := by rw [det_transpose]; exact u
    rw [Matrix.mul_inv_rev, Matrix.mul_inv_rev, mulVec_mulVec, mulVec_mulVec, ← Matrix.mul_assoc, ← Matrix.mul_assoc,
      mul_nonsing_inv _ u, Matrix.one_mul, Matrix.mul_assoc, nonsing_inv_mul _ uT, Matrix.mul_one]

omit [DecidableEq K] in
theorem basis_det (R : Matrix (Fin a) (Fin a) K) :
    (reindex finSumFinEquiv finSumFinEquiv (fromBlocks R 0 0 (1 : Matrix (Fin n) (Fin n) K))).det = R.det := by
  rw [det_reindex_self, det_fromBlocks_zero₂₁, det_one, mul_one]

omit [DecidableEq K] in
theorem basis_left (R : Matrix (Fin a) (Fin a) K) (q : Fin (a + n) → K) (i : Fin a) :
    (reindex finSumFinEquiv finSumFinEquiv (fromBlocks R 0 0 (1 : Matrix (Fin n) (Fin n) K)) *ᵥ q) (Fin.castAdd n i) =
      (R *ᵥ fun j => q (Fin.castAdd n j)) i := by
  rw [mulVec, dotProduct, Fin.sum_univ_add]
  simp [mulVec, dotProduct]

omit [DecidableEq K] in
theorem basis_right (R : Matrix (Fin a) (Fin a) K) (q : Fin (a + n) → K) (i : Fin n) :
    (reindex finSumFinEquiv finSumFinEquiv (fromBlocks R 0 0 (1 : Matrix (Fin n) (Fin n) K)) *ᵥ q) (Fin.natAdd a i) =
      q (Fin.natAdd a i) := by
  rw [mulVec, dotProduct, Fin.sum_univ_add]
  simp [one_apply]

/-- The joint solution in another basis. -/
theorem sim_solve (A : Matrix (Fin m) (Fin a) K) {R : Matrix (Fin a) (Fin a) K} (hR : R.det ≠ 0)
    (J : Matrix (Fin m) (Fin n) K) (e : Fin m → K) :
    (Aam.solveAllMl ((Aam.simJacobian (A * R) J)ᵀ * Aam.simJacobian (A * R) J) (Aam.simJacobian (A * R) J) e).map
        (fun q => (R *ᵥ q.1, q.2)) =
      Aam.solveAllMl ((Aam.simJacobian A J)ᵀ * Aam.simJacobian A J) (Aam.simJacobian A J) e := by
  have hs := solve_basis ((Aam.simJacobian A J)ᵀ * Aam.simJacobian A J)
    (reindex finSumFinEquiv finSumFinEquiv (fromBlocks R 0 0 (1 : Matrix (Fin n) (Fin n) K)))
    ((Aam.simJacobian A J)ᵀ *ᵥ e) (by rw [basis_det]; exact hR)
  simp only [Aam.solveAllMl, sim_mul, transpose_mul]
  rw [← hs, ← mulVec_mulVec, ← Matrix.mul_assoc, Matrix.mul_assoc _ _ (Aam.simJacobian A J)]
  generalize npSolve (K := K) (n := a + n) _ _ = r
  cases r with
  | error e => rfl
  | ok q =>
    simp only [Except.map, basis_left, basis_right]
    congr 2
    funext i
    rw [show (fun i => -q (Fin.castAdd n i)) = -(fun i => q (Fin.castAdd n i)) from rfl, mulVec_neg, Pi.neg_apply]

theorem sim_rel {z z' : Aam.Setup n a m K S Im W E} (hz : Spec.SameSpace z z') {R : Matrix (Fin a) (Fin a) K}
    (hR : R.det ≠ 0) (hA : z'.A = z.A * R) (inverse : Bool) (im : Im) (s t : Aam.St n a m K W) (h : Rel z z' s t) :
    (Aam.simStep z' inverse false im t).2 = (Aam.simStep z inverse false im s).2 ∧
      ∀ e, (Aam.simStep z inverse false im s).2 = .ok e →
        Rel z z' (Aam.simStep z inverse false im s).1 (Aam.simStep z' inverse false im t).1 := by
  have hs := sim_solve z.A hR (Aam.jacobian z inverse s) (z.mask s.i - Aam.appearance z s.c)
  rw [← hA] at hs
  simp only [Aam.simStep, Bool.false_eq_true, if_false, jac hz h, app hz h, hz.mask, h.i, ← hs]
  generalize Aam.solveAllMl ((Aam.simJacobian z'.A (Aam.jacobian z inverse s))ᵀ *
    Aam.simJacobian z'.A (Aam.jacobian z inverse s)) _ _ = r
  cases r with
  | error e => exact ⟨rfl, fun e he => by cases he⟩
  | ok q =>
    exact advance_rel hz h _ _ _ _ _ _ (fun _ => by
      rw [mulVec_add z'.A, mulVec_add z.A, h.c, mulVec_mulVec _ z.A, ← hA])

/-! ### Runs -/

theorem aam_run [LinearOrder E] (hz : Spec.SameSpace z z') (hp : IsPinv z.A z.pinvA) (hp' : IsPinv z'.A z'.pinvA)
    (alg : Aam.Alg) (inverse map : Bool) (maxIters : Int) (tol : E) (costs : Bool) (im : Im) (init : S)
    (hstep : ∀ s t, Rel z z' s t →
      (Aam.step z' alg inverse map im t).2 = (Aam.step z alg inverse map im s).2 ∧
      ∀ e, (Aam.step z alg inverse map im s).2 = .ok e →
        Rel z z' (Aam.step z alg inverse map im s).1 (Aam.step z' alg inverse map im t).1) :
    (Aam.run z' alg inverse map maxIters tol costs im init).map (Spec.Looks z') =
      (Aam.run z alg inverse map maxIters tol costs im init).map (Spec.Looks z) := by
  simp only [Aam.run, hz.warp, hz.setTarget]
  cases z.warp im (z.setTarget init) with
  | error e => rfl
  | ok i =>
    refine run_see false (Aam.machine z alg inverse map im) (Aam.machine z' alg inverse map im)
      (fun q => (q.1, z.A *ᵥ q.2)) (fun q => (q.1, z'.A *ᵥ q.2)) (Rel z z') maxIters tol
      (fun s t h => by simp only [Aam.machine, h.p, hz.target])
      (fun s t h => by simp only [Aam.machine, h.p, h.c])
      (fun s t h => ?_) hstep costs _ _ ⟨rfl, rfl, rfl, ?_⟩
    · cases alg <;> simp only [Aam.machine, Aam.cost, Lighting.projectOut_eq, app hz h, hz.mask, hz.aBar, h.i,
        proj hz hp hp']
    · simp only [mulVec_mulVec, proj hz hp hp', hz.mask, hz.aBar]

end SameSpace
end Menpofit
