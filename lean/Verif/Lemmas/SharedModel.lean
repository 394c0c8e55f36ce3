import Verif.Spec.SharedModel
import Verif.Lemmas.LinearTransform
import Verif.Lemmas.Optim
import Verif.Lemmas.GaussNewton
import Verif.Lemmas.PdmJacobian
import Mathlib.Data.List.GetD
/-!
# Lemmas for fitters that share a shape model
-/

namespace Menpofit
namespace Shared
open Matrix MI Homog Spec

variable {n : Nat} {Im C : Type}

/-- Two shape models that differ at most in their current state. -/
structure SameModel (p q : OPdm n) : Prop where
  model : p.model = q.model
  simMean : p.simMean = q.simMean
  simComps : p.simComps = q.simComps
  source : p.source = q.source

theorem SameModel.refl (p : OPdm n) : SameModel p p := ⟨rfl, rfl, rfl, rfl⟩

theorem SameModel.trans {p q r : OPdm n} (h : SameModel p q) (g : SameModel q r) : SameModel p r :=
  ⟨h.1.trans g.1, h.2.trans g.2, h.3.trans g.3, h.4.trans g.4⟩

theorem sameModel_setTarget (p : OPdm n) (c : Cloud) : SameModel (oSetTarget p c).1 p := by
  obtain ⟨h1, h2, h3, h4⟩ := Linear.oSetTarget_same p c
  exact ⟨h1, h3, h2, h4⟩

theorem sameModel_fromVector {p q : OPdm n} {v : List ℝ} (h : oFromVector p v = .ok q) :
    SameModel q p := by
  obtain ⟨h1, h2, h3, h4⟩ := Linear.oFromVector_same h
  exact ⟨h1, h3, h2, h4⟩

/-- Setting a target forgets the state before. -/
theorem setTarget_forgets {p q : OPdm n} (h : SameModel p q) (c : Cloud) :
    (oSetTarget p c).2 = (oSetTarget q c).2 ∧
      ((oSetTarget p c).2 = .ok () → (oSetTarget p c).1 = (oSetTarget q c).1) := by
  simp only [oSetTarget]
  cases c.fit n 2 with
  | none => exact ⟨rfl, fun h => by cases h⟩
  | some t =>
    simp only
    rw [oSyncState_eq, oSyncState_eq]
    refine ⟨rfl, fun _ => ?_⟩
    simp only [h.model, h.simMean, h.simComps, h.source]

theorem sameModel_step (K : Kind n Im C) (a : Alg K) (im : Im) (p : OPdm n) :
    SameModel ((machine K a im).step p).1 p := by
  simp only [machine]
  split
  · split
    · exact .refl p
    · split
      · exact .refl p
      · rename_i q hq
        split
        · exact sameModel_fromVector hq
        · exact sameModel_fromVector hq
  · exact .refl p

theorem sameModel_loop (K : Kind n Im C) (a : Alg K) (im : Im) (maxIters : Int) (eps : ℝ) (lk : Bool) :
    ∀ (N : Nat) (k : Int) (e : Option ℝ) (p : OPdm n) (tr), (maxIters - k).toNat = N →
      SameModel (Optim.loop (machine K a im) lk maxIters eps k e p tr).1 p := by
  intro N
  induction N with
  | zero =>
    intro k e p tr h
    rw [loop_unfold, if_neg (by omega)]
    exact .refl p
  | succ N ih =>
    intro k e p tr h
    rw [loop_unfold]
    split
    · have hs := sameModel_step K a im p
      obtain ⟨x, hx⟩ : ∃ x, x = (machine K a im).step p := ⟨_, rfl⟩
      rw [← hx] at hs ⊢
      obtain ⟨p', r⟩ := x
      cases r with
      | error e => exact hs
      | ok e' => exact (ih _ _ _ _ (by omega)).trans hs
    · exact .refl p

theorem sameModel_run (K : Kind n Im C) (a : Alg K) (eps : ℝ) (r : Request Im) (p : OPdm n) :
    SameModel (run K a eps r p).1 p := by
  have h := sameModel_setTarget p r.init
  unfold run
  obtain ⟨x, hx⟩ : ∃ x, x = oSetTarget p r.init := ⟨_, rfl⟩
  rw [← hx] at h ⊢
  obtain ⟨q, y⟩ := x
  cases y with
  | error e => exact h
  | ok u =>
    simp only
    split
    · exact h
    · exact (sameModel_loop K a r.im r.maxIters eps false _ _ _ _ _ rfl).trans h

theorem sameModel_uses {p : OPdm n} (uses : List (Use n)) (h : ∀ u ∈ uses, KeepsComponents u) :
    SameModel (uses.foldl afterUse p) p := by
  induction uses generalizing p with
  | nil => exact .refl p
  | cons u us ih =>
    refine (ih fun u hu => h u (by simp [hu])).trans ?_
    cases u with
    | newFitter K nShape =>
      have : nShape = none := h (.newFitter K nShape) (by simp)
      subst this
      exact .refl p
    | fit K a eps r => exact sameModel_run K a eps r p

/-- A run does not depend on the state the shape model was in. -/
theorem run_forgets (K : Kind n Im C) (a : Alg K) (eps : ℝ) (r : Request Im) {p q : OPdm n}
    (h : SameModel p q) : (run K a eps r p).2 = (run K a eps r q).2 := by
  obtain ⟨h1, h2⟩ := setTarget_forgets h r.init
  unfold run
  obtain ⟨x, hx⟩ : ∃ x, x = oSetTarget p r.init := ⟨_, rfl⟩
  obtain ⟨y, hy⟩ : ∃ y, y = oSetTarget q r.init := ⟨_, rfl⟩
  rw [← hx, ← hy] at h1 h2 ⊢
  obtain ⟨x1, x2⟩ := x
  obtain ⟨y1, y2⟩ := y
  simp only at h1 h2
  subst h1
  cases x2 with
  | error e => rfl
  | ok u => rw [h2 rfl]

/-- The algorithm object is determined by the model and the linear part of the global transform. -/
theorem newAlg_eq (K : Kind n Im C) {p q : OPdm n} (h : SameModel p q)
    (ha : p.glob.a = q.glob.a) (hb : p.glob.b = q.glob.b) : newAlg K p = newAlg K q := by
  have hj : ∀ k, jacobian p k = jacobian q k := by
    intro k
    unfold jacobian opdmDdp
    simp only [h.model, h.simComps]
    congr 1
    funext r c
    simp only [gpdmDdp]
    split
    · rfl
    · congr 1
      refine Finset.sum_congr rfl fun l _ => ?_
      simp [simDdx, ha, hb]
  unfold newAlg
  have hn : nParameters p = nParameters q := by rw [nParameters, nParameters, h.model]
  rw [hn, hj]

/-- A run with an algorithm object made for another number of parameters. -/
theorem run_mismatch (K : Kind n Im C) (a : Alg K) (eps : ℝ) (r : Request Im) (p : OPdm n)
    (h4 : p.simComps.length = 4) (hk : a.k ≠ nParameters p) (ho : (oSetTarget p r.init).2 = .ok ())
    (hs : K.start r.im r.costs (oSetTarget p r.init).1.target = .ok ()) (hi : 0 < r.maxIters) :
    (run K a eps r p).2 = .error .valueError := by
  have hlen : (oAsVector (oSetTarget p r.init).1).length = nParameters p := by
    simp only [oSetTarget] at ho ⊢
    cases hf : r.init.fit n 2 with
    | none => rw [hf] at ho; cases ho
    | some t => simp only; rw [oSyncState_eq]; simp [oAsVector, nParameters, h4, Pca.project]
  unfold run
  obtain ⟨x, hx⟩ : ∃ x, x = oSetTarget p r.init := ⟨_, rfl⟩
  rw [← hx] at ho hlen hs ⊢
  obtain ⟨q, y⟩ := x
  simp only at ho hlen hs
  subst ho
  simp only [hs, Optim.run]
  rw [loop_unfold, if_pos ⟨hi, trivial⟩]
  simp only [machine]
  rw [if_neg (by rw [hlen]; exact Ne.symm hk)]

/-- The columns of the Jacobian are scaled components when the global transform does not rotate. -/
theorem jacobian_entry {p : OPdm n} (h : Ready p) (hb : p.glob.b = 0) {k : Nat} (r) (c : Fin k) :
    jacobian p k r c = (if c.val < 4 then 1 else p.glob.a) *
      ((p.simComps ++ p.model.active).getD c 0) (finProdFinEquiv.symm r) := by
  simp only [jacobian, of_apply, opdmDdp, gpdmDdp]
  by_cases h4 : c.val < 4
  · simp only [if_pos h4, one_mul]
    rw [List.getD_append _ _ _ _ (by rw [h.four]; exact h4)]
  · simp only [if_neg h4]
    rw [List.getD_append_right _ _ _ _ (by rw [h.four]; omega), h.four]
    simp only [pdmDdp]
    match (finProdFinEquiv.symm r) with
    | (i, 0) => simp [simDdx, hb]
    | (i, 1) => simp [simDdx, hb]

theorem ready_dot {p : OPdm n} (h : Ready p) (c c' : Fin (nParameters p)) :
    ∑ x, ((p.simComps ++ p.model.active).getD c 0) x * ((p.simComps ++ p.model.active).getD c' 0) x =
      if c = c' then 1 else 0 := by
  obtain ⟨W, hW⟩ : ∃ W, W = p.simComps ++ p.model.active := ⟨_, rfl⟩
  have hl : W.length = nParameters p := by rw [hW]; simp [nParameters, h.four]
  have hort : OrthonormalList W := by
    rw [hW]
    exact orth_sublist (List.Sublist.append (List.Sublist.refl _) (List.take_sublist _ _)) h.orth
  rw [← hW]
  have hc : c.val < W.length := by rw [hl]; exact c.2
  have hc' : c'.val < W.length := by rw [hl]; exact c'.2
  rw [List.getD_eq_getElem _ _ hc, List.getD_eq_getElem _ _ hc']
  by_cases e : c = c'
  · subst e; rw [if_pos rfl]; exact hort.1 _ (List.getElem_mem _)
  · rw [if_neg e]
    have := List.pairwise_iff_getElem.1 hort.2
    rcases Nat.lt_or_gt_of_ne (fun h => e (Fin.ext h)) with hlt | hlt
    · exact this _ _ hc hc' hlt
    · rw [← this _ _ hc' hc hlt]; exact Finset.sum_congr rfl fun x _ => mul_comm _ _

/-- The columns of the Jacobian are orthogonal when the global transform does not rotate. -/
theorem jacobian_gram {p : OPdm n} (h : Ready p) (hb : p.glob.b = 0) :
    (jacobian p (nParameters p))ᵀ * jacobian p (nParameters p) =
      diagonal fun c => if c.val < 4 then 1 else p.glob.a ^ 2 := by
  obtain ⟨s, hs⟩ : ∃ s : Fin (nParameters p) → ℝ, s = fun c => if c.val < 4 then 1 else p.glob.a := ⟨_, rfl⟩
  obtain ⟨W, hW⟩ : ∃ W, W = p.simComps ++ p.model.active := ⟨_, rfl⟩
  have entry : ∀ r c, jacobian p (nParameters p) r c = s c * (W.getD c 0) (finProdFinEquiv.symm r) := by
    intro r c; rw [jacobian_entry h hb, hs, hW]
  have dot := ready_dot h
  rw [← hW] at dot
  ext c c'
  simp only [mul_apply, transpose_apply, entry]
  have e1 : ∑ r : Fin (n * 2), s c * (W.getD c 0) (finProdFinEquiv.symm r) *
      (s c' * (W.getD c' 0) (finProdFinEquiv.symm r)) =
      s c * s c' * ∑ x, (W.getD c 0) x * (W.getD c' 0) x := by
    rw [Finset.mul_sum, ← Equiv.sum_comp (finProdFinEquiv (m := n) (n := 2)).symm]
    exact Finset.sum_congr rfl fun x _ => by ring
  rw [e1, dot, diagonal_apply]
  by_cases e : c = c'
  · subst e
    rw [if_pos rfl, if_pos rfl, mul_one, hs]
    simp only
    split <;> ring
  · rw [if_neg e, if_neg e, mul_zero]

end Shared
end Menpofit
