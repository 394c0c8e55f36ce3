import Verif.Lemmas.SharedWitness
/-!
# Runs of fitters that share a model succeed
-/

namespace Menpofit
namespace Shared
open MI Spec

variable {n : Nat} {Im C : Type}

/-- Making a fitter keeps the components of the similarity, and the number of parameters of the fitter is that of the model. -/
theorem build_parameters (K : Kind n Im C) {s : Option Int} {p p' : OPdm n} {x : Alg K} (h : build K s p = (p', .ok x)) :
    x.k = nParameters p' := by
  have hn : newAlg K p' = .ok x := by
    unfold build at h
    cases s with
    | none => injection h with h h'; subst h; exact h'
    | some v =>
      simp only at h
      obtain ⟨y, hy⟩ : ∃ y, y = oSetActive p v := ⟨_, rfl⟩
      rw [← hy] at h
      obtain ⟨y1, y2⟩ := y
      cases y2 with
      | error e => exact absurd (congrArg Prod.snd h) (by simp)
      | ok u => injection h with h h'; subst h; exact h'
  unfold newAlg at hn
  cases hp : K.pre (nParameters p') (jacobian p' (nParameters p')) with
  | error e => rw [hp] at hn; cases hn
  | ok d =>
    rw [hp] at hn
    injection hn with hn
    rw [← hn]

/-- No use of a model touches the components of the similarity. -/
theorem simComps_use (p : OPdm n) (u : Use n) : (afterUse p u).simComps = p.simComps := by
  cases u with
  | fit K a eps r => exact (sameModel_run K a eps r p).simComps
  | newFitter K s =>
    show (build K s p).1.simComps = _
    unfold build
    cases s with
    | none => rfl
    | some v =>
      have hv : (oSetActive p v).1.simComps = p.simComps := by
        unfold oSetActive
        split
        · rfl
        · rw [oSyncState_eq]
      simp only
      split
      · rename_i q e h; rw [h] at hv; exact hv
      · rename_i q h; rw [h] at hv; exact hv

theorem simComps_uses (p : OPdm n) (us : List (Use n)) : (us.foldl afterUse p).simComps = p.simComps := by
  induction us generalizing p with
  | nil => rfl
  | cons u us ih => exact (ih _).trans (simComps_use p u)

theorem asVector_fromVector {p q : OPdm n} {v : List ℝ} (h : oFromVector p v = .ok q) : oAsVector q = v := by
  simp only [oFromVector, oUpdateGlobalWeights, bind, Except.bind] at h
  split at h
  · cases h
  · rename_i x hx
    split at hx
    · cases hx
    · obtain rfl := Except.ok.inj hx
      simp only at h
      split at h
      · cases h
      · obtain rfl := Except.ok.inj h
        exact List.take_append_drop 4 v

/-- A step from a state with as many parameters as the fitter knows. -/
theorem step_succeeds (K : Kind n Im C) (a : Alg K) (im : Im) (hstep : ∀ s w, ∃ d, K.step a.data im s w = .ok d)
    (hafter : ∀ s, K.after im s = .ok ()) (p : OPdm n) (h4 : p.simComps.length = 4) (hk : a.k = nParameters p)
    (hl : (oAsVector p).length = a.k) :
    ∃ q e, (machine K a im).step p = (q, .ok e) ∧ SameModel q p ∧ (oAsVector q).length = a.k := by
  obtain ⟨d, hd⟩ := hstep p.target (fun i => (oAsVector p).getD i 0)
  have hz : (List.zipWith (· + ·) (oAsVector p) (List.ofFn d)).length = a.k := by simp [hl]
  obtain ⟨q, hq⟩ := oFromVector_succeeds p h4 _ (hz.trans hk)
  refine ⟨q, distance p.target q.target, ?_, sameModel_fromVector hq, by rw [asVector_fromVector hq, hz]⟩
  simp only [machine, if_pos hl, hd, hq, hafter]

theorem loop_succeeds (K : Kind n Im C) (a : Alg K) (im : Im) (hstep : ∀ s w, ∃ d, K.step a.data im s w = .ok d)
    (hafter : ∀ s, K.after im s = .ok ()) (lk : Bool) (maxIters : Int) (eps : ℝ) (N : Nat) :
    ∀ (k : Int) (e : Option ℝ) (p : OPdm n) (tr), (maxIters - k).toNat = N → p.simComps.length = 4 → a.k = nParameters p →
      (oAsVector p).length = a.k → ∃ t, (Optim.loop (machine K a im) lk maxIters eps k e p tr).2 = .ok t := by
  induction N with
  | zero =>
    intro k e p tr hN h4 hk hl
    rw [loop_unfold, if_neg (by omega)]
    exact ⟨_, rfl⟩
  | succ N ih =>
    intro k e p tr hN h4 hk hl
    rw [loop_unfold]
    split
    · obtain ⟨q, x, hs, hm, hl'⟩ := step_succeeds K a im hstep hafter p h4 hk hl
      rw [hs]
      exact ih _ _ _ _ (by omega) (by rw [hm.simComps, h4]) (by rw [hk, nParameters, nParameters, hm.model]) hl'
    · exact ⟨_, rfl⟩

theorem run_succeeds (K : Kind n Im C) (a : Alg K) (eps : ℝ) (r : Request Im) (p : OPdm n)
    (h4 : p.simComps.length = 4) (hk : a.k = nParameters p) (t : Pts n 2) (hi : r.init = ⟨n, 2, t⟩)
    (hstart : ∀ s, K.start r.im r.costs s = .ok ()) (hstep : ∀ s w, ∃ d, K.step a.data r.im s w = .ok d)
    (hafter : ∀ s, K.after r.im s = .ok ()) :
    ∃ tr, (run K a eps r p).2 = .ok tr := by
  have ho : (oSetTarget p r.init).2 = .ok () := by
    rw [hi]; simp only [oSetTarget, cloud_fit]; rw [oSyncState_eq]
  have hlen : (oAsVector (oSetTarget p r.init).1).length = nParameters p := by
    rw [hi]; simp only [oSetTarget, cloud_fit]; rw [oSyncState_eq]; simp [oAsVector, nParameters, h4, Pca.project]
  have hm := sameModel_setTarget p r.init
  unfold run
  obtain ⟨x, hx⟩ : ∃ x, x = oSetTarget p r.init := ⟨_, rfl⟩
  rw [← hx] at ho hlen hm ⊢
  obtain ⟨q, y⟩ := x
  simp only at ho hlen hm
  subst ho
  simp only [hstart, Optim.run]
  exact loop_succeeds K a r.im hstep hafter false r.maxIters eps _ 0 none q _ rfl (by rw [hm.simComps, h4])
    (by rw [hk, nParameters, nParameters, hm.model]) (by rw [hlen, hk])

end Shared
end Menpofit
