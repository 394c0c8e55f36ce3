import Verif.Lemmas.ModelInstanceState
/-!
# C42, C101: what is kept by the operations of shape models
-/

namespace Menpofit
open MI Spec

/-- C101: `max_n_components` limits a new shape model to its first components, of which the active ones stay active: the
model has at most that many weights, all zero, and starts at the mean. -/
theorem C101_max_components {n d : Nat} (m : Pca n d) (k : Nat) :
    let p := newPdm m (some k)
    p.model.active = m.active.take k ∧ p.weights.length = min k m.active.length ∧ (∀ w ∈ p.weights, w = 0) ∧
      p.target = m.mean ∧ p.model.mean = m.mean := by
  have h : (newPdm m (some k)).model.active = m.active.take k := by
    simp only [newPdm, Pca.active, List.take_take]
    congr 1
    omega
  refine ⟨h, ?_, ?_, rfl, rfl⟩
  · have : (newPdm m (some k)).weights = List.replicate (newPdm m (some k)).model.active.length 0 := rfl
    rw [this, h]
    simp
  · intro w hw
    exact List.eq_of_mem_replicate hw

/-- C42: whatever was done to a global shape model, including increments and calls that raise, the next target is aligned
with the mean it was made with: the similarity is the one that maps this mean best onto the target. -/
theorem C42_global_source {n : Nat} (m : Pca n 2) (ident : Sim) (ops : List (PdmOp n 2)) (c : Cloud) (t : Pts n 2)
    (hc : c.fit n 2 = some t) :
    let p := ops.foldl (gpdmStep (alignmentSimilarity n)) (newGPdm m (m.mean, ident))
    (gSetTarget (alignmentSimilarity n) p c).1.glob = (m.mean, procrustes m.mean t) := by
  have sync : ∀ q : GPdm (Pts n 2 × Sim) n 2,
      (gSyncState (alignmentSimilarity n) q).1.glob = (q.glob.1, procrustes q.glob.1 q.target) := by
    intro q
    unfold gSyncState
    dsimp only
    split <;> rfl
  have set : ∀ (q : GPdm (Pts n 2 × Sim) n 2) (c : Cloud), (gSetTarget (alignmentSimilarity n) q c).1.glob.1 = q.glob.1 := by
    intro q c
    unfold gSetTarget
    split
    · rfl
    · rw [sync]
  have step : ∀ (q : GPdm (Pts n 2 × Sim) n 2) (o : PdmOp n 2), q.glob.1 = m.mean →
      (gpdmStep (alignmentSimilarity n) q o).glob.1 = m.mean := by
    intro q o hq
    cases o with
    | target c => exact (set q c).trans hq
    | vector v =>
      simp only [gpdmStep]
      cases h : gFromVector (alignmentSimilarity n) q v with
      | error e => exact hq
      | ok q' =>
        simp only
        unfold gFromVector at h
        cases hv : (alignmentSimilarity n).ofVec q.glob (v.take (alignmentSimilarity n).nParams) with
        | error e => simp [hv, bind, Except.bind] at h
        | ok g =>
          have hg : g.1 = q.glob.1 := by
            simp only [alignmentSimilarity] at hv
            split at hv
            · cases hv; rfl
            · cases hv
          simp only [hv, bind, Except.bind] at h
          split at h
          · cases h
          · cases h
            exact hg.trans hq
    | active k =>
      simp only [gpdmStep, gSetActive]
      split
      · exact hq
      · rw [sync]; exact hq
    | increment m' => exact (set _ _).trans hq
  intro p
  have hp : p.glob.1 = m.mean := foldl_inv (P := fun q : GPdm (Pts n 2 × Sim) n 2 => q.glob.1 = m.mean) step ops rfl
  show (gSetTarget (alignmentSimilarity n) p c).1.glob = _
  unfold gSetTarget
  rw [hc]
  simp only
  rw [sync, hp]

/-- C42: incrementing a shape model does not move a shape that the new statistical model can represent.  For a plain
model: the target is the new mean plus a combination of the new active components.  For a global model: it is the image
of such a shape under the alignment with the target (which can be inverted). -/
theorem C42_increment_target {n d : Nat} (m : Pca n d) (hm : OrthonormalList m.active) (w : List ℝ)
    (hw : w.length = m.active.length) (x : Pts n d) (hx : Generates m.mean m.active w x) :
    (∀ p : Pdm n d, p.target = x →
      incrementPdm p m = (⟨m, w, x⟩, .ok ())) ∧
    ∀ {T : Type} (tr : Transforms T n d) (p : GPdm T n d),
      tr.apply (tr.setTarget p.glob p.target) x = p.target →
      tr.apply (tr.pinv (tr.setTarget p.glob p.target)) p.target = x →
      gIncrement tr p m = (⟨m, w, p.target, tr.setTarget p.glob p.target⟩, .ok ()) := by
  have hi : m.inst w = .ok x := generates_iff.1 hx
  have hp : m.project x = w := by
    rw [Pca.inst, instanceOf_ok] at hi
    rw [hi.2]
    exact project_instance hm hw
  refine ⟨fun p h => ?_, fun tr p h1 h2 => ?_⟩
  · simp only [incrementPdm, setTarget, cloud_fit, syncState, h, hp, hi]
  · simp only [gIncrement, gSetTarget, cloud_fit, gSyncState, h2, hp, gTargetOf, hi, Except.map, h1]

/-- One orthonormal component, a shape generated with weight two. -/
example : OrthonormalList (⟨0, [fun x => if x = (0, 0) then 1 else 0], 1⟩ : Pca 1 2).active ∧
    Generates (0 : Pts 1 2) (⟨0, [fun x => if x = (0, 0) then 1 else 0], 1⟩ : Pca 1 2).active [2]
      (fun x => if x = (0, 0) then 2 else 0) := by
  refine ⟨⟨?_, ?_⟩, ?_, ?_⟩
  · intro c hc
    simp [Pca.active] at hc
    subst hc
    simp
  · simp [Pca.active]
  · simp [Pca.active]
  · intro x
    show _ = _ + ∑ k : Fin 1, _
    rw [Fin.sum_univ_one]
    show (if x = (0, 0) then (2 : ℝ) else 0) = 0 + 2 * if x = (0, 0) then 1 else 0
    split_ifs <;> norm_num

end Menpofit
