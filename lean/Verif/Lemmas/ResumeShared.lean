import Verif.Lemmas.Resume
import Verif.Lemmas.GaussNewton
import Verif.Lemmas.SharedModel
import Verif.Lemmas.ModelInstanceState
/-!
# Helper lemmas: resumed runs on a shape model
-/

namespace Menpofit
open Optim Spec MI Shared

variable {n : Nat} {Im C : Type}

/-- What is known of a shape model during a run. -/
structure Fine (p : OPdm n) : Prop where
  ready : Ready p
  inv : OInv p
  four : p.simWeights.length = 4
  weights : p.weights.length = p.model.active.length

theorem fine_fromVector {p q : OPdm n} (h : Fine p) {v : List ℝ} (hv : v.length = (oAsVector p).length)
    (hq : oFromVector p v = .ok q) : Fine q := by
  have hi := oFromVector_inv h.inv hq
  have hlen : (oAsVector p).length = 4 + p.model.active.length := by
    simp [oAsVector, h.four, h.weights]
  simp only [oFromVector, oUpdateGlobalWeights, bind, Except.bind, pure, Except.pure] at hq
  cases ht : instanceOf p.simMean p.simComps (v.take 4) with
  | error e => simp [ht] at hq
  | ok t =>
    simp only [ht] at hq
    split at hq
    · cases hq
    · rename_i x hx
      injection hq with hq
      subst hq
      exact ⟨⟨h.ready.simMean, h.ready.source, h.ready.four, h.ready.orth, h.ready.span⟩, hi,
        by simp; omega, by simp; omega⟩

theorem fine_setTarget {p : OPdm n} (h : Ready p) {c : Cloud} {q : OPdm n} (hq : oSetTarget p c = (q, .ok ())) :
    Fine q := by
  unfold oSetTarget at hq
  cases hc : c.fit n 2 with
  | none => simp [hc] at hq
  | some t =>
    simp only [hc] at hq
    have hr : Ready { p with target := t } := ⟨h.simMean, h.source, h.four, h.orth, h.span⟩
    have e : q = (oSyncState { p with target := t }).1 := by rw [hq]
    subst e
    refine ⟨?_, oSyncState_inv _ h.four, ?_, ?_⟩
    · rw [oSyncState_eq]; exact ⟨h.simMean, h.source, h.four, h.orth, h.span⟩
    · rw [oSyncState_eq]; simp [h.four]
    · rw [oSyncState_eq]; simp [Pca.project]

theorem fine_step (K : Kind n Im C) (a : Alg K) (im : Im) {p : OPdm n} (h : Fine p) :
    Fine ((Shared.machine K a im).step p).1 := by
  simp only [Shared.machine]
  split
  · rename_i hk
    split
    · exact h
    · rename_i dp hdp
      split
      · exact h
      · rename_i q hq
        have hf : Fine q := fine_fromVector h (by simp [hk]) hq
        split
        · exact hf
        · exact hf
  · exact h

/-- The quantity compared with the tolerance is the distance between the shapes. -/
theorem shared_dist (K : Kind n Im C) (a : Alg K) (im : Im) (p p' : OPdm n) (e : ℝ)
    (h : (Shared.machine K a im).step p = (p', .ok e)) : e = Shared.distance p.target p'.target := by
  simp only [Shared.machine] at h
  split at h
  · split at h
    · cases h
    · split at h
      · cases h
      · split at h
        · cases h
        · injection h with h1 h2
          injection h2 with h2
          rw [← h2, ← h1]
  · cases h

/-- What a successful step has checked. -/
theorem shared_after (K : Kind n Im C) (a : Alg K) (im : Im) (p p' : OPdm n) (e : ℝ)
    (h : (Shared.machine K a im).step p = (p', .ok e)) : K.after im p'.target = .ok () := by
  simp only [Shared.machine] at h
  split at h
  · split at h
    · cases h
    · split at h
      · cases h
      · split at h
        · cases h
        · rename_i hx
          injection h with h1 h2
          rw [← h1]; exact hx
  · cases h

/-- A run that was still moving can be resumed. -/
theorem shared_resume (K : Kind n Im C) (a : Alg K) (eps : ℝ) (im : Im) (init : Cloud) (costs : Bool)
    (hstart : ∀ s s', K.start im costs s = .ok () → K.after im s' = .ok () → K.start im costs s' = .ok ())
    {p p1 : OPdm n} (hp : Ready p) (n1 k : Nat) {tr1}
    (h : Shared.run K a eps ⟨im, init, n1, costs⟩ p = (p1, .ok tr1))
    (hm : StillMoving Shared.distance eps tr1.shapes)
    (hc : ∀ s, Generates p1.simMean p1.simComps p1.simWeights s → ¬ Collapsed s) :
    tr1.shapes.getLast? = some p1.target ∧
      (Shared.run K a eps ⟨im, init, (n1 + k : Nat), costs⟩ p).2 =
        (Shared.run K a eps ⟨im, ⟨n, 2, p1.target⟩, k, costs⟩ p1).2.map (continued tr1) := by
  simp only [Shared.run] at h ⊢
  cases hs : oSetTarget p init with
  | mk q x =>
    cases x with
    | error e => simp [hs] at h
    | ok u =>
      cases u
      simp only [hs] at h ⊢
      cases hst : K.start im costs q.target with
      | error e => simp [hst] at h
      | ok u =>
        cases u
        simp only [hst] at h ⊢
        have hq : Fine q := fine_setTarget hp hs
        have h1 := h
        have hf : Fine p1 := by
          have := loop_inv (Shared.machine K a im) false n1 eps Fine (fun p hp => fine_step K a im hp) _ 0 none q
            ⟨[(Shared.machine K a im).shape q], [(Shared.machine K a im).params q],
              if (costs && K.reports) then some (if false = true then [] else [(Shared.machine K a im).cost q]) else none⟩ rfl hq
          unfold Optim.run at h
          rw [h] at this
          exact this
        obtain ⟨e1, e2, -⟩ := run_resume (Shared.machine K a im) Shared.distance
          (fun p p' e h => shared_dist K a im p p' e h) eps _ q n1 k h1 hm
        have hset : oSetTarget p1 ⟨n, 2, p1.target⟩ = (p1, .ok ()) := by
          refine settled hf.ready hf.inv hf.four hf.weights (hc _ ?_)
          rw [generates_iff, instanceOf_ok]
          exact ⟨by rw [hf.four, hf.ready.four], rfl⟩
        have hst1 : K.start im costs p1.target = .ok () := by
          unfold Optim.run at h1
          obtain ⟨N, st, mv, g1, g2, -, g4, -⟩ := loop_spec _ false n1 eps _ 0 none q p1 _ tr1 rfl h1
          cases N with
          | zero => rw [← g2, g1]; exact hst
          | succ N =>
            refine hstart _ _ hst ?_
            have := g4 N (by omega)
            rw [← g2]
            exact shared_after K a im _ _ _ this
        refine ⟨e2, ?_⟩
        rw [hset]
        simp only [hst1]
        exact e1

end Menpofit
