import Verif.Spec.Renumber
import Verif.Model.Homogeneous
/-!
# Lemmas: renumbering landmarks
-/

namespace Menpofit
namespace Renum
open MI Spec Matrix

variable {n d : Nat} (σ : Equiv.Perm (Fin n))

theorem add (a b : Pts n d) : renumber σ (a + b) = renumber σ a + renumber σ b := rfl
theorem sub (a b : Pts n d) : renumber σ (a - b) = renumber σ a - renumber σ b := rfl
theorem smul (c : ℝ) (a : Pts n d) : renumber σ (c • a) = c • renumber σ a := rfl

theorem sum_renumber (f : Fin n × Fin d → ℝ) : ∑ x : Fin n × Fin d, f (σ x.1, x.2) = ∑ x, f x :=
  Equiv.sum_comp (σ.prodCongr (Equiv.refl (Fin d))) f

theorem dot (a b : Pts n d) : renumber σ a ⬝ᵥ renumber σ b = a ⬝ᵥ b :=
  sum_renumber σ fun x => a x * b x

theorem list_sum (l : List (Pts n d)) : (l.map (renumber σ)).sum = renumber σ l.sum := by
  induction l with
  | nil => rfl
  | cons a l ih => rw [List.map_cons, List.sum_cons, List.sum_cons, ih]; rfl

theorem combine (w : List ℝ) (cs : List (Pts n d)) :
    MI.combine w (cs.map (renumber σ)) = renumber σ (MI.combine w cs) := by
  unfold MI.combine
  rw [List.zipWith_map_right, ← list_sum, List.map_zipWith]
  rfl

theorem projectOn (mean : Pts n d) (cs : List (Pts n d)) (x : Pts n d) :
    MI.projectOn (renumber σ mean) (cs.map (renumber σ)) (renumber σ x) = MI.projectOn mean cs x := by
  unfold MI.projectOn
  rw [List.map_map]
  refine List.map_congr_left fun c _ => ?_
  simp only [Function.comp, ← sub, dot]

theorem instanceOf (mean : Pts n d) (cs : List (Pts n d)) (w : List ℝ) :
    MI.instanceOf (renumber σ mean) (cs.map (renumber σ)) w = (MI.instanceOf mean cs w).map (renumber σ) := by
  unfold MI.instanceOf
  rw [List.length_map, combine]
  split <;> rfl

theorem active (m : Pca n d) : (renumberPca σ m).active = m.active.map (renumber σ) := by
  simp [Pca.active, renumberPca, List.map_take]

theorem active_length (m : Pca n d) : (renumberPca σ m).active.length = m.active.length := by
  rw [active, List.length_map]

theorem project (m : Pca n d) (x : Pts n d) : (renumberPca σ m).project (renumber σ x) = m.project x := by
  unfold Pca.project
  rw [active]
  exact projectOn σ _ _ _

theorem inst (m : Pca n d) (w : List ℝ) : (renumberPca σ m).inst w = (m.inst w).map (renumber σ) := by
  unfold Pca.inst
  rw [active]
  exact instanceOf σ _ _ _

theorem rotatedCcw (p : Pts n 2) : MI.rotatedCcw (renumber σ p) = renumber σ (MI.rotatedCcw p) := rfl

theorem flat_mod (ij : Fin n × Fin 2) : flat (σ ij.1, ij.2) % 2 = flat ij % 2 := by
  simp [flat]

theorem similarityComponents (s : Pts n 2) :
    MI.similarityComponents (renumber σ s) = (MI.similarityComponents s).map (renumber σ) := by
  simp only [MI.similarityComponents, List.map_cons, List.map_nil, rotatedCcw, List.cons.injEq, and_true, true_and]
  constructor <;> funext ij <;> simp only [renumber, flat_mod]

theorem centroid (p : Pts n 2) (j : Fin 2) : MI.centroid (renumber σ p) j = MI.centroid p j := by
  unfold MI.centroid
  congr 1
  exact Equiv.sum_comp σ fun i => p (i, j)

theorem centred (p : Pts n 2) : MI.centred (renumber σ p) = renumber σ (MI.centred p) := by
  funext ij
  simp only [MI.centred, centroid, renumber]

theorem procrustes (s t : Pts n 2) : MI.procrustes (renumber σ s) (renumber σ t) = MI.procrustes s t := by
  unfold MI.procrustes
  simp only [centred, rotatedCcw, dot, centroid]

theorem sim_apply (g : Sim) (p : Pts n 2) : g.apply (renumber σ p) = renumber σ (g.apply p) := rfl

theorem oTargetOf (p : OPdm n) : MI.oTargetOf (renumberPdm σ p) = (MI.oTargetOf p).map (renumber σ) := by
  unfold MI.oTargetOf
  simp only [renumberPdm, inst]
  cases p.model.inst p.weights <;> rfl

theorem oUpdateGlobalWeights (p : OPdm n) (w : List ℝ) :
    MI.oUpdateGlobalWeights (renumberPdm σ p) w = (MI.oUpdateGlobalWeights p w).map (renumberPdm σ) := by
  unfold MI.oUpdateGlobalWeights
  simp only [renumberPdm, instanceOf]
  cases MI.instanceOf p.simMean p.simComps w with
  | error e => rfl
  | ok t =>
    simp only [Except.map, bind, Except.bind, procrustes]
    rfl

theorem constructSim {ortho : Ortho n} (ho : Unnumbered ortho) (p : OPdm n) :
    MI.constructSim ortho (renumberPdm σ p) = renumberPdm σ (MI.constructSim ortho p) := by
  unfold MI.constructSim
  simp only [renumberPdm, renumberPca, similarityComponents, ho σ, List.length_map]
  congr 1
  · simp [Pca.active]
  · exact projectOn σ _ _ _

theorem newOPdm {ortho : Ortho n} (ho : Unnumbered ortho) (m : Pca n 2) :
    MI.newOPdm ortho (renumberPca σ m) = (MI.newOPdm ortho m).map (renumberPdm σ) := by
  unfold MI.newOPdm
  have e : (⟨renumberPca σ m, [], (renumberPca σ m).mean, (renumberPca σ m).mean, [], [], (renumberPca σ m).mean,
      MI.procrustes (renumberPca σ m).mean (renumberPca σ m).mean⟩ : OPdm n) =
      renumberPdm σ ⟨m, [], m.mean, m.mean, [], [], m.mean, MI.procrustes m.mean m.mean⟩ := by
    simp only [renumberPdm, renumberPca, procrustes, List.map_nil]
  simp only [e, constructSim σ ho, oTargetOf]
  cases MI.oTargetOf (MI.constructSim ortho ⟨m, [], m.mean, m.mean, [], [], m.mean, MI.procrustes m.mean m.mean⟩) <;> rfl

theorem oSyncState (p : OPdm n) :
    MI.oSyncState (renumberPdm σ p) = (renumberPdm σ (MI.oSyncState p).1, (MI.oSyncState p).2) := by
  unfold MI.oSyncState
  have e : MI.projectOn (renumberPdm σ p).simMean (renumberPdm σ p).simComps (renumberPdm σ p).target =
      MI.projectOn p.simMean p.simComps p.target := projectOn σ _ _ _
  rw [e, oUpdateGlobalWeights]
  cases MI.oUpdateGlobalWeights p (MI.projectOn p.simMean p.simComps p.target) with
  | error e => rfl
  | ok q =>
    simp only [Except.map]
    have e1 : { renumberPdm σ q with
        weights := (renumberPdm σ q).model.project ((renumberPdm σ q).glob.inv.apply (renumberPdm σ q).target) } =
        renumberPdm σ { q with weights := q.model.project (q.glob.inv.apply q.target) } := by
      simp only [renumberPdm, sim_apply, project]
    have e2 : (renumberPdm σ q).model.project ((renumberPdm σ q).glob.inv.apply (renumberPdm σ q).target) =
        q.model.project (q.glob.inv.apply q.target) := by
      simp only [renumberPdm, sim_apply, project]
    rw [e1, oTargetOf, e2]
    cases MI.oTargetOf { q with weights := q.model.project (q.glob.inv.apply q.target) } <;> rfl

theorem cloud_fit_self (t : Pts n 2) : Cloud.fit ⟨n, 2, t⟩ n 2 = some t := by
  simp [Cloud.fit]

theorem oSetTarget (p : OPdm n) (c : Cloud) :
    MI.oSetTarget (renumberPdm σ p) (renumberCloud σ c) = (renumberPdm σ (MI.oSetTarget p c).1, (MI.oSetTarget p c).2) := by
  unfold MI.oSetTarget renumberCloud
  cases h : c.fit n 2 with
  | none => simp only [h]
  | some t =>
    simp only [cloud_fit_self]
    exact oSyncState σ { p with target := t }

theorem oFromVector (p : OPdm n) (v : List ℝ) :
    MI.oFromVector (renumberPdm σ p) v = (MI.oFromVector p v).map (renumberPdm σ) := by
  unfold MI.oFromVector
  simp only [oUpdateGlobalWeights]
  cases MI.oUpdateGlobalWeights p (v.take 4) with
  | error e => rfl
  | ok q =>
    simp only [Except.map, bind, Except.bind]
    have e1 : { renumberPdm σ q with weights := v.drop 4 } = renumberPdm σ { q with weights := v.drop 4 } := rfl
    rw [e1, oTargetOf]
    cases MI.oTargetOf { q with weights := v.drop 4 } <;> rfl

theorem oSetActive (p : OPdm n) (k : Int) :
    MI.oSetActive (renumberPdm σ p) k = (renumberPdm σ (MI.oSetActive p k).1, (MI.oSetActive p k).2) := by
  unfold MI.oSetActive
  have e : (renumberPdm σ p).model.setActive k = (p.model.setActive k).map (renumberPca σ) := by
    simp only [Pca.setActive, renumberPdm, renumberPca, List.length_map]
    split <;> rfl
  rw [e]
  cases p.model.setActive k with
  | error e => rfl
  | ok m => exact oSyncState σ { p with model := m }

theorem oIncrement {ortho : Ortho n} (ho : Unnumbered ortho) (p : OPdm n) (m : Pca n 2) :
    MI.oIncrement ortho (renumberPdm σ p) (renumberPca σ m) =
      (renumberPdm σ (MI.oIncrement ortho p m).1, (MI.oIncrement ortho p m).2) := by
  unfold MI.oIncrement
  have e : (⟨n, 2, (renumberPdm σ p).target⟩ : Cloud) = renumberCloud σ ⟨n, 2, p.target⟩ := by
    simp [renumberCloud, cloud_fit_self, renumberPdm]
  have e2 : MI.constructSim ortho { renumberPdm σ p with model := renumberPca σ m } =
      renumberPdm σ (MI.constructSim ortho { p with model := m }) := constructSim σ ho { p with model := m }
  simp only [e, e2, oSetTarget]

theorem opdmStep {ortho : Ortho n} (ho : Unnumbered ortho) (p : OPdm n) (o : PdmOp n 2) :
    Spec.opdmStep ortho (renumberPdm σ p) (renumberOp σ o) = renumberPdm σ (Spec.opdmStep ortho p o) := by
  cases o with
  | target c => simp only [Spec.opdmStep, renumberOp, oSetTarget]
  | vector v =>
    simp only [Spec.opdmStep, renumberOp, oFromVector]
    cases MI.oFromVector p v <;> rfl
  | active k => simp only [Spec.opdmStep, renumberOp, oSetActive]
  | increment m => simp only [Spec.opdmStep, renumberOp, oIncrement σ ho]

theorem opdmSteps {ortho : Ortho n} (ho : Unnumbered ortho) (p : OPdm n) (ops : List (PdmOp n 2)) :
    (ops.map (renumberOp σ)).foldl (Spec.opdmStep ortho) (renumberPdm σ p) =
      renumberPdm σ (ops.foldl (Spec.opdmStep ortho) p) := by
  induction ops generalizing p with
  | nil => rfl
  | cons o ops ih => rw [List.map_cons, List.foldl_cons, List.foldl_cons, opdmStep σ ho, ih]

end Renum
end Menpofit
