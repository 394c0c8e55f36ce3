import Verif.Spec.Transpose
import Verif.Lemmas.Signs
/-!
# Lemmas: rows and columns exchanged
-/

namespace Menpofit
namespace Cross
open MI Spec Matrix

variable {n d : Nat} {e : Fin 4 → ℝ}

theorem twice (s : Pts n d) : transposed (transposed s) = s := by
  funext ij; simp [transposed]

theorem sum_transposed (f : Fin n × Fin d → ℝ) : ∑ x : Fin n × Fin d, f (x.1, x.2.rev) = ∑ x, f x :=
  Equiv.sum_comp ((Equiv.refl (Fin n)).prodCongr Fin.revPerm) f

theorem dot (a b : Pts n d) : transposed a ⬝ᵥ transposed b = a ⬝ᵥ b := sum_transposed fun x => a x * b x

theorem sub (a b : Pts n d) : transposed (a - b) = transposed a - transposed b := rfl

theorem smul (c : ℝ) (a : Pts n d) : transposed (c • a) = c • transposed a := rfl

theorem zero : transposed (0 : Pts n d) = 0 := rfl

theorem list_sum (l : List (Pts n d)) : (l.map transposed).sum = transposed l.sum := by
  induction l with
  | nil => rfl
  | cons a l ih => rw [List.map_cons, List.sum_cons, List.sum_cons, ih]; rfl

theorem combine (w : List ℝ) (cs : List (Pts n d)) : MI.combine w (cs.map transposed) = transposed (MI.combine w cs) := by
  unfold MI.combine
  rw [List.zipWith_map_right, ← list_sum, List.map_zipWith]
  rfl

theorem projectOn (mean : Pts n d) (cs : List (Pts n d)) (x : Pts n d) :
    MI.projectOn (transposed mean) (cs.map transposed) (transposed x) = MI.projectOn mean cs x := by
  unfold MI.projectOn
  rw [List.map_map]
  refine List.map_congr_left fun c _ => ?_
  simp only [Function.comp, ← sub, dot]

theorem instanceOf (mean : Pts n d) (cs : List (Pts n d)) (w : List ℝ) :
    MI.instanceOf (transposed mean) (cs.map transposed) w = (MI.instanceOf mean cs w).map transposed := by
  unfold MI.instanceOf
  rw [List.length_map, combine]
  split <;> rfl

theorem active (m : Pca n d) : (transposedPca m).active = m.active.map transposed := by
  simp [Pca.active, transposedPca, List.map_take]

theorem active_length (m : Pca n d) : (transposedPca m).active.length = m.active.length := by
  rw [active, List.length_map]

theorem project (m : Pca n d) (x : Pts n d) : (transposedPca m).project (transposed x) = m.project x := by
  unfold Pca.project
  rw [active]
  exact projectOn _ _ _

theorem inst (m : Pca n d) (w : List ℝ) : (transposedPca m).inst w = (m.inst w).map transposed := by
  unfold Pca.inst
  rw [active]
  exact instanceOf _ _ _

/-! ### Similarities -/

theorem rotatedCcw (p : Pts n 2) : MI.rotatedCcw (transposed p) = -transposed (MI.rotatedCcw p) := by
  funext ij
  obtain ⟨i, j⟩ := ij
  fin_cases j <;> simp [MI.rotatedCcw, transposed, Fin.rev]

theorem similarityComponents (s : Pts n 2) :
    MI.similarityComponents (transposed s) = crossed ![1, -1, 1, 1] ((MI.similarityComponents s).map transposed) := by
  simp only [MI.similarityComponents, List.map_cons, List.map_nil, crossed, rotatedCcw]
  simp only [List.getD_cons_zero, List.getD_cons_succ, List.cons.injEq, and_true]
  refine ⟨by simp, by simp, ?_, ?_⟩ <;> funext ij <;> obtain ⟨i, j⟩ := ij <;>
    fin_cases j <;> simp [transposed, flat, Fin.rev]

theorem centroid (p : Pts n 2) (j : Fin 2) : MI.centroid (transposed p) j = MI.centroid p j.rev := rfl

theorem centred (p : Pts n 2) : MI.centred (transposed p) = transposed (MI.centred p) := rfl

theorem procrustes (s t : Pts n 2) : MI.procrustes (transposed s) (transposed t) = transposedSim (MI.procrustes s t) := by
  unfold MI.procrustes
  simp only [centred, rotatedCcw, neg_dotProduct, dot, centroid, neg_sq, transposedSim, Sim.mk.injEq]
  refine ⟨trivial, ?_, ?_, ?_⟩
  · ring
  · have h0 : (0 : Fin 2).rev = 1 := rfl
    have h1 : (1 : Fin 2).rev = 0 := rfl
    rw [h0, h1]; ring
  · have h0 : (0 : Fin 2).rev = 1 := rfl
    have h1 : (1 : Fin 2).rev = 0 := rfl
    rw [h0, h1]; ring

theorem apply (s : Sim) (p : Pts n 2) : (transposedSim s).apply (transposed p) = transposed (s.apply p) := by
  funext ij
  obtain ⟨i, j⟩ := ij
  have h0 : (0 : Fin 2).rev = 1 := rfl
  have h1 : (1 : Fin 2).rev = 0 := rfl
  fin_cases j <;> simp [Sim.apply, transposed, transposedSim, h0, h1] <;> ring

theorem inv (s : Sim) : (transposedSim s).inv = transposedSim s.inv := by
  simp only [Sim.inv, transposedSim, Sim.mk.injEq, neg_sq]
  refine ⟨trivial, ?_, ?_, ?_⟩ <;> ring

/-! ### The similarity components -/

theorem four {M : Type} {l : List M} (h : l.length = 4) : ∃ a b c d, l = [a, b, c, d] := by
  match l, h with
  | [a, b, c, d], _ => exact ⟨a, b, c, d, rfl⟩

theorem crossed_length {M : Type} [AddCommGroup M] [Module ℝ M] (e : Fin 4 → ℝ) (l : List M) : (crossed e l).length = 4 := rfl

theorem simProject (e : Fin 4 → ℝ) (mean : Pts n d) (cs : List (Pts n d)) (h : cs.length = 4) (x : Pts n d) :
    MI.projectOn (transposed mean) (crossed e (cs.map transposed)) (transposed x) = crossed e (MI.projectOn mean cs x) := by
  obtain ⟨a, b, c, d, rfl⟩ := four h
  simp [MI.projectOn, crossed, ← sub, dot]

theorem simInstance (he : Signs e) (mean : Pts n d) (cs : List (Pts n d)) (h : cs.length = 4) (w : List ℝ)
    (hw : w.length = 4) :
    MI.instanceOf (transposed mean) (crossed e (cs.map transposed)) (crossed e w) =
      (MI.instanceOf mean cs w).map transposed := by
  obtain ⟨a, b, c, g, rfl⟩ := four h
  obtain ⟨x, y, z, t, rfl⟩ := four hw
  unfold MI.instanceOf
  simp only [crossed_length, List.length_cons, List.length_nil, lt_irrefl, if_false, gt_iff_lt, Nat.reduceAdd, Except.map]
  have e0 := Sign.sq he
  congr 1
  have h2 : MI.combine [x, y, z, t] [a, b, c, g] = x • a + (y • b + (z • c + (t • g + 0))) := rfl
  have h3 : MI.combine (crossed e [x, y, z, t]) (crossed e ([a, b, c, g].map transposed)) =
      (e 0 * x) • e 0 • transposed a + ((e 1 * y) • e 1 • transposed b + ((e 2 * t) • e 2 • transposed g +
        ((e 3 * z) • e 3 • transposed c + 0))) := rfl
  rw [h2, h3]
  have k : ∀ (i : Fin 4) (u : ℝ) (v : Pts n d), (e i * u) • e i • v = u • v := fun i u v => by
    rw [smul_smul, mul_right_comm, e0, one_mul]
  simp only [k]
  funext ij
  simp only [transposed, Pi.add_apply, Pi.smul_apply, Pi.zero_apply]
  ring

/-! ### The shape model -/

theorem oTargetOf (e : Fin 4 → ℝ) (p : OPdm n) : MI.oTargetOf (transposedPdm e p) = (MI.oTargetOf p).map transposed := by
  unfold MI.oTargetOf
  simp only [transposedPdm, inst]
  cases p.model.inst p.weights with
  | error e => rfl
  | ok t => simp only [Except.map, apply]

theorem oUpdateGlobalWeights (he : Signs e) (p : OPdm n) (h4 : p.simComps.length = 4) (w : List ℝ) (hw : w.length = 4) :
    MI.oUpdateGlobalWeights (transposedPdm e p) (crossed e w) =
      (MI.oUpdateGlobalWeights p w).map (transposedPdm e) := by
  unfold MI.oUpdateGlobalWeights
  have : MI.instanceOf (transposedPdm e p).simMean (transposedPdm e p).simComps (crossed e w) =
      (MI.instanceOf p.simMean p.simComps w).map transposed := simInstance he p.simMean p.simComps h4 w hw
  rw [this]
  cases MI.instanceOf p.simMean p.simComps w with
  | error e => rfl
  | ok t =>
    simp only [Except.map, bind, Except.bind]
    simp only [transposedPdm, procrustes]

theorem update_comps {p q : OPdm n} {w : List ℝ} (h : MI.oUpdateGlobalWeights p w = .ok q) : q.simComps = p.simComps := by
  unfold MI.oUpdateGlobalWeights at h
  cases hi : MI.instanceOf p.simMean p.simComps w with
  | error e => rw [hi] at h; cases h
  | ok t =>
    rw [hi] at h
    simp only [bind, Except.bind, Except.ok.injEq] at h
    rw [← h]

theorem oSyncState (he : Signs e) (p : OPdm n) (h4 : p.simComps.length = 4) :
    MI.oSyncState (transposedPdm e p) = (transposedPdm e (MI.oSyncState p).1, (MI.oSyncState p).2) := by
  unfold MI.oSyncState
  have e1 : MI.projectOn (transposedPdm e p).simMean (transposedPdm e p).simComps (transposedPdm e p).target =
      crossed e (MI.projectOn p.simMean p.simComps p.target) := simProject e p.simMean p.simComps h4 p.target
  rw [e1, oUpdateGlobalWeights he p h4 _ (by simp [MI.projectOn, h4])]
  cases MI.oUpdateGlobalWeights p (MI.projectOn p.simMean p.simComps p.target) with
  | error e => rfl
  | ok q =>
    simp only [Except.map]
    have e2 : (transposedPdm e q).model.project ((transposedPdm e q).glob.inv.apply (transposedPdm e q).target) =
        q.model.project (q.glob.inv.apply q.target) := by
      simp only [transposedPdm, inv, apply, project]
    have e3 : { transposedPdm e q with weights := q.model.project (q.glob.inv.apply q.target) } =
        transposedPdm e { q with weights := q.model.project (q.glob.inv.apply q.target) } := rfl
    rw [e2, e3, oTargetOf]
    cases MI.oTargetOf { q with weights := q.model.project (q.glob.inv.apply q.target) } <;> rfl

theorem fit (c : Cloud) : (transposedCloud c).fit n d = (c.fit n d).map transposed := by
  obtain ⟨n', d', pts⟩ := c
  unfold Cloud.fit transposedCloud
  by_cases h : n' = n ∧ d' = d
  · obtain ⟨rfl, rfl⟩ := h
    simp
  · simp only [h, dite_false, Option.map_none]

theorem oSetTarget (he : Signs e) (p : OPdm n) (h4 : p.simComps.length = 4) (c : Cloud) :
    MI.oSetTarget (transposedPdm e p) (transposedCloud c) =
      (transposedPdm e (MI.oSetTarget p c).1, (MI.oSetTarget p c).2) := by
  unfold MI.oSetTarget
  rw [fit]
  cases c.fit n 2 with
  | none => rfl
  | some t => exact oSyncState he { p with target := t } h4

theorem vector_parts (e : Fin 4 → ℝ) (v : List ℝ) (hv : 4 ≤ v.length) :
    (transposedVector e v).take 4 = crossed e (v.take 4) ∧ (transposedVector e v).drop 4 = v.drop 4 := by
  match v, hv with
  | a :: b :: c :: d :: v, _ => exact ⟨rfl, rfl⟩

theorem oFromVector (he : Signs e) (p : OPdm n) (h4 : p.simComps.length = 4) (v : List ℝ) (hv : 4 ≤ v.length) :
    MI.oFromVector (transposedPdm e p) (transposedVector e v) = (MI.oFromVector p v).map (transposedPdm e) := by
  unfold MI.oFromVector
  obtain ⟨h1, h2⟩ := vector_parts e v hv
  simp only [h1, h2, oUpdateGlobalWeights he p h4 (v.take 4) (by simp; omega)]
  cases MI.oUpdateGlobalWeights p (v.take 4) with
  | error e => rfl
  | ok q =>
    simp only [Except.map, bind, Except.bind]
    have e1 : { transposedPdm e q with weights := v.drop 4 } = transposedPdm e { q with weights := v.drop 4 } := rfl
    rw [e1, oTargetOf]
    cases MI.oTargetOf { q with weights := v.drop 4 } <;> rfl

theorem oSetActive (he : Signs e) (p : OPdm n) (h4 : p.simComps.length = 4) (k : Int) :
    MI.oSetActive (transposedPdm e p) k = (transposedPdm e (MI.oSetActive p k).1, (MI.oSetActive p k).2) := by
  unfold MI.oSetActive
  have e1 : (transposedPdm e p).model.setActive k = (p.model.setActive k).map transposedPca := by
    simp only [Pca.setActive, transposedPdm, transposedPca, List.length_map]
    split <;> rfl
  rw [e1]
  cases p.model.setActive k with
  | error e => rfl
  | ok m => exact oSyncState he { p with model := m } h4

/-! ### Construction: the model may also come with other signs -/

/-- A shape model with rows and columns exchanged and other signs. -/
noncomputable def both (e : Fin 4 → ℝ) (ε : Nat → ℝ) (p : OPdm n) : OPdm n := flipPdm ε (transposedPdm e p)

theorem constructSim {ortho : Ortho n} (ho : TransposeBlind ortho) (p p' : OPdm n)
    (hm : p'.model = transposedPca p.model) (ht : p'.target = transposed p.target)
    (hs : p'.source = transposed p.source) (hg : p'.glob = transposedSim p.glob) :
    (MI.constructSim ortho p).simComps.length = 4 ∧ ∃ e ε, Signs e ∧ Signs ε ∧
      MI.constructSim ortho p' = both e ε (MI.constructSim ortho p) := by
  obtain ⟨h4, e, ε, he, hε, ho⟩ := ho p.model.mean p.model.comps
  refine ⟨h4, e, ε, he, hε, ?_⟩
  have ho' : ortho (MI.similarityComponents p'.model.mean) p'.model.comps =
      (crossed e ((ortho (MI.similarityComponents p.model.mean) p.model.comps).1.map transposed),
        flipComps ε ((ortho (MI.similarityComponents p.model.mean) p.model.comps).2.map transposed)) := by
    rw [hm]; exact ho
  unfold MI.constructSim both
  have hmean : p'.model.mean = transposed p.model.mean := by rw [hm]; rfl
  have hact : p'.model.nActive = p.model.nActive := by rw [hm]; rfl
  simp only [ho']
  simp only [hmean, hact, ht, hs, hg, flipPdm, transposedPdm, flipPca, transposedPca, Sign.comps_length,
    List.length_map, Sign.weights_zero]
  rw [simProject e p.model.mean _ h4 p.model.mean]
  simp [Pca.active, Sign.comps_length]

theorem both_target {e : Fin 4 → ℝ} {ε : Nat → ℝ} (hε : Signs ε) (p : OPdm n) :
    MI.oTargetOf (both e ε p) = (MI.oTargetOf p).map transposed := by
  unfold both
  rw [Sign.oTargetOf hε, oTargetOf]

theorem newOPdm {ortho : Ortho n} (ho : TransposeBlind ortho) (m : Pca n 2) :
    ∃ e ε, Signs e ∧ Signs ε ∧ MI.newOPdm ortho (transposedPca m) = (MI.newOPdm ortho m).map (both e ε) := by
  obtain ⟨-, e, ε, he, hε, h⟩ := constructSim ho
    (⟨m, [], m.mean, m.mean, [], [], m.mean, MI.procrustes m.mean m.mean⟩ : OPdm n)
    (⟨transposedPca m, [], (transposedPca m).mean, (transposedPca m).mean, [], [], (transposedPca m).mean,
      MI.procrustes (transposedPca m).mean (transposedPca m).mean⟩ : OPdm n) rfl rfl rfl (procrustes _ _)
  refine ⟨e, ε, he, hε, ?_⟩
  unfold MI.newOPdm
  simp only [h, both_target hε]
  cases MI.oTargetOf (MI.constructSim ortho ⟨m, [], m.mean, m.mean, [], [], m.mean, MI.procrustes m.mean m.mean⟩) <;> rfl

theorem newOPdm_comps {ortho : Ortho n} (ho : TransposeBlind ortho) {m : Pca n 2} {p : OPdm n}
    (h : MI.newOPdm ortho m = .ok p) : p.simComps.length = 4 := by
  unfold MI.newOPdm at h
  simp only [bind, Except.bind] at h
  split at h
  · cases h
  · injection h with h
    rw [← h]
    exact (ho m.mean m.comps).1

theorem both_setTarget {e : Fin 4 → ℝ} {ε : Nat → ℝ} (he : Signs e) (hε : Signs ε) (p : OPdm n)
    (h4 : p.simComps.length = 4) (c : Cloud) :
    MI.oSetTarget (both e ε p) (transposedCloud c) = (both e ε (MI.oSetTarget p c).1, (MI.oSetTarget p c).2) := by
  unfold both
  rw [Sign.oSetTarget hε, oSetTarget he p h4]

theorem both_setActive {e : Fin 4 → ℝ} {ε : Nat → ℝ} (he : Signs e) (hε : Signs ε) (p : OPdm n)
    (h4 : p.simComps.length = 4) (k : Int) :
    MI.oSetActive (both e ε p) k = (both e ε (MI.oSetActive p k).1, (MI.oSetActive p k).2) := by
  unfold both
  rw [Sign.oSetActive hε, oSetActive he p h4]

theorem both_increment {ortho : Ortho n} (ho : TransposeBlind ortho) {e : Fin 4 → ℝ} {ε : Nat → ℝ} (p : OPdm n)
    (m : Pca n 2) : ∃ e' ε', Signs e' ∧ Signs ε' ∧ MI.oIncrement ortho (both e ε p) (transposedPca m) =
      (both e' ε' (MI.oIncrement ortho p m).1, (MI.oIncrement ortho p m).2) := by
  obtain ⟨h4, e', ε', he', hε', h⟩ := constructSim ho { p with model := m } { both e ε p with model := transposedPca m }
    rfl rfl rfl rfl
  refine ⟨e', ε', he', hε', ?_⟩
  unfold MI.oIncrement
  simp only [h]
  exact both_setTarget he' hε' _ h4 ⟨n, 2, p.target⟩

/-! ### The number of similarity components never changes -/

theorem sync_comps (p : OPdm n) : (MI.oSyncState p).1.simComps = p.simComps := by
  unfold MI.oSyncState
  cases h : MI.oUpdateGlobalWeights p (MI.projectOn p.simMean p.simComps p.target) with
  | error e => rfl
  | ok q =>
    have hq := update_comps h
    simp only
    generalize MI.oTargetOf _ = r
    cases r <;> exact hq

theorem setTarget_comps (p : OPdm n) (c : Cloud) : (MI.oSetTarget p c).1.simComps = p.simComps := by
  unfold MI.oSetTarget
  cases c.fit n 2 with
  | none => rfl
  | some t => exact sync_comps _

theorem setActive_comps (p : OPdm n) (k : Int) : (MI.oSetActive p k).1.simComps = p.simComps := by
  unfold MI.oSetActive
  cases p.model.setActive k with
  | error e => rfl
  | ok m => exact sync_comps _

theorem increment_comps {ortho : Ortho n} (ho : TransposeBlind ortho) (p : OPdm n) (m : Pca n 2) :
    (MI.oIncrement ortho p m).1.simComps.length = 4 := by
  unfold MI.oIncrement
  rw [setTarget_comps]
  exact (ho m.mean m.comps).1

end Cross
end Menpofit
