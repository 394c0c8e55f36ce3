import Verif.Spec.Mirror
import Verif.Lemmas.Signs
/-!
# Lemmas: left and right reflected
-/

namespace Menpofit
namespace Mirror
open MI Spec Matrix

variable {n : Nat} {e : Fin 4 → ℝ}

theorem sign_sq (j : Fin 2) : mirrorSign j * mirrorSign j = 1 := by
  unfold mirrorSign; split_ifs <;> norm_num

theorem sign_zero : mirrorSign 0 = 1 := rfl

theorem sign_one : mirrorSign 1 = -1 := rfl

theorem twice (s : Pts n 2) : reflected (reflected s) = s := by
  funext ij; simp only [reflected]; rw [← mul_assoc, sign_sq, one_mul]

theorem dot (a b : Pts n 2) : reflected a ⬝ᵥ reflected b = a ⬝ᵥ b := by
  unfold dotProduct
  refine Finset.sum_congr rfl fun x _ => ?_
  simp only [reflected]
  linear_combination (a x * b x) * sign_sq x.2

theorem sub (a b : Pts n 2) : reflected (a - b) = reflected a - reflected b := by
  funext x; simp only [reflected, Pi.sub_apply]; ring

theorem add (a b : Pts n 2) : reflected (a + b) = reflected a + reflected b := by
  funext x; simp only [reflected, Pi.add_apply]; ring

theorem smul (c : ℝ) (a : Pts n 2) : reflected (c • a) = c • reflected a := by
  funext x; simp only [reflected, Pi.smul_apply, smul_eq_mul]; ring

theorem zero : reflected (0 : Pts n 2) = 0 := by
  funext x; simp only [reflected, Pi.zero_apply, mul_zero]

theorem list_sum (l : List (Pts n 2)) : (l.map reflected).sum = reflected l.sum := by
  induction l with
  | nil => exact zero.symm
  | cons a l ih => rw [List.map_cons, List.sum_cons, List.sum_cons, ih, add]

theorem combine (w : List ℝ) (cs : List (Pts n 2)) : MI.combine w (cs.map reflected) = reflected (MI.combine w cs) := by
  unfold MI.combine
  rw [List.zipWith_map_right, ← list_sum, List.map_zipWith]
  simp only [smul]

theorem projectOn (mean : Pts n 2) (cs : List (Pts n 2)) (x : Pts n 2) :
    MI.projectOn (reflected mean) (cs.map reflected) (reflected x) = MI.projectOn mean cs x := by
  unfold MI.projectOn
  rw [List.map_map]
  refine List.map_congr_left fun c _ => ?_
  simp only [Function.comp, ← sub, dot]

theorem instanceOf (mean : Pts n 2) (cs : List (Pts n 2)) (w : List ℝ) :
    MI.instanceOf (reflected mean) (cs.map reflected) w = (MI.instanceOf mean cs w).map reflected := by
  unfold MI.instanceOf
  rw [List.length_map, combine, ← add]
  split <;> rfl

theorem active (m : Pca n 2) : (reflectedPca m).active = m.active.map reflected := by
  simp [Pca.active, reflectedPca, List.map_take]

theorem active_length (m : Pca n 2) : (reflectedPca m).active.length = m.active.length := by
  rw [active, List.length_map]

theorem project (m : Pca n 2) (x : Pts n 2) : (reflectedPca m).project (reflected x) = m.project x := by
  unfold Pca.project
  rw [active]
  exact projectOn _ _ _

theorem inst (m : Pca n 2) (w : List ℝ) : (reflectedPca m).inst w = (m.inst w).map reflected := by
  unfold Pca.inst
  rw [active]
  exact instanceOf _ _ _

/-! ### Similarities -/

theorem rotatedCcw (p : Pts n 2) : MI.rotatedCcw (reflected p) = -reflected (MI.rotatedCcw p) := by
  funext ij
  obtain ⟨i, j⟩ := ij
  fin_cases j <;> simp [MI.rotatedCcw, reflected, mirrorSign]

theorem similarityComponents (s : Pts n 2) :
    MI.similarityComponents (reflected s) = signedSim ![1, -1, 1, -1] ((MI.similarityComponents s).map reflected) := by
  simp only [MI.similarityComponents, List.map_cons, List.map_nil, signedSim, rotatedCcw]
  simp only [List.getD_cons_zero, List.getD_cons_succ, List.cons.injEq, and_true]
  refine ⟨by simp, by simp, ?_, ?_⟩ <;> funext ij <;> obtain ⟨i, j⟩ := ij <;>
    fin_cases j <;> simp [reflected, flat, mirrorSign]

theorem centroid (p : Pts n 2) (j : Fin 2) : MI.centroid (reflected p) j = mirrorSign j * MI.centroid p j := by
  unfold MI.centroid
  simp only [reflected]
  rw [← Finset.mul_sum, mul_div_assoc]

theorem centred (p : Pts n 2) : MI.centred (reflected p) = reflected (MI.centred p) := by
  funext ij
  simp only [MI.centred, centroid, reflected]
  ring

theorem procrustes (s t : Pts n 2) : MI.procrustes (reflected s) (reflected t) = reflectedSim (MI.procrustes s t) := by
  unfold MI.procrustes
  simp only [centred, rotatedCcw, neg_dotProduct, dot, centroid, neg_sq, reflectedSim, Sim.mk.injEq, sign_zero, sign_one]
  refine ⟨trivial, ?_, ?_, ?_⟩ <;> ring

theorem apply (s : Sim) (p : Pts n 2) : (reflectedSim s).apply (reflected p) = reflected (s.apply p) := by
  funext ij
  obtain ⟨i, j⟩ := ij
  fin_cases j <;> simp [Sim.apply, reflected, reflectedSim, mirrorSign]
  ring

theorem inv (s : Sim) : (reflectedSim s).inv = reflectedSim s.inv := by
  simp only [Sim.inv, reflectedSim, Sim.mk.injEq, neg_sq]
  refine ⟨trivial, ?_, ?_, ?_⟩ <;> ring

/-! ### The similarity components -/

theorem four {M : Type} {l : List M} (h : l.length = 4) : ∃ a b c d, l = [a, b, c, d] := by
  match l, h with
  | [a, b, c, d], _ => exact ⟨a, b, c, d, rfl⟩

theorem signedSim_length {M : Type} [AddCommGroup M] [Module ℝ M] (e : Fin 4 → ℝ) (l : List M) : (signedSim e l).length = 4 := rfl

theorem simProject (e : Fin 4 → ℝ) (mean : Pts n 2) (cs : List (Pts n 2)) (h : cs.length = 4) (x : Pts n 2) :
    MI.projectOn (reflected mean) (signedSim e (cs.map reflected)) (reflected x) = signedSim e (MI.projectOn mean cs x) := by
  obtain ⟨a, b, c, d, rfl⟩ := four h
  simp [MI.projectOn, signedSim, ← sub, dot]

theorem simInstance (he : Signs e) (mean : Pts n 2) (cs : List (Pts n 2)) (h : cs.length = 4) (w : List ℝ)
    (hw : w.length = 4) :
    MI.instanceOf (reflected mean) (signedSim e (cs.map reflected)) (signedSim e w) =
      (MI.instanceOf mean cs w).map reflected := by
  obtain ⟨a, b, c, g, rfl⟩ := four h
  obtain ⟨x, y, z, t, rfl⟩ := four hw
  unfold MI.instanceOf
  simp only [signedSim_length, List.length_cons, List.length_nil, lt_irrefl, if_false, gt_iff_lt, Nat.reduceAdd, Except.map]
  have e0 := Sign.sq he
  congr 1
  have h2 : MI.combine [x, y, z, t] [a, b, c, g] = x • a + (y • b + (z • c + (t • g + 0))) := rfl
  have h3 : MI.combine (signedSim e [x, y, z, t]) (signedSim e ([a, b, c, g].map reflected)) =
      (e 0 * x) • e 0 • reflected a + ((e 1 * y) • e 1 • reflected b + ((e 2 * z) • e 2 • reflected c +
        ((e 3 * t) • e 3 • reflected g + 0))) := rfl
  rw [h2, h3]
  have k : ∀ (i : Fin 4) (u : ℝ) (v : Pts n 2), (e i * u) • e i • v = u • v := fun i u v => by
    rw [smul_smul, mul_right_comm, e0, one_mul]
  simp only [k]
  funext ij
  simp only [reflected, Pi.add_apply, Pi.smul_apply, Pi.zero_apply]
  ring

/-! ### The shape model -/

theorem oTargetOf (e : Fin 4 → ℝ) (p : OPdm n) : MI.oTargetOf (reflectedPdm e p) = (MI.oTargetOf p).map reflected := by
  unfold MI.oTargetOf
  simp only [reflectedPdm, inst]
  cases p.model.inst p.weights with
  | error e => rfl
  | ok t => simp only [Except.map, apply]

theorem oUpdateGlobalWeights (he : Signs e) (p : OPdm n) (h4 : p.simComps.length = 4) (w : List ℝ) (hw : w.length = 4) :
    MI.oUpdateGlobalWeights (reflectedPdm e p) (signedSim e w) =
      (MI.oUpdateGlobalWeights p w).map (reflectedPdm e) := by
  unfold MI.oUpdateGlobalWeights
  have : MI.instanceOf (reflectedPdm e p).simMean (reflectedPdm e p).simComps (signedSim e w) =
      (MI.instanceOf p.simMean p.simComps w).map reflected := simInstance he p.simMean p.simComps h4 w hw
  rw [this]
  cases MI.instanceOf p.simMean p.simComps w with
  | error e => rfl
  | ok t =>
    simp only [Except.map, bind, Except.bind]
    simp only [reflectedPdm, procrustes]

theorem update_comps {p q : OPdm n} {w : List ℝ} (h : MI.oUpdateGlobalWeights p w = .ok q) : q.simComps = p.simComps := by
  unfold MI.oUpdateGlobalWeights at h
  cases hi : MI.instanceOf p.simMean p.simComps w with
  | error e => rw [hi] at h; cases h
  | ok t =>
    rw [hi] at h
    simp only [bind, Except.bind, Except.ok.injEq] at h
    rw [← h]

theorem oSyncState (he : Signs e) (p : OPdm n) (h4 : p.simComps.length = 4) :
    MI.oSyncState (reflectedPdm e p) = (reflectedPdm e (MI.oSyncState p).1, (MI.oSyncState p).2) := by
  unfold MI.oSyncState
  have e1 : MI.projectOn (reflectedPdm e p).simMean (reflectedPdm e p).simComps (reflectedPdm e p).target =
      signedSim e (MI.projectOn p.simMean p.simComps p.target) := simProject e p.simMean p.simComps h4 p.target
  rw [e1, oUpdateGlobalWeights he p h4 _ (by simp [MI.projectOn, h4])]
  cases MI.oUpdateGlobalWeights p (MI.projectOn p.simMean p.simComps p.target) with
  | error e => rfl
  | ok q =>
    simp only [Except.map]
    have e2 : (reflectedPdm e q).model.project ((reflectedPdm e q).glob.inv.apply (reflectedPdm e q).target) =
        q.model.project (q.glob.inv.apply q.target) := by
      simp only [reflectedPdm, inv, apply, project]
    have e3 : { reflectedPdm e q with weights := q.model.project (q.glob.inv.apply q.target) } =
        reflectedPdm e { q with weights := q.model.project (q.glob.inv.apply q.target) } := rfl
    rw [e2, e3, oTargetOf]
    cases MI.oTargetOf { q with weights := q.model.project (q.glob.inv.apply q.target) } <;> rfl

theorem cloud (s : Pts n 2) : reflectedCloud ⟨n, 2, s⟩ = ⟨n, 2, reflected s⟩ := by
  unfold reflectedCloud
  congr 1
  funext ij
  obtain ⟨i, j⟩ := ij
  fin_cases j <;> simp [reflected, mirrorSign]

theorem fit (c : Cloud) : (reflectedCloud c).fit n 2 = (c.fit n 2).map reflected := by
  obtain ⟨n', d', pts⟩ := c
  by_cases h : n' = n ∧ d' = 2
  · obtain ⟨rfl, rfl⟩ := h
    rw [cloud]
    simp [Cloud.fit]
  · unfold Cloud.fit reflectedCloud
    simp only [h, dite_false, Option.map_none]

theorem oSetTarget (he : Signs e) (p : OPdm n) (h4 : p.simComps.length = 4) (c : Cloud) :
    MI.oSetTarget (reflectedPdm e p) (reflectedCloud c) =
      (reflectedPdm e (MI.oSetTarget p c).1, (MI.oSetTarget p c).2) := by
  unfold MI.oSetTarget
  rw [fit]
  cases c.fit n 2 with
  | none => rfl
  | some t => exact oSyncState he { p with target := t } h4

theorem vector_parts (e : Fin 4 → ℝ) (v : List ℝ) (hv : 4 ≤ v.length) :
    (reflectedVector e v).take 4 = signedSim e (v.take 4) ∧ (reflectedVector e v).drop 4 = v.drop 4 := by
  match v, hv with
  | a :: b :: c :: d :: v, _ => exact ⟨rfl, rfl⟩

theorem oFromVector (he : Signs e) (p : OPdm n) (h4 : p.simComps.length = 4) (v : List ℝ) (hv : 4 ≤ v.length) :
    MI.oFromVector (reflectedPdm e p) (reflectedVector e v) = (MI.oFromVector p v).map (reflectedPdm e) := by
  unfold MI.oFromVector
  obtain ⟨h1, h2⟩ := vector_parts e v hv
  simp only [h1, h2, oUpdateGlobalWeights he p h4 (v.take 4) (by simp; omega)]
  cases MI.oUpdateGlobalWeights p (v.take 4) with
  | error e => rfl
  | ok q =>
    simp only [Except.map, bind, Except.bind]
    have e1 : { reflectedPdm e q with weights := v.drop 4 } = reflectedPdm e { q with weights := v.drop 4 } := rfl
    rw [e1, oTargetOf]
    cases MI.oTargetOf { q with weights := v.drop 4 } <;> rfl

theorem oSetActive (he : Signs e) (p : OPdm n) (h4 : p.simComps.length = 4) (k : Int) :
    MI.oSetActive (reflectedPdm e p) k = (reflectedPdm e (MI.oSetActive p k).1, (MI.oSetActive p k).2) := by
  unfold MI.oSetActive
  have e1 : (reflectedPdm e p).model.setActive k = (p.model.setActive k).map reflectedPca := by
    simp only [Pca.setActive, reflectedPdm, reflectedPca, List.length_map]
    split <;> rfl
  rw [e1]
  cases p.model.setActive k with
  | error e => rfl
  | ok m => exact oSyncState he { p with model := m } h4

/-! ### Construction: the model may also come with other signs -/

/-- A shape model with left and right reflected and other signs. -/
noncomputable def both (e : Fin 4 → ℝ) (ε : Nat → ℝ) (p : OPdm n) : OPdm n := flipPdm ε (reflectedPdm e p)

theorem constructSim {ortho : Ortho n} (ho : MirrorBlind ortho) (p p' : OPdm n)
    (hm : p'.model = reflectedPca p.model) (ht : p'.target = reflected p.target)
    (hs : p'.source = reflected p.source) (hg : p'.glob = reflectedSim p.glob) :
    (MI.constructSim ortho p).simComps.length = 4 ∧ ∃ e ε, Signs e ∧ Signs ε ∧
      MI.constructSim ortho p' = both e ε (MI.constructSim ortho p) := by
  obtain ⟨h4, e, ε, he, hε, ho⟩ := ho p.model.mean p.model.comps
  refine ⟨h4, e, ε, he, hε, ?_⟩
  have ho' : ortho (MI.similarityComponents p'.model.mean) p'.model.comps =
      (signedSim e ((ortho (MI.similarityComponents p.model.mean) p.model.comps).1.map reflected),
        flipComps ε ((ortho (MI.similarityComponents p.model.mean) p.model.comps).2.map reflected)) := by
    rw [hm]; exact ho
  unfold MI.constructSim both
  have hmean : p'.model.mean = reflected p.model.mean := by rw [hm]; rfl
  have hact : p'.model.nActive = p.model.nActive := by rw [hm]; rfl
  simp only [ho']
  simp only [hmean, hact, ht, hs, hg, flipPdm, reflectedPdm, flipPca, reflectedPca, Sign.comps_length,
    List.length_map, Sign.weights_zero]
  rw [simProject e p.model.mean _ h4 p.model.mean]
  simp [Pca.active, Sign.comps_length]

theorem both_target {e : Fin 4 → ℝ} {ε : Nat → ℝ} (hε : Signs ε) (p : OPdm n) :
    MI.oTargetOf (both e ε p) = (MI.oTargetOf p).map reflected := by
  unfold both
  rw [Sign.oTargetOf hε, oTargetOf]

theorem newOPdm {ortho : Ortho n} (ho : MirrorBlind ortho) (m : Pca n 2) :
    ∃ e ε, Signs e ∧ Signs ε ∧ MI.newOPdm ortho (reflectedPca m) = (MI.newOPdm ortho m).map (both e ε) := by
  obtain ⟨-, e, ε, he, hε, h⟩ := constructSim ho
    (⟨m, [], m.mean, m.mean, [], [], m.mean, MI.procrustes m.mean m.mean⟩ : OPdm n)
    (⟨reflectedPca m, [], (reflectedPca m).mean, (reflectedPca m).mean, [], [], (reflectedPca m).mean,
      MI.procrustes (reflectedPca m).mean (reflectedPca m).mean⟩ : OPdm n) rfl rfl rfl (procrustes _ _)
  refine ⟨e, ε, he, hε, ?_⟩
  unfold MI.newOPdm
  simp only [h, both_target hε]
  cases MI.oTargetOf (MI.constructSim ortho ⟨m, [], m.mean, m.mean, [], [], m.mean, MI.procrustes m.mean m.mean⟩) <;> rfl

theorem newOPdm_comps {ortho : Ortho n} (ho : MirrorBlind ortho) {m : Pca n 2} {p : OPdm n}
    (h : MI.newOPdm ortho m = .ok p) : p.simComps.length = 4 := by
  unfold MI.newOPdm at h
  simp only [bind, Except.bind] at h
  split at h
  · cases h
  · injection h with h
    rw [← h]
    exact (ho m.mean m.comps).1

theorem both_setTarget {e : Fin 4 → ℝ} {ε : Nat → ℝ} (he : Signs e) (hε : Signs ε) (p : OPdm n)
    (h4 : p.simComps.length = 4) (c : Cloud) :
    MI.oSetTarget (both e ε p) (reflectedCloud c) = (both e ε (MI.oSetTarget p c).1, (MI.oSetTarget p c).2) := by
  unfold both
  rw [Sign.oSetTarget hε, oSetTarget he p h4]

theorem both_setActive {e : Fin 4 → ℝ} {ε : Nat → ℝ} (he : Signs e) (hε : Signs ε) (p : OPdm n)
    (h4 : p.simComps.length = 4) (k : Int) :
    MI.oSetActive (both e ε p) k = (both e ε (MI.oSetActive p k).1, (MI.oSetActive p k).2) := by
  unfold both
  rw [Sign.oSetActive hε, oSetActive he p h4]

theorem both_increment {ortho : Ortho n} (ho : MirrorBlind ortho) {e : Fin 4 → ℝ} {ε : Nat → ℝ} (p : OPdm n)
    (m : Pca n 2) : ∃ e' ε', Signs e' ∧ Signs ε' ∧ MI.oIncrement ortho (both e ε p) (reflectedPca m) =
      (both e' ε' (MI.oIncrement ortho p m).1, (MI.oIncrement ortho p m).2) := by
  obtain ⟨h4, e', ε', he', hε', h⟩ := constructSim ho { p with model := m } { both e ε p with model := reflectedPca m }
    rfl rfl rfl rfl
  refine ⟨e', ε', he', hε', ?_⟩
  unfold MI.oIncrement
  simp only [h]
  have := both_setTarget he' hε' _ h4 ⟨n, 2, p.target⟩
  rw [cloud] at this
  exact this

/-! ### The number of similarity components never changes -/

theorem sync_comps (p : OPdm n) : (MI.oSyncState p).1.simComps = p.simComps := by
  unfold MI.oSyncState
  cases h : MI.oUpdateGlobalWeights p (MI.projectOn p.simMean p.simComps p.target) with
  | error e => rfl
  | ok q =>
    have hq := update_comps h
    simp only
    generalize MI.oTargetOf _ = r
    cases r <;> exact hq

theorem setTarget_comps (p : OPdm n) (c : Cloud) : (MI.oSetTarget p c).1.simComps = p.simComps := by
  unfold MI.oSetTarget
  cases c.fit n 2 with
  | none => rfl
  | some t => exact sync_comps _

theorem setActive_comps (p : OPdm n) (k : Int) : (MI.oSetActive p k).1.simComps = p.simComps := by
  unfold MI.oSetActive
  cases p.model.setActive k with
  | error e => rfl
  | ok m => exact sync_comps _

theorem increment_comps {ortho : Ortho n} (ho : MirrorBlind ortho) (p : OPdm n) (m : Pca n 2) :
    (MI.oIncrement ortho p m).1.simComps.length = 4 := by
  unfold MI.oIncrement
  rw [setTarget_comps]
  exact (ho m.mean m.comps).1

end Mirror
end Menpofit
