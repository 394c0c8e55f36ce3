import Verif.Spec.Signs
import Verif.Lemmas.Turned
import Verif.Model.SharedModel
/-!
# Lemmas: the signs of principal components
-/

namespace Menpofit
namespace Sign
open MI Spec Matrix

variable {n d : Nat} {ε : Nat → ℝ}

theorem sq {ι : Type} {ε : ι → ℝ} (h : Signs ε) (i : ι) : ε i * ε i = 1 := by
  rcases h i with e | e <;> rw [e] <;> norm_num

theorem comps_length (ε : Nat → ℝ) (cs : List (Pts n d)) : (flipComps ε cs).length = cs.length := by
  simp [flipComps]

theorem weights_length (ε : Nat → ℝ) (w : List ℝ) : (flipWeights ε w).length = w.length := by
  simp [flipWeights]

theorem weights_shift (ε : Nat → ℝ) (x : ℝ) (w : List ℝ) :
    flipWeights ε (x :: w) = ε 0 * x :: flipWeights (fun i => ε (i + 1)) w := by
  simp [flipWeights, List.mapIdx_cons]

theorem comps_shift (ε : Nat → ℝ) (c : Pts n d) (cs : List (Pts n d)) :
    flipComps ε (c :: cs) = ε 0 • c :: flipComps (fun i => ε (i + 1)) cs := by
  simp [flipComps, List.mapIdx_cons]

theorem combine (h : Signs ε) (w : List ℝ) (cs : List (Pts n d)) :
    MI.combine (flipWeights ε w) (flipComps ε cs) = MI.combine w cs := by
  induction w generalizing ε cs with
  | nil => simp [MI.combine, flipWeights]
  | cons x w ih =>
    cases cs with
    | nil => simp [MI.combine, flipComps]
    | cons c cs =>
      have := ih (ε := fun i => ε (i + 1)) (fun i => h (i + 1)) cs
      unfold MI.combine at this ⊢
      rw [weights_shift, comps_shift, List.zipWith_cons_cons, List.zipWith_cons_cons, List.sum_cons, List.sum_cons, this,
        smul_smul]
      congr 2
      rw [mul_right_comm, sq h, one_mul]

theorem projectOn (ε : Nat → ℝ) (mean : Pts n d) (cs : List (Pts n d)) (x : Pts n d) :
    MI.projectOn mean (flipComps ε cs) x = flipWeights ε (MI.projectOn mean cs x) := by
  unfold MI.projectOn
  induction cs generalizing ε with
  | nil => rfl
  | cons c cs ih =>
    rw [comps_shift, List.map_cons, List.map_cons, ih, weights_shift]
    congr 1
    rw [smul_dotProduct, smul_eq_mul]

theorem instanceOf (h : Signs ε) (mean : Pts n d) (cs : List (Pts n d)) (w : List ℝ) :
    MI.instanceOf mean (flipComps ε cs) (flipWeights ε w) = MI.instanceOf mean cs w := by
  unfold MI.instanceOf
  rw [comps_length, weights_length, combine h]

theorem take (ε : Nat → ℝ) (k : Nat) (cs : List (Pts n d)) : (flipComps ε cs).take k = flipComps ε (cs.take k) := by
  induction k generalizing ε cs with
  | zero => simp [flipComps]
  | succ k ih =>
    cases cs with
    | nil => simp [flipComps]
    | cons c cs => rw [comps_shift, List.take_succ_cons, List.take_succ_cons, comps_shift, ih]

theorem active (ε : Nat → ℝ) (m : Pca n d) : (flipPca ε m).active = flipComps ε m.active := by
  simp only [Pca.active, flipPca, take]

theorem active_length (ε : Nat → ℝ) (m : Pca n d) : (flipPca ε m).active.length = m.active.length := by
  rw [active, comps_length]

theorem project (ε : Nat → ℝ) (m : Pca n d) (x : Pts n d) : (flipPca ε m).project x = flipWeights ε (m.project x) := by
  unfold Pca.project
  rw [active]
  exact projectOn ε _ _ _

theorem inst (h : Signs ε) (m : Pca n d) (w : List ℝ) : (flipPca ε m).inst (flipWeights ε w) = m.inst w := by
  unfold Pca.inst
  rw [active]
  exact instanceOf h _ _ _

theorem oTargetOf (h : Signs ε) (p : OPdm n) : MI.oTargetOf (flipPdm ε p) = MI.oTargetOf p := by
  unfold MI.oTargetOf
  simp only [flipPdm, inst h]

theorem oUpdateGlobalWeights (ε : Nat → ℝ) (p : OPdm n) (w : List ℝ) :
    MI.oUpdateGlobalWeights (flipPdm ε p) w = (MI.oUpdateGlobalWeights p w).map (flipPdm ε) := by
  unfold MI.oUpdateGlobalWeights
  simp only [flipPdm]
  cases MI.instanceOf p.simMean p.simComps w with
  | error e => rfl
  | ok t => simp only [Except.map, bind, Except.bind]; rfl

theorem oSyncState (h : Signs ε) (p : OPdm n) :
    MI.oSyncState (flipPdm ε p) = (flipPdm ε (MI.oSyncState p).1, (MI.oSyncState p).2) := by
  unfold MI.oSyncState
  have e : MI.projectOn (flipPdm ε p).simMean (flipPdm ε p).simComps (flipPdm ε p).target =
      MI.projectOn p.simMean p.simComps p.target := rfl
  rw [e, oUpdateGlobalWeights ε]
  cases MI.oUpdateGlobalWeights p (MI.projectOn p.simMean p.simComps p.target) with
  | error e => rfl
  | ok q =>
    simp only [Except.map]
    have e1 : { flipPdm ε q with
        weights := (flipPdm ε q).model.project ((flipPdm ε q).glob.inv.apply (flipPdm ε q).target) } =
        flipPdm ε { q with weights := q.model.project (q.glob.inv.apply q.target) } := by
      simp only [flipPdm, project]
    have e2 : (flipPdm ε q).model.project ((flipPdm ε q).glob.inv.apply (flipPdm ε q).target) =
        flipWeights ε (q.model.project (q.glob.inv.apply q.target)) := by
      simp only [flipPdm, project]
    rw [e1, oTargetOf h, e2]
    cases MI.oTargetOf { q with weights := q.model.project (q.glob.inv.apply q.target) } <;> rfl

theorem oSetTarget (h : Signs ε) (p : OPdm n) (c : Cloud) :
    MI.oSetTarget (flipPdm ε p) c = (flipPdm ε (MI.oSetTarget p c).1, (MI.oSetTarget p c).2) := by
  unfold MI.oSetTarget
  cases c.fit n 2 with
  | none => rfl
  | some t => exact oSyncState h { p with target := t }

theorem vector_parts (ε : Nat → ℝ) (v : List ℝ) :
    (flipVector ε v).take 4 = v.take 4 ∧ (flipVector ε v).drop 4 = flipWeights ε (v.drop 4) := by
  unfold flipVector
  rcases Nat.lt_or_ge v.length 4 with h | h
  · have e : v.drop 4 = [] := List.drop_eq_nil_of_le (by omega)
    rw [e]
    simp [flipWeights, List.take_take]
  · have hl : (v.take 4).length = 4 := by simp; omega
    exact ⟨List.take_left' hl, List.drop_left' hl⟩

theorem oFromVector (h : Signs ε) (p : OPdm n) (v : List ℝ) :
    MI.oFromVector (flipPdm ε p) (flipVector ε v) = (MI.oFromVector p v).map (flipPdm ε) := by
  unfold MI.oFromVector
  obtain ⟨h1, h2⟩ := vector_parts ε v
  simp only [h1, h2, oUpdateGlobalWeights ε]
  cases MI.oUpdateGlobalWeights p (v.take 4) with
  | error e => rfl
  | ok q =>
    simp only [Except.map, bind, Except.bind]
    have e1 : { flipPdm ε q with weights := flipWeights ε (v.drop 4) } = flipPdm ε { q with weights := v.drop 4 } := rfl
    rw [e1, oTargetOf h]
    cases MI.oTargetOf { q with weights := v.drop 4 } <;> rfl

theorem oSetActive (h : Signs ε) (p : OPdm n) (k : Int) :
    MI.oSetActive (flipPdm ε p) k = (flipPdm ε (MI.oSetActive p k).1, (MI.oSetActive p k).2) := by
  unfold MI.oSetActive
  have e : (flipPdm ε p).model.setActive k = (p.model.setActive k).map (flipPca ε) := by
    simp only [Pca.setActive, flipPdm, flipPca, comps_length]
    split <;> rfl
  rw [e]
  cases p.model.setActive k with
  | error e => rfl
  | ok m => exact oSyncState h { p with model := m }

theorem weights_zero (ε : Nat → ℝ) (k : Nat) : flipWeights ε (List.replicate k 0) = List.replicate k 0 := by
  induction k generalizing ε with
  | zero => rfl
  | succ k ih => rw [List.replicate_succ, weights_shift, ih, mul_zero]

theorem constructSim {ortho : Ortho n} (ho : SignBlind ortho) (h : Signs ε) (p : OPdm n) (w : List ℝ) :
    ∃ ε', Signs ε' ∧ MI.constructSim ortho { p with model := flipPca ε p.model, weights := w } =
      flipPdm ε' (MI.constructSim ortho p) := by
  obtain ⟨ε', hs, he⟩ := ho ε h (MI.similarityComponents p.model.mean) p.model.comps
  refine ⟨ε', hs, ?_⟩
  unfold MI.constructSim
  simp only [flipPdm, flipPca, he, comps_length, weights_zero]
  congr 2
  simp [Pca.active, comps_length]

theorem newOPdm {ortho : Ortho n} (ho : SignBlind ortho) (h : Signs ε) (m : Pca n 2) :
    ∃ ε', Signs ε' ∧ MI.newOPdm ortho (flipPca ε m) = (MI.newOPdm ortho m).map (flipPdm ε') := by
  obtain ⟨ε', hs, he⟩ := constructSim ho h
    (⟨m, [], m.mean, m.mean, [], [], m.mean, MI.procrustes m.mean m.mean⟩ : OPdm n) []
  refine ⟨ε', hs, ?_⟩
  unfold MI.newOPdm
  have e : (⟨flipPca ε m, [], (flipPca ε m).mean, (flipPca ε m).mean, [], [], (flipPca ε m).mean,
      MI.procrustes (flipPca ε m).mean (flipPca ε m).mean⟩ : OPdm n) =
      { (⟨m, [], m.mean, m.mean, [], [], m.mean, MI.procrustes m.mean m.mean⟩ : OPdm n) with
        model := flipPca ε m, weights := [] } := rfl
  simp only [e, he, oTargetOf hs]
  cases MI.oTargetOf (MI.constructSim ortho ⟨m, [], m.mean, m.mean, [], [], m.mean, MI.procrustes m.mean m.mean⟩) <;> rfl

theorem oIncrement {ortho : Ortho n} (ho : SignBlind ortho) {ε ε₂ : Nat → ℝ} (h2 : Signs ε₂) (p : OPdm n) (m : Pca n 2) :
    ∃ ε', Signs ε' ∧ MI.oIncrement ortho (flipPdm ε p) (flipPca ε₂ m) =
      (flipPdm ε' (MI.oIncrement ortho p m).1, (MI.oIncrement ortho p m).2) := by
  obtain ⟨ε', hs, he⟩ := constructSim ho h2 { p with model := m } (flipWeights ε p.weights)
  refine ⟨ε', hs, ?_⟩
  unfold MI.oIncrement
  have e : MI.constructSim ortho { flipPdm ε p with model := flipPca ε₂ m } =
      flipPdm ε' (MI.constructSim ortho { p with model := m }) := he
  simp only [e, oSetTarget hs]
  rfl

/-! ### Parameter vectors -/

theorem vector_eq (ε : Nat → ℝ) (v : List ℝ) : flipVector ε v = v.mapIdx fun i x => paramSign ε i * x := by
  apply List.ext_getElem
  · simp only [flipVector, List.length_append, List.length_take, weights_length, List.length_drop, List.length_mapIdx]
    omega
  · intro i h1 h2
    have hv : i < v.length := by simpa using h2
    simp only [flipVector, List.getElem_mapIdx]
    by_cases hi : i < 4
    · rw [List.getElem_append_left (by simp; omega)]
      simp [paramSign, hi]
    · rw [List.getElem_append_right (by simp; omega)]
      have hl : (v.take 4).length = 4 := by simp; omega
      simp only [flipWeights, List.getElem_mapIdx, hl, List.getElem_drop, paramSign, if_neg hi]
      congr 2
      omega

theorem paramSign_signs (h : Signs ε) : Signs (paramSign ε) := by
  intro i
  unfold paramSign
  split_ifs
  · exact Or.inl rfl
  · exact h _

theorem nPar (ε : Nat → ℝ) (M : OPdm n) : Place.nPar (flipPdm ε M) = Place.nPar M :=
  congrArg (4 + ·) (active_length ε M.model)

theorem sim_length (M : OPdm n) (h4 : M.simComps.length = 4) (s : Pts n 2) :
    (MI.oSetTarget M ⟨n, 2, s⟩).1.simWeights.length = 4 := by
  have hf : Cloud.fit ⟨n, 2, s⟩ n 2 = some s := by simp [Cloud.fit]
  unfold MI.oSetTarget
  rw [hf]
  simp only [MI.oSyncState, MI.oUpdateGlobalWeights]
  have hl : (MI.projectOn M.simMean M.simComps s).length = 4 := by simp [MI.projectOn, h4]
  cases hi : MI.instanceOf M.simMean M.simComps (MI.projectOn M.simMean M.simComps s) with
  | error e =>
    unfold MI.instanceOf at hi
    rw [if_neg (by omega)] at hi
    cases hi
  | ok t =>
    simp only [bind, Except.bind]
    generalize MI.oTargetOf _ = r
    cases r <;> exact hl

theorem getD_weights (ε : Nat → ℝ) (w : List ℝ) (i : Nat) : (flipWeights ε w).getD i 0 = ε i * w.getD i 0 := by
  simp only [List.getD_eq_getElem?_getD, flipWeights, List.getElem?_mapIdx]
  cases w[i]? <;> simp

theorem getD_comps (ε : Nat → ℝ) (cs : List (Pts n d)) (i : Nat) : (flipComps ε cs).getD i 0 = ε i • cs.getD i 0 := by
  simp only [List.getD_eq_getElem?_getD, flipComps, List.getElem?_mapIdx]
  cases cs[i]? <;> simp

theorem asVector (ε : Nat → ℝ) (q : OPdm n) (h : q.simWeights.length = 4) (i : Nat) :
    (MI.oAsVector (flipPdm ε q)).getD i 0 = paramSign ε i * (MI.oAsVector q).getD i 0 := by
  unfold MI.oAsVector
  simp only [flipPdm]
  by_cases hi : i < 4
  · rw [List.getD_append _ _ _ _ (by omega), List.getD_append _ _ _ _ (by omega), paramSign, if_pos hi, one_mul]
  · rw [List.getD_append_right _ _ _ _ (by omega), List.getD_append_right _ _ _ _ (by omega), getD_weights, h, paramSign,
      if_neg hi]

theorem params (hs : Signs ε) (M : OPdm n) (h4 : M.simComps.length = 4) (s : Pts n 2) (i : Fin (Place.nPar M)) :
    Place.pdmParams (flipPdm ε M) s (Fin.cast (nPar ε M).symm i) = paramSign ε i * Place.pdmParams M s i := by
  unfold Place.pdmParams
  rw [oSetTarget hs]
  exact asVector ε _ (sim_length M h4 s) _

theorem ofFn_vector (ε : Nat → ℝ) {k : Nat} (v : Fin k → ℝ) :
    List.ofFn (fun i : Fin k => paramSign ε i * v i) = flipVector ε (List.ofFn v) := by
  rw [vector_eq]
  apply List.ext_getElem <;> simp

theorem ofFn_cast {k k' : Nat} (h : k' = k) (v : Fin k → ℝ) :
    List.ofFn (fun i : Fin k' => v (Fin.cast h i)) = List.ofFn v := by
  subst h; rfl

theorem shape (hs : Signs ε) (M : OPdm n) (v : Fin (Place.nPar M) → ℝ) :
    Place.pdmShape (flipPdm ε M) (fun i => paramSign ε i * v (Fin.cast (nPar ε M) i)) = Place.pdmShape M v := by
  unfold Place.pdmShape
  have e := ofFn_cast (nPar ε M) fun i => paramSign ε i * v i
  simp only [Fin.val_cast] at e
  rw [e, ofFn_vector, oFromVector hs]
  cases MI.oFromVector M (List.ofFn v) <;> rfl

theorem jacobian (ε : Nat → ℝ) (M : OPdm n) {k k' : Nat} (h : k' = k) :
    Shared.jacobian (flipPdm ε M) k' = flipCols ε h (Shared.jacobian M k) := by
  subst h
  ext r c
  simp only [Shared.jacobian, flipCols, Matrix.of_apply, Homog.opdmDdp, Homog.gpdmDdp, Homog.pdmDdp]
  rw [show (flipPdm ε M).model.active = flipComps ε M.model.active from active ε M.model,
    show (flipPdm ε M).simComps = M.simComps from rfl, getD_comps]
  simp only [Fin.val_cast, paramSign]
  split_ifs
  · rw [one_mul]
  · simp only [Pi.smul_apply, smul_eq_mul]
    rw [mul_left_comm]
    rfl

/-! ### The change of parameters as an orthogonal matrix -/

/-- The diagonal matrix of the signs. -/
noncomputable def mat (ε : Nat → ℝ) (k : Nat) : Matrix (Fin k) (Fin k) ℝ := diagonal fun i => paramSign ε i

theorem diag_orth {k : Nat} {e : Fin k → ℝ} (h : Signs e) : diagonal e * (diagonal e)ᵀ = 1 := by
  rw [diagonal_transpose, diagonal_mul_diagonal]
  have : (fun i => e i * e i) = fun _ => 1 := funext fun i => sq h i
  rw [this, diagonal_one]

theorem mat_signs (hs : Signs ε) (k : Nat) : Signs fun i : Fin k => paramSign ε i :=
  fun i => paramSign_signs hs i

theorem diag_vec {k : Nat} (e v : Fin k → ℝ) : diagonal e *ᵥ v = fun i => e i * v i := by
  funext i; rw [mulVec_diagonal]

theorem mul_diag {m k : Nat} (e : Fin k → ℝ) (J : Matrix (Fin m) (Fin k) ℝ) :
    J * (diagonal e)ᵀ = of fun r i => e i * J r i := by
  ext r i
  rw [diagonal_transpose, mul_diagonal, of_apply, mul_comm]

theorem diag_mul {m k : Nat} (e : Fin k → ℝ) (J : Matrix (Fin k) (Fin m) ℝ) :
    diagonal e * J = of fun i r => e i * J i r := by
  ext r i
  rw [diagonal_mul, of_apply]

theorem diag_comm {k : Nat} (e P : Fin k → ℝ) : diagonal P * diagonal e = diagonal e * diagonal P := by
  rw [diagonal_mul_diagonal, diagonal_mul_diagonal]
  congr 1
  funext i
  exact mul_comm _ _

end Sign
end Menpofit
