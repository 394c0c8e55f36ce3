import Verif.Lemmas.ModelDriven
import Verif.Lemmas.Homogeneous
import Verif.Model.Warps
/-!
# C70, C76: orthogonal model-driven transforms, and what setting parameters does
-/

namespace Menpofit
open MI Homog MDT Spec

theorem oFromVector_inplace {n : Nat} (p : OPdm n) (v : List ℝ) :
    oFromVector p v = match oFromVectorInplace p v with
      | (_, .error e) => .error e
      | (q, .ok _) => .ok q := by
  unfold oFromVector oFromVectorInplace
  cases oUpdateGlobalWeights p (v.take 4) with
  | error e => rfl
  | ok p1 =>
    simp only [bind, Except.bind]
    cases oTargetOf { p1 with weights := v.drop 4 } <;> rfl

theorem gFromVector_inplace {n : Nat} (p : GPdm (Pts n 2 × Sim) n 2) (v : List ℝ) :
    gFromVector (alignmentSimilarity n) p v = match gFromVectorInplace p v with
      | (_, .error e) => .error e
      | (q, .ok _) => .ok q := by
  unfold gFromVector gFromVectorInplace
  have : (alignmentSimilarity n).nParams = 4 := rfl
  rw [this]
  cases (alignmentSimilarity n).ofVec p.glob (v.take 4) with
  | error e => rfl
  | ok g =>
    simp only [bind, Except.bind]
    cases gTargetOf (alignmentSimilarity n) { p with glob := g, weights := v.drop 4 } <;> rfl

/-- C76: setting the parameters of a model-driven transform makes its shape model the one that `from_vector` returns and
moves the warp to the shape of that model; it raises exactly when `from_vector` raises. -/
theorem C76_from_vector {n : Nat} (v : List ℝ) :
    (∀ (d : Nat) (s : Md (Pdm n d) n d), match fromVector s.pdm v with
      | .error e => (MDT.fromVectorInplace (plain n d) s v).2 = .error e
      | .ok q => MDT.fromVectorInplace (plain n d) s v = (⟨q, q.target, s.cached⟩, .ok ())) ∧
    (∀ s : Md (GPdm (Pts n 2 × Sim) n 2) n 2, match gFromVector (alignmentSimilarity n) s.pdm v with
      | .error e => (MDT.fromVectorInplace (glob n) s v).2 = .error e
      | .ok q => MDT.fromVectorInplace (glob n) s v = (⟨q, q.target, s.cached⟩, .ok ())) ∧
    (∀ s : Md (OPdm n) n 2, match oFromVector s.pdm v with
      | .error e => (MDT.fromVectorInplace (ortho n) s v).2 = .error e
      | .ok q => MDT.fromVectorInplace (ortho n) s v = (⟨q, q.target, s.cached⟩, .ok ())) := by
  refine ⟨fun d s => ?_, fun s => ?_, fun s => ?_⟩
  · unfold MDT.fromVectorInplace fromVector
    simp only [plain]
    rcases MI.fromVectorInplace s.pdm v with ⟨q, _ | _⟩ <;> rfl
  · rw [gFromVector_inplace]
    unfold MDT.fromVectorInplace
    simp only [glob]
    rcases gFromVectorInplace s.pdm v with ⟨q, _ | _⟩ <;> rfl
  · rw [oFromVector_inplace]
    unfold MDT.fromVectorInplace
    simp only [ortho]
    rcases oFromVectorInplace s.pdm v with ⟨q, _ | _⟩ <;> rfl

/-- Composition for any kind of shape model that accepts every parameter vector of the right length. -/
theorem compose_least_squares {Q : Type} {n : Nat} (o : Ops Q n 2) (s : Md Q n 2) (delta : List ℝ) (k : Nat)
    (hk : o.nParams s.pdm = k) (hd : delta.length = k) (ha : (o.asVector s.pdm).length = k) (jac jac0 : Jac n 2)
    (hj : o.ddp s.pdm = .ok jac) (hj0 : o.ddp0 s.pdm = .ok jac0) (hi : Independent k jac)
    (hset : ∀ v : List ℝ, v.length = k → ∃ q, o.fromVectorInplace s.pdm v = (q, .ok ()) ∧ o.asVector q = v) :
    ∃ (s' : Md Q n 2) (inc : Fin k → ℝ), compose o "ilk" (fun _ => identityDx n 2) s delta = (s', .ok ()) ∧
      UniqueMin (mismatch jac jac0 (identityDx n 2) fun i => delta.getD i 0) inc ∧
      (∀ i : Fin k, (o.asVector s'.pdm).getD i 0 = (o.asVector s.pdm).getD i 0 + inc i) ∧
      (o.asVector s'.pdm).length = k ∧ s'.warpTarget = o.target s'.pdm := by
  obtain ⟨inc, hinc, hmin⟩ := increment_min jac jac0 hi delta hd
  obtain ⟨v, hv⟩ : ∃ v, v = List.zipWith (· + ·) (o.asVector s.pdm) (List.ofFn inc) := ⟨_, rfl⟩
  have hadd : addVec (o.asVector s.pdm) (List.ofFn inc) = .ok v := by
    rw [addVec, if_pos (by simp [ha]), hv]
  have hvl : v.length = k := by simp [hv, ha]
  obtain ⟨q, hq, hqv⟩ := hset v hvl
  refine ⟨⟨q, o.target q, s.cached⟩, inc, ?_, hmin, fun i => ?_, ?_, rfl⟩
  · simp only [compose, hj0, hj, hk, hinc, hadd, bind, Except.bind, MDT.fromVectorInplace, hq]
  · have h1 : (i : Nat) < v.length := by rw [hvl]; exact i.isLt
    have h2 : (i : Nat) < (o.asVector s.pdm).length := by rw [ha]; exact i.isLt
    simp only [hqv, List.getD_eq_getElem?_getD, List.getElem?_eq_getElem h1, List.getElem?_eq_getElem h2,
      Option.getD_some]
    simp [hv]
  · rw [hqv, hvl]

/-- C70 (part) for orthogonal model-driven transforms over a piecewise affine warp: composing with an increment of the
right length succeeds, changes the parameters by the unique least-squares solution of the first-order condition, and
moves the warp to the new target of the shape model.  Missing: other warps, and equality with the actual
composition. -/
theorem C70_ortho_partial {n : Nat} (s : Md (OPdm n) n 2) (delta : List ℝ) (k : Nat)
    (hk : k = 4 + s.pdm.model.active.length) (hd : delta.length = k)
    (hw : s.pdm.weights.length = s.pdm.model.active.length) (hs : s.pdm.simWeights.length = 4)
    (hc : s.pdm.simComps.length = 4) (hi : Independent k (opdmDdp s.pdm)) :
    ∃ (s' : Md (OPdm n) n 2) (inc : Fin k → ℝ), omdCompose (fun _ => identityDx n 2) s delta = (s', .ok ()) ∧
      UniqueMin (mismatch (opdmDdp s.pdm)
        (fun i l r => ((s.pdm.simComps ++ s.pdm.model.active).getD l 0) (i, r)) (identityDx n 2)
        fun i => delta.getD i 0) inc ∧
      (∀ i : Fin k, (oAsVector s'.pdm).getD i 0 = (oAsVector s.pdm).getD i 0 + inc i) ∧
      (oAsVector s'.pdm).length = k ∧ s'.warpTarget = s'.pdm.target := by
  refine compose_least_squares (ortho n) s delta k hk.symm hd ?_ (opdmDdp s.pdm) _ rfl ?_ hi ?_
  · simp [ortho, oAsVector, hw, hs, hk]
  · simp only [ortho, Except.ok.injEq]
    funext i l r
    by_cases h : l < 4
    · rw [if_pos h]
      simp only [List.getD_eq_getElem?_getD]
      rw [List.getElem?_append_left (by omega)]
    · rw [if_neg h, pdmDdp]
      simp only [List.getD_eq_getElem?_getD]
      rw [List.getElem?_append_right (by omega), hc]
  · intro v hv
    have h4 : (v.take 4).length ≤ s.pdm.simComps.length := by simp; omega
    have hlen : (v.drop 4).length ≤ s.pdm.model.active.length := by simp; omega
    obtain ⟨t, ht⟩ : ∃ t, instanceOf s.pdm.simMean s.pdm.simComps (v.take 4) = .ok t :=
      ⟨_, by rw [instanceOf_ok]; exact ⟨h4, rfl⟩⟩
    obtain ⟨u, hu⟩ : ∃ u, s.pdm.model.inst (v.drop 4) = .ok u := ⟨_, by rw [Pca.inst, instanceOf_ok]; exact ⟨hlen, rfl⟩⟩
    refine ⟨{ s.pdm with
      simWeights := v.take 4
      glob := procrustes s.pdm.source t
      weights := v.drop 4
      target := (procrustes s.pdm.source t).apply u }, ?_, ?_⟩
    · simp only [ortho, oFromVectorInplace, oUpdateGlobalWeights, ht, bind, Except.bind, oTargetOf, hu, Except.map]
    · simp only [ortho, oAsVector, List.take_append_drop]

/-- C70: composed onto an orthogonal model-driven transform whose similarity is the identity, the increment is added as it
is. -/
theorem C70_ortho_identity {n : Nat} (s : Md (OPdm n) n 2) (delta : List ℝ) (k : Nat)
    (hk : k = 4 + s.pdm.model.active.length) (hd : delta.length = k)
    (hw : s.pdm.weights.length = s.pdm.model.active.length) (hs : s.pdm.simWeights.length = 4)
    (hc : s.pdm.simComps.length = 4) (hi : Independent k (opdmDdp s.pdm)) (ha : s.pdm.glob.a = 1) (hb : s.pdm.glob.b = 0) :
    ∃ s', omdCompose (fun _ => identityDx n 2) s delta = (s', .ok ()) ∧
      ∀ i : Fin k, (oAsVector s'.pdm).getD i 0 = (oAsVector s.pdm).getD i 0 + delta.getD i 0 := by
  have hjac : (fun (i : Fin n) (l : Nat) (r : Fin 2) => ((s.pdm.simComps ++ s.pdm.model.active).getD l 0) (i, r)) =
      opdmDdp s.pdm := by
    funext i l r
    simp only [opdmDdp, gpdmDdp]
    by_cases h : l < 4
    · rw [if_pos h]
      simp only [List.getD_eq_getElem?_getD]
      rw [List.getElem?_append_left (by omega)]
    · rw [if_neg h, pdmDdp]
      simp only [List.getD_eq_getElem?_getD]
      rw [List.getElem?_append_right (by omega), hc]
      match r with
      | 0 => simp [simDdx, ha, hb]
      | 1 => simp [simDdx, ha, hb]
  obtain ⟨s', inc, h1, h2, h3, -⟩ := C70_ortho_partial s delta k hk hd hw hs hc hi
  rw [hjac] at h2
  refine ⟨s', h1, fun i => ?_⟩
  rw [h3 i]
  congr 1
  have hz : ∀ x : Fin k → ℝ, mismatch (opdmDdp s.pdm) (opdmDdp s.pdm) (identityDx n 2) x x = 0 := by
    intro x
    simp [mismatch, identityDx]
  have hnn : ∀ x : Fin k → ℝ, 0 ≤ mismatch (opdmDdp s.pdm) (opdmDdp s.pdm) (identityDx n 2) (fun i => delta.getD i 0) x := by
    intro x
    exact Finset.sum_nonneg fun i _ => Finset.sum_nonneg fun r _ => sq_nonneg _
  obtain ⟨hle, heq⟩ := h2 fun i => delta.getD i 0
  rw [hz] at hle heq
  have := heq (le_antisymm hle (hnn _)).symm
  exact (congrFun this i).symm

/-- Two points whose similarity components are the four unit vectors, at the identity, with no further component: the
hypotheses of the two theorems are met. -/
example : ∃ p : OPdm 2, p.weights.length = p.model.active.length ∧ p.simWeights.length = 4 ∧ p.simComps.length = 4 ∧
    4 = 4 + p.model.active.length ∧ Independent 4 (opdmDdp p) ∧ p.glob.a = 1 ∧ p.glob.b = 0 := by
  refine ⟨⟨⟨0, [], 0⟩, [], 0, 0, [fun x => if x = (0, 0) then 1 else 0, fun x => if x = (0, 1) then 1 else 0,
    fun x => if x = (1, 0) then 1 else 0, fun x => if x = (1, 1) then 1 else 0], [0, 0, 0, 0], 0, ⟨1, 0, 0, 0⟩⟩, rfl, rfl,
    rfl, rfl, ?_, rfl, rfl⟩
  intro v h
  have a := h 0 0
  have b := h 0 1
  have c := h 1 0
  have e := h 1 1
  rw [Fin.sum_univ_four] at a b c e
  simp [opdmDdp, gpdmDdp] at a b c e
  funext i
  match i with
  | 0 => exact a
  | 1 => exact b
  | 2 => exact c
  | 3 => exact e

end Menpofit
