import Verif.Lemmas.ModelInstanceState
import Mathlib.Analysis.SpecialFunctions.Complex.Arg
/-!
# C41–C44, C75: model instances and point distribution models
-/

namespace Menpofit
open MI Spec Matrix

/-! ## C41 -/

/-- C41: the instances of the similarity model of a shape are exactly its similarity images. -/
theorem C41_similarity_instances {n : Nat} (p q : Pts n 2) :
    (∃ w, instanceOf p (similarityComponents p) w = .ok q) ↔ SimilarityImage p q := by
  have key : ∀ a b tx ty : ℝ, SimilarityImage p ((⟨1 + a, b, tx, ty⟩ : Sim).apply p) := by
    intro a b tx ty
    obtain ⟨z, hz⟩ : ∃ z : ℂ, z = ⟨1 + a, b⟩ := ⟨_, rfl⟩
    have hc := Complex.norm_mul_cos_arg z
    have hs := Complex.norm_mul_sin_arg z
    refine ⟨‖z‖, Complex.arg z, tx, ty, norm_nonneg z, fun i => ?_, fun i => ?_⟩
    · simp only [Sim.apply, if_true]
      rw [mul_sub, ← mul_assoc, ← mul_assoc, hc, hs, hz]
    · simp only [Sim.apply, if_neg (by decide : ¬ (1 : Fin 2) = 0)]
      rw [mul_add, ← mul_assoc, ← mul_assoc, hc, hs, hz]
  constructor
  · rintro ⟨w, hw⟩
    have hl : w.length ≤ 4 := by simpa [similarityComponents] using (instanceOf_ok.1 hw).1
    -- pad with zeros
    have pad : ∃ a b tx ty, instanceOf p (similarityComponents p) [a, b, tx, ty] = .ok q := by
      obtain ⟨-, hq⟩ := instanceOf_ok.1 hw
      refine ⟨w.getD 0 0, w.getD 1 0, w.getD 2 0, w.getD 3 0, ?_⟩
      rw [instanceOf_ok]
      refine ⟨by simp [similarityComponents], ?_⟩
      rw [hq]; congr 1
      match w, hl with
      | [], _ => simp [similarityComponents]
      | [a], _ => simp [similarityComponents]
      | [a, b], _ => simp [similarityComponents]
      | [a, b, c], _ => simp [similarityComponents]
      | [a, b, c, e], _ => simp [similarityComponents]
    obtain ⟨a, b, tx, ty, h⟩ := pad
    rw [sim_instance] at h
    injection h with h
    rw [← h]; exact key a b tx ty
  · rintro ⟨s, θ, tx, ty, _, h0, h1⟩
    refine ⟨[s * Real.cos θ - 1, s * Real.sin θ, tx, ty], ?_⟩
    rw [sim_instance]
    congr 1
    funext ⟨i, j⟩
    match j with
    | 0 => simp only [Sim.apply, if_true]; rw [h0]; ring
    | 1 => simp only [Sim.apply, if_neg (by decide : ¬ (1 : Fin 2) = 0)]; rw [h1]; ring

/-- C41: zero weights give the shape itself. -/
theorem C41_zero_weights {n : Nat} (p : Pts n 2) :
    instanceOf p (similarityComponents p) [0, 0, 0, 0] = .ok p := by
  rw [instanceOf_ok]; simp [similarityComponents]

/-- Turning the shape by 90 degrees and moving it is an instance. -/
example : SimilarityImage (n := 2) (fun ij => if ij.1 = 0 ∧ ij.2 = 0 then 1 else 0)
    (fun ij => if ij.1 = 0 ∧ ij.2 = 1 then 8 else 7) :=
  (C41_similarity_instances _ _).1 ⟨[-1, 1, 7, 7], by
    rw [sim_instance]; congr 1
    funext ⟨i, j⟩
    fin_cases i <;> fin_cases j <;> norm_num [Sim.apply]⟩

/-! ## C42 -/

/-- C42, PDM: after any sequence of operations the target is what the model generates from the
current weights, and writing the parameters back changes nothing. -/
theorem C42_pdm {n d : Nat} (m : Pca n d) (maxN : Option Nat) (ops : List (PdmOp n d)) :
    let p := ops.foldl pdmStep (newPdm m maxN)
    Generates p.model.mean p.model.active p.weights p.target ∧
      fromVector p (asVector p) = .ok p := by
  intro p
  have h : PdmInv p := foldl_inv (P := PdmInv) (fun s o hs => pdmStep_inv hs o) ops (newPdm_inv m maxN)
  exact ⟨generates_iff.2 h, pdm_roundtrip h⟩

/-- C42, GlobalPDM: the same composed with the global transform, for every transform class whose
initial alignment fixes the mean and whose parameters can be written back. -/
theorem C42_global_pdm {T : Type} {n d : Nat} (tr : Transforms T n d) (hv : VectorRoundTrip tr)
    (m : Pca n d) (ident : T) (hid : tr.apply ident m.mean = m.mean) (ops : List (PdmOp n d)) :
    let p := ops.foldl (gpdmStep tr) (newGPdm m ident)
    (∃ s, Generates p.model.mean p.model.active p.weights s ∧ p.target = tr.apply p.glob s) ∧
      gFromVector tr p (gAsVector tr p) = .ok p := by
  intro p
  have h : GPdmInv tr p := foldl_inv (P := GPdmInv tr) (fun s o hs => gpdmStep_inv tr s o hs) ops
    (newGPdm_inv tr m ident hid)
  refine ⟨?_, gpdm_roundtrip tr hv h⟩
  unfold GPdmInv gTargetOf Pca.inst at h
  cases hi : instanceOf p.model.mean p.model.active p.weights with
  | error e => rw [hi] at h; simp [Except.map] at h
  | ok s =>
    rw [hi] at h
    injection h with h
    exact ⟨s, generates_iff.2 hi, h.symm⟩

/-- C42, GlobalSimilarityModel: the target is always the transformed mean. -/
theorem C42_global_similarity {T : Type} {n d : Nat} (tr : Transforms T n d) (mean : Pts n d)
    (ident : T) (hid : tr.apply ident mean = mean) (ops : List SimOp) :
    let p := ops.foldl (gsimStep tr) (newGSim mean ident)
    p.target = tr.apply p.glob p.mean ∧
      (VectorRoundTrip tr → simFromVector tr p (tr.toVec p.glob) = .ok p) := by
  intro p
  have h : p.target = tr.apply p.glob p.mean :=
    foldl_inv (P := fun p : GSim T n d => p.target = tr.apply p.glob p.mean)
      (fun s o hs => gsimStep_inv tr s o hs) ops (by simpa [newGSim] using hid.symm)
  refine ⟨h, fun hv => ?_⟩
  simp only [simFromVector, (hv p.glob).2, bind, Except.bind, ← h]

/-- C42, OrthoPDM: the target is the model instance moved by the current similarity, the similarity
is the alignment to the current similarity weights, and writing the parameters back changes
nothing. -/
theorem C42_ortho_pdm {n : Nat} (ortho : Ortho n) (ho : ∀ a b, (ortho a b).1.length = a.length)
    (m : Pca n 2) {p₀ : OPdm n} (h₀ : newOPdm ortho m = .ok p₀) (ops : List (PdmOp n 2)) :
    let p := ops.foldl (opdmStep ortho) p₀
    (∃ s, Generates p.model.mean p.model.active p.weights s ∧ p.target = p.glob.apply s) ∧
      (∃ s, Generates p.simMean p.simComps p.simWeights s ∧ p.glob = procrustes p.source s) ∧
      oFromVector p (oAsVector p) = .ok p := by
  intro p
  have h : OInv p := foldl_inv (P := OInv) (fun s o hs => opdmStep_inv ortho ho s o hs) ops
    (newOPdm_inv ortho ho m h₀)
  refine ⟨?_, ⟨_, ?_, h.glob⟩, opdm_roundtrip h⟩
  · have ht := h.target
    unfold oTargetOf Pca.inst at ht
    cases hi : instanceOf p.model.mean p.model.active p.weights with
    | error e => rw [hi] at ht; simp [Except.map] at ht
    | ok s =>
      rw [hi] at ht
      injection ht with ht
      exact ⟨s, generates_iff.2 hi, ht.symm⟩
  · rw [generates_iff, instanceOf_ok]
    refine ⟨?_, rfl⟩
    rw [h.four]; rcases h.short with h | h <;> omega

/-- The 2D alignment similarity meets the hypothesis of `C42_global_pdm`. -/
theorem alignmentSimilarity_roundTrip (n : Nat) : VectorRoundTrip (alignmentSimilarity n) := by
  intro g
  refine ⟨rfl, ?_⟩
  simp [alignmentSimilarity]

example (n : Nat) (mean : Pts n 2) :
    (alignmentSimilarity n).apply (mean, ⟨1, 0, 0, 0⟩) mean = mean := by
  funext ⟨i, j⟩
  match j with
  | 0 => simp [alignmentSimilarity, Sim.apply]
  | 1 => simp [alignmentSimilarity, Sim.apply]

/-- A constructor always succeeds, so `h₀` of `C42_ortho_pdm` is met. -/
example {n : Nat} (ortho : Ortho n) (m : Pca n 2) : ∃ p₀, newOPdm ortho m = .ok p₀ :=
  let ⟨p, h, _⟩ := newOPdm_eq ortho m
  ⟨p, h⟩

/-! ## C43 -/

/-- C43: with orthonormal components, `set_target` yields the closest instance of the model, and
setting that target again changes nothing. -/
theorem C43_closest_instance {n d : Nat} (p : Pdm n d) (ho : OrthonormalList p.model.active)
    (t : Pts n d) :
    ∃ p', setTarget p ⟨n, d, t⟩ = (p', .ok ()) ∧ p'.model = p.model ∧
      Generates p.model.mean p.model.active p'.weights p'.target ∧
      (∀ w s, Generates p.model.mean p.model.active w s → sqDist t p'.target ≤ sqDist t s) ∧
      setTarget p' ⟨n, d, p'.target⟩ = (p', .ok ()) := by
  refine ⟨_, setTarget_ok p (cloud_fit t), rfl, ?_, ?_, ?_⟩
  · exact generates_iff.2 (instanceOf_project _ _ _)
  · intro w s hs
    obtain ⟨_, rfl⟩ := instanceOf_ok.1 (generates_iff.1 hs)
    exact project_closest ho t w
  · rw [setTarget_ok _ (cloud_fit _)]
    simp only [Pca.project]
    rw [project_instance ho (by simp)]

/-- C43, GlobalPDM: `set_target` aligns the global transform to the target; the weights generate
the model instance closest to the target moved back by that transform, and the new target is
that instance moved forward again. -/
theorem C43_global_closest {T : Type} {n d : Nat} (tr : Transforms T n d) (p : GPdm T n d)
    (ho : OrthonormalList p.model.active) (t : Pts n d) :
    ∃ p' s, gSetTarget tr p ⟨n, d, t⟩ = (p', .ok ()) ∧ p'.model = p.model ∧
      p'.glob = tr.setTarget p.glob t ∧
      Generates p.model.mean p.model.active p'.weights s ∧
      (∀ w u, Generates p.model.mean p.model.active w u →
        sqDist (tr.apply (tr.pinv p'.glob) t) s ≤ sqDist (tr.apply (tr.pinv p'.glob) t) u) ∧
      p'.target = tr.apply p'.glob s := by
  obtain ⟨g, hg⟩ : ∃ g, g = tr.setTarget p.glob t := ⟨_, rfl⟩
  obtain ⟨w, hw⟩ : ∃ w, w = projectOn p.model.mean p.model.active (tr.apply (tr.pinv g) t) :=
    ⟨_, rfl⟩
  have hrun : gSetTarget tr p ⟨n, d, t⟩ = (⟨p.model, w, tr.apply g
      (p.model.mean + combine w p.model.active), g⟩, .ok ()) := by
    unfold gSetTarget
    rw [cloud_fit]
    have hi : instanceOf p.model.mean p.model.active w =
        .ok (p.model.mean + combine w p.model.active) := by rw [hw]; exact instanceOf_project _ _ _
    simp only [gSyncState, gTargetOf, Pca.inst, Pca.project, Except.map, ← hg, ← hw, hi]
  refine ⟨_, p.model.mean + combine w p.model.active, hrun, rfl, hg, ?_, ?_, rfl⟩
  · rw [hw]; exact generates_iff.2 (instanceOf_project _ _ _)
  · intro w' u hu
    rw [hw]
    obtain ⟨_, rfl⟩ := instanceOf_ok.1 (generates_iff.1 hu)
    exact project_closest ho _ w'

/-- C43 after changing the number of active components: the number is what was asked for, at most
the number of components there are, there is one weight per active component, and the target
is the instance of the reduced model closest to the previous target. -/
theorem C43_active_components {n d : Nat} (p : Pdm n d) (v : Nat) (hv : 1 ≤ v)
    (ho : OrthonormalList p.model.comps) :
    ∃ p', setActive p v = (p', .ok ()) ∧ p'.model.comps = p.model.comps ∧
      p'.model.mean = p.model.mean ∧ p'.model.nActive = min v p.model.comps.length ∧
      p'.weights.length = min v p.model.comps.length ∧
      Generates p.model.mean (p.model.comps.take v) p'.weights p'.target ∧
      (∀ w s, Generates p.model.mean (p.model.comps.take v) w s →
        sqDist p.target p'.target ≤ sqDist p.target s) := by
  have hm : p.model.setActive v = .ok { p.model with nActive := min v p.model.comps.length } := by
    unfold Pca.setActive
    rw [if_neg (by omega)]
    rfl
  have hact : ({ p.model with nActive := min v p.model.comps.length } : Pca n d).active =
      p.model.comps.take v := by
    unfold Pca.active
    simp only
    rcases Nat.le_total v p.model.comps.length with h | h
    · rw [Nat.min_eq_left h]
    · rw [Nat.min_eq_right h, List.take_of_length_le h, List.take_of_length_le le_rfl]
  have ho' : OrthonormalList (p.model.comps.take v) :=
    ⟨fun c hc => ho.1 c (List.mem_of_mem_take hc), ho.2.sublist (List.take_sublist _ _)⟩
  have hrun : setActive p v = (⟨{ p.model with nActive := min v p.model.comps.length },
      projectOn p.model.mean (p.model.comps.take v) p.target, p.model.mean + combine
        (projectOn p.model.mean (p.model.comps.take v) p.target) (p.model.comps.take v)⟩,
      .ok ()) := by
    unfold setActive
    rw [hm]
    simp only [syncState, Pca.inst, Pca.project, instanceOf_project, hact]
  refine ⟨_, hrun, rfl, rfl, rfl, ?_, ?_, ?_⟩
  · simp [projectOn]
  · exact generates_iff.2 (instanceOf_project _ _ _)
  · intro w s hs
    obtain ⟨_, rfl⟩ := instanceOf_ok.1 (generates_iff.1 hs)
    exact project_closest ho' _ w

/-- C43: a target with the wrong number of points or dimensions is refused and nothing changes. -/
theorem C43_wrong_shape {n d : Nat} (p : Pdm n d) (c : Cloud) (h : c.n ≠ n ∨ c.d ≠ d) :
    setTarget p c = (p, .error .valueError) := by
  have : c.fit n d = none := by
    unfold Cloud.fit
    rw [dif_neg]
    rintro ⟨rfl, rfl⟩
    simp at h
  simp [setTarget, this]

/-- One active unit component. -/
example : OrthonormalList (n := 1) (d := 2)
    (⟨0, [fun ij => if ij.2 = 0 then 3/5 else 4/5], 1⟩ : Pca 1 2).active := by
  refine ⟨?_, ?_⟩
  · intro c hc
    simp only [Pca.active, List.take_succ_cons, List.take_zero, List.mem_singleton] at hc
    subst hc
    simp [Fintype.sum_prod_type, Fin.sum_univ_two]; norm_num
  · simp [Pca.active]

/-! ## C44 -/

/-- C44: in every state an `OrthoPDM` reaches without incrementing the model, `from_vector(v)`
followed by `set_target` of the resulting target gives back the parameters `v` (and the whole
state), whenever the similarity part of `v` does not collapse the shape. -/
theorem C44_round_trip_partial {n : Nat} (ortho : Ortho n) (m : Pca n 2)
    (ho : OrthoSpec ortho (similarityComponents m.mean) m.comps) {p₀ : OPdm n}
    (h₀ : newOPdm ortho m = .ok p₀) (ops : List (PdmOp n 2)) (hops : ∀ o ∈ ops, NoIncrement o)
    (v : List ℝ) :
    let p := ops.foldl (opdmStep ortho) p₀
    v.length = 4 + p.model.active.length →
    (∀ s, Generates p.simMean p.simComps (v.take 4) s → ¬ Collapsed s) →
    ∃ p₁, oFromVector p v = .ok p₁ ∧ oSetTarget p₁ ⟨n, 2, p₁.target⟩ = (p₁, .ok ()) ∧
      oAsVector p₁ = v := by
  intro p hv hs
  have hr : Ready p := ready_reach ortho m ho h₀ ops hops
  have hl : (v.take 4).length = p.simComps.length := by rw [hr.four]; simp; omega
  have hw : (v.drop 4).length = p.model.active.length := by simp; omega
  have e1 : instanceOf p.simMean p.simComps (v.take 4) =
      .ok (p.simMean + combine (v.take 4) p.simComps) := by rw [instanceOf_ok]; exact ⟨hl.le, rfl⟩
  have e2 : p.model.inst (v.drop 4) =
      .ok (p.model.mean + combine (v.drop 4) p.model.active) := by
    rw [Pca.inst, instanceOf_ok]; exact ⟨hw.le, rfl⟩
  have hc := hs _ (generates_iff.2 e1)
  refine ⟨{ p with
      simWeights := v.take 4
      glob := procrustes p.source (p.simMean + combine (v.take 4) p.simComps)
      weights := v.drop 4
      target := (procrustes p.source (p.simMean + combine (v.take 4) p.simComps)).apply
        (p.model.mean + combine (v.drop 4) p.model.active) }, ?_, ?_, ?_⟩
  · simp only [oFromVector, oUpdateGlobalWeights, e1, bind, Except.bind, oTargetOf, e2, Except.map]
  · refine settled ⟨hr.1, hr.2, hr.3, hr.4, hr.5⟩ ⟨hr.four, ?_, rfl, .inl ?_⟩ ?_ hw hc
    · simp only [oTargetOf, e2, Except.map]
    · simp only [hl, hr.four]
    · simp only [hl, hr.four]
  · simp [oAsVector]

/-- C44: in the same states `set_target` is idempotent. -/
theorem C44_idempotent_partial {n : Nat} (ortho : Ortho n) (m : Pca n 2)
    (ho : OrthoSpec ortho (similarityComponents m.mean) m.comps) {p₀ : OPdm n}
    (h₀ : newOPdm ortho m = .ok p₀) (ops : List (PdmOp n 2)) (hops : ∀ o ∈ ops, NoIncrement o)
    (t : Pts n 2) :
    let p₁ := (oSetTarget (ops.foldl (opdmStep ortho) p₀) ⟨n, 2, t⟩).1
    (∀ s, Generates p₁.simMean p₁.simComps p₁.simWeights s → ¬ Collapsed s) →
    oSetTarget p₁ ⟨n, 2, p₁.target⟩ = (p₁, .ok ()) := by
  intro p₁ hs
  obtain ⟨p, hp⟩ : ∃ p, p = ops.foldl (opdmStep ortho) p₀ := ⟨_, rfl⟩
  have hr : Ready p := hp ▸ ready_reach ortho m ho h₀ ops hops
  have hr1 : Ready p₁ := by
    have := ready_step ortho p (.target ⟨n, 2, t⟩) trivial hr
    rw [hp] at this; exact this
  have e : p₁ = (oSyncState { p with target := t }).1 := by
    change (oSetTarget _ _).1 = _
    rw [← hp]; simp only [oSetTarget, cloud_fit]
  have hi : OInv p₁ := by rw [e]; exact oSyncState_inv _ hr.four
  have h4 : p₁.simWeights.length = 4 := by rw [e, oSyncState_eq]; simp [hr.four]
  have hw : p₁.weights.length = p₁.model.active.length := by
    rw [e, oSyncState_eq]; simp [Pca.project]
  refine settled hr1 hi h4 hw (hs _ (generates_iff.2 ?_))
  rw [instanceOf_ok]; exact ⟨by rw [h4, hr1.four], rfl⟩

/-- The hypothesis of the C44 theorems is met by a model with a non-rigid component. -/
example : OrthoSpec crossOrtho (similarityComponents cross) [squeeze] := by
  refine ⟨by simp [crossOrtho, crossSim], crossSim_orth, ?_⟩
  have := crossSim_span 1 one_ne_zero
  rw [one_smul] at this; exact this

/-- ... and its weights `[1, 0, 0, 0]` do not collapse the shape. -/
example : ¬ Collapsed (cross + combine [1, 0, 0, 0] crossSim) := by
  intro h
  have := (h 0 2).1
  norm_num [crossSim, similarityComponents, flat] at this

/-- The property of C44 does not survive an increment: the alignment keeps the old mean as
its source.  After an increment that doubles the mean (here: a model without
non-rigid components), setting the model's own target again changes the target,
although the hypotheses on the orthonormalisation hold before and after. -/
theorem C44_after_increment_violated :
    ∃ (m m' : Pca 4 2) (p₀ : OPdm 4),
      OrthoSpec crossOrtho (similarityComponents m.mean) m.comps ∧
      OrthoSpec crossOrtho (similarityComponents m'.mean) m'.comps ∧
      newOPdm crossOrtho m = .ok p₀ ∧
      ∃ p₁, oIncrement crossOrtho p₀ m' = (p₁, .ok ()) ∧
        (oSetTarget p₁ ⟨4, 2, p₁.target⟩).1.target ≠ p₁.target := by
  have spec : ∀ k : ℝ, k ≠ 0 → OrthoSpec crossOrtho (similarityComponents (k • cross)) [] := by
    intro k hk
    refine ⟨by simp [crossOrtho, crossSim, similarityComponents], ?_, crossSim_span k hk⟩
    exact orth_sublist (List.sublist_append_left _ _) (by simpa [crossOrtho] using crossSim_orth)
  have hnc : ∀ k : ℝ, k ≠ 0 → ¬ Collapsed (k • cross) := by
    intro k hk h
    have := (h 0 2).1
    simp at this
    exact hk (by linarith)
  have hpro : ∀ k : ℝ, k ≠ 0 → procrustes cross (k • cross) = ⟨k, 0, 0, 0⟩ := by
    intro k hk
    have e : (⟨k, 0, 0, 0⟩ : Sim).apply cross = k • cross := by rw [sim_apply_eq]; simp
    have := procrustes_exact (by decide) ⟨k, 0, 0, 0⟩ cross (by rw [e]; exact hnc k hk)
    rwa [e] at this
  have hproj : ∀ k : ℝ, projectOn ((2 : ℝ) • cross) crossSim (k • cross) = [2 * (k - 2), 0, 0, 0] := by
    intro k
    simp only [projectOn, crossSim, similarityComponents, List.map_cons, List.map_nil, dotProduct,
      sum42]
    norm_num [rotatedCcw, flat]
    constructor <;> ring
  have hcomb : ∀ k : ℝ, (2 : ℝ) • cross + combine [2 * (k - 2), 0, 0, 0] crossSim = k • cross := by
    intro k
    simp only [crossSim, similarityComponents, List.map_cons, List.map_nil, combine_cons,
      combine_nil_left]
    module
  have happ : ∀ k : ℝ, (⟨k, 0, 0, 0⟩ : Sim).apply ((2 : ℝ) • cross) = (2 * k) • cross := by
    intro k; rw [sim_apply_eq]; simp [smul_smul, mul_comm]
  -- setting a multiple of the cross on the incremented model doubles it
  have step : ∀ (p : OPdm 4) (k : ℝ), k ≠ 0 → p.model.mean = (2 : ℝ) • cross → p.model.comps = [] →
      p.simMean = (2 : ℝ) • cross → p.simComps = crossSim → p.source = cross →
      (oSetTarget p ⟨4, 2, k • cross⟩).2 = .ok () ∧
      (oSetTarget p ⟨4, 2, k • cross⟩).1.target = (2 * k) • cross ∧
      (oSetTarget p ⟨4, 2, k • cross⟩).1.model = p.model ∧
      (oSetTarget p ⟨4, 2, k • cross⟩).1.simMean = p.simMean ∧
      (oSetTarget p ⟨4, 2, k • cross⟩).1.simComps = p.simComps ∧
      (oSetTarget p ⟨4, 2, k • cross⟩).1.source = p.source := by
    intro p k hk h1 h2 h3 h4 h5
    have ha : p.model.active = [] := by simp [Pca.active, h2]
    simp only [oSetTarget, cloud_fit, oSyncState_eq, h1, ha, h3, h4, h5, hproj, hcomb, hpro k hk,
      combine_nil_right, add_zero, happ, and_self]
  obtain ⟨p₀, hp₀, h1, h2, h3, h4, h5, h6, h7, h8, h9⟩ :=
    newOPdm_eq crossOrtho ⟨cross, [], 0⟩
  refine ⟨⟨cross, [], 0⟩, ⟨(2 : ℝ) • cross, [], 0⟩, p₀, by simpa using spec 1 one_ne_zero,
    spec 2 two_ne_zero, hp₀, ?_⟩
  have ht : p₀.target = (1 : ℝ) • cross := by
    have hw : p₀.weights = [] := by
      rw [h9]; simp [Pca.active, h5, crossOrtho]
    have e := hpro 1 one_ne_zero
    rw [one_smul] at e
    simp only [oTargetOf, hw, Pca.inst, h2, h6, e] at h7
    have : instanceOf cross p₀.model.active [] = .ok cross := by rw [instanceOf_ok]; simp
    rw [this] at h7
    injection h7 with h7
    rw [← h7, sim_apply_eq]; simp
  obtain ⟨a1, a2, a3, a4, a5, a6⟩ := step
    (constructSim crossOrtho { p₀ with model := ⟨(2 : ℝ) • cross, [], 0⟩ }) 1 one_ne_zero
    rfl rfl rfl rfl h3
  rw [← ht] at a1 a2 a3 a4 a5 a6
  obtain ⟨p₁, hp₁⟩ : ∃ p₁, p₁ = (oIncrement crossOrtho p₀ ⟨(2 : ℝ) • cross, [], 0⟩).1 := ⟨_, rfl⟩
  refine ⟨p₁, Prod.ext hp₁.symm a1, ?_⟩
  have b : p₁.target = (2 * 1 : ℝ) • cross := by rw [hp₁]; exact a2
  have b3 : p₁.model = ⟨(2 : ℝ) • cross, [], 0⟩ := by rw [hp₁]; exact a3
  obtain ⟨c1, c2, -⟩ := step p₁ (2 * 1) (by norm_num) (by rw [b3]) (by rw [b3])
    (by rw [hp₁]; exact a4) (by rw [hp₁]; exact a5) (by rw [hp₁]; exact a6.trans h3)
  rw [b, c2]
  intro h
  have := congrFun h (0, 0)
  norm_num at this

/-! ## C75 -/

/-- C75 (part): a refused target or number of active components leaves the PDM unchanged. -/
theorem C75_refused_update_partial {n d : Nat} (p : Pdm n d) :
    (∀ c e, (setTarget p c).2 = .error e → (setTarget p c).1 = p) ∧
    (∀ k e, (setActive p k).2 = .error e → (setActive p k).1 = p) := by
  constructor
  · intro c e h
    cases hc : c.fit n d with
    | none => simp [setTarget, hc]
    | some t => rw [setTarget_ok p hc] at h; simp at h
  · intro k e h
    unfold setActive at h ⊢
    cases hm : p.model.setActive k with
    | error e => rfl
    | ok m => rw [hm] at h; simp [syncState_eq] at h

example : (setActive (newPdm (⟨0, [0], 1⟩ : Pca 1 2) none) 0).2 = .error .valueError := by
  simp [setActive, Pca.setActive]

/-- C75 is violated by the in-place update from a parameter vector: with too many weights it raises
`ValueError` but has already replaced the weights, which the target no longer matches. -/
theorem C75_inplace_violated :
    ∃ (p : Pdm 1 2) (v : List ℝ) (p' : Pdm 1 2),
      Generates p.model.mean p.model.active p.weights p.target ∧
      fromVectorInplace p v = (p', .error .valueError) ∧
      ¬ Generates p'.model.mean p'.model.active p'.weights p'.target := by
  refine ⟨newPdm ⟨0, [], 0⟩ none, [1], ⟨⟨0, [], 0⟩, [1], 0⟩, ?_, ?_, ?_⟩
  · exact generates_iff.2 (newPdm_inv _ _)
  · simp [fromVectorInplace, newPdm, Pca.inst, instanceOf, Pca.active]
  · rintro ⟨h, -⟩
    simp [Pca.active] at h

end Menpofit
