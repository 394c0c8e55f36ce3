import Verif.Lemmas.LinearTransform
import Verif.Lemmas.LinearWitness
import Verif.Props.Homogeneous
/-!
# C103: the transform of a linear AAM
-/

namespace Menpofit
open Matrix MI Spec Linear Homog

variable {l m : Nat}

/-- C103: landmarks given as a target are completed to the shape of the linear family (similarity
images of the mean plus components) whose landmarks are closest to them, and the transform then is
as if that shape had been given; after any history of targets and vectors. -/
theorem C103_closest {ortho : Ortho (l + m)}
    {pinv : (k : Nat) → Matrix (Fin k) (Fin l × Fin 2) ℝ → Matrix (Fin l × Fin 2) (Fin k) ℝ}
    (hp : ∀ k V, MoorePenrose V (pinv k V)) {model : Pca (l + m) 2}
    (ho : OrthoSpec ortho (similarityComponents model.mean) model.comps) {s₀ : Lin l m}
    (h₀ : newLin ortho pinv model = .ok s₀) (ops : List LinOp) (t : Pts l 2) (hm : 0 < m) :
    let s := ops.foldl linStep s₀
    ∃ d, InFamily s.pdm.model d ∧
      (∀ x, InFamily s.pdm.model x → landmarkError d t ≤ landmarkError x t) ∧
      setTarget s ⟨l, 2, t⟩ = setTarget s ⟨l + m, 2, d⟩ ∧ (setTarget s ⟨l, 2, t⟩).2 = .ok () := by
  intro s
  have hs : LinInv s := (newLin_inv hp ho h₀).1.steps ops
  have hl : ¬ l + m = l := by omega
  refine ⟨densify s t, densify_family hs t, fun x hx => densify_closest hs t hx, ?_, ?_⟩
  · simp only [Linear.setTarget, if_true, cloud_fit, if_neg hl]
  · simp only [Linear.setTarget, if_true, cloud_fit, oSetTarget, oSyncState_eq]

/-- C103: if landmarks determine the shapes of the family, then giving the landmarks of a shape of
the family is as good as giving the whole shape. -/
theorem C103_landmarks_suffice {ortho : Ortho (l + m)}
    {pinv : (k : Nat) → Matrix (Fin k) (Fin l × Fin 2) ℝ → Matrix (Fin l × Fin 2) (Fin k) ℝ}
    (hp : ∀ k V, MoorePenrose V (pinv k V)) {model : Pca (l + m) 2}
    (ho : OrthoSpec ortho (similarityComponents model.mean) model.comps) {s₀ : Lin l m}
    (h₀ : newLin ortho pinv model = .ok s₀) (ops : List LinOp) (hm : 0 < m) :
    let s := ops.foldl linStep s₀
    LandmarksDetermine s.pdm.model → ∀ x t, InFamily s.pdm.model x → HasLandmarks x t →
      setTarget s ⟨l, 2, t⟩ = setTarget s ⟨l + m, 2, x⟩ := by
  intro s hd x t hx hxt
  have hs : LinInv s := (newLin_inv hp ho h₀).1.steps ops
  have hl : ¬ l + m = l := by omega
  have ht := (hasLandmarks_iff _ _).1 hxt
  subst ht
  have : densify s (landmarks x) = x :=
    hd _ _ _ (densify_family hs _) hx ((hasLandmarks_iff _ _).2 (densify_landmarks hs hx)) hxt
  simp only [Linear.setTarget, if_true, cloud_fit, if_neg hl, this]

/-- C103, for shapes that are not rotated: the landmarks of a scaled and moved instance of the model
bring back the whole shape; its landmarks are the sparse target and the warp returns its dense
points.  (Missing: rotated shapes, see `C103_rotation_violated`.) -/
theorem C103_reproduces_partial {ortho : Ortho (l + m)}
    {pinv : (k : Nat) → Matrix (Fin k) (Fin l × Fin 2) ℝ → Matrix (Fin l × Fin 2) (Fin k) ℝ}
    (hp : ∀ k V, MoorePenrose V (pinv k V)) {model : Pca (l + m) 2}
    (ho : OrthoSpec ortho (similarityComponents model.mean) model.comps) {s₀ : Lin l m}
    (h₀ : newLin ortho pinv model = .ok s₀) (ops : List LinOp) (hm : 0 < m)
    (w : List ℝ) (y x : Pts (l + m) 2) (a tx ty : ℝ) (ha : a ≠ 0) (t : Pts l 2) (u : Pts m 2) :
    let s := ops.foldl linStep s₀
    LandmarksDetermine s.pdm.model → ¬ Collapsed s.pdm.model.mean →
    Generates s.pdm.model.mean s.pdm.model.active w y →
    (∀ i, x (i, 0) = a * y (i, 0) + tx ∧ x (i, 1) = a * y (i, 1) + ty) →
    HasLandmarks x t → HasDense x u →
    let s' := (setTarget s ⟨l, 2, t⟩).1
    s'.pdm.target = x ∧ sparseTarget s' = t ∧ denseTarget s' = u ∧ ∀ grid : Pts m 2, apply s' grid = u := by
  intro s hd hc hy hx ht hu
  have hs : LinInv s := (newLin_inv hp ho h₀).1.steps ops
  have hy' := (instanceOf_ok.1 (generates_iff.1 hy)).2
  have hx' : x = (⟨a, 0, tx, ty⟩ : Sim).apply (s.pdm.model.mean + combine w s.pdm.model.active) := by
    rw [← hy']
    funext ⟨i, j⟩
    match j with
    | 0 => simp [Sim.apply, (hx i).1]
    | 1 => simp [Sim.apply, (hx i).2]
  have hfam : InFamily s.pdm.model x := by
    refine ⟨⟨a, 0, tx, ty⟩, combine (w.map (a * ·)) s.pdm.model.active, w.map (a * ·),
      generates_iff.2 (instanceOf_ok.2 ⟨by simpa using hy.1, by simp⟩), ?_⟩
    have : combine (w.map (a * ·)) s.pdm.model.active = a • combine w s.pdm.model.active := by
      generalize s.pdm.model.active = cs
      clear * -
      induction w generalizing cs with
      | nil => simp
      | cons b w ih =>
        cases cs with
        | nil => simp
        | cons c cs => simp only [List.map_cons, combine_cons, ih, smul_add, smul_smul]
    rw [this, hx', sim_apply_eq, sim_apply_eq]; module
  have hcc : ¬ Collapsed ((⟨a, 0, tx, ty⟩ : Sim).apply s.pdm.model.mean) := by
    rw [collapsed_apply_iff (by omega)]
    rintro (h | h)
    · exact hc h
    · exact ha h.1
  have hset := C103_landmarks_suffice hp ho h₀ ops hm hd x t hfam ht
  have hl : ¬ l + m = l := by omega
  have htar : (setTarget s ⟨l, 2, t⟩).1.pdm.target = x := by
    rw [hset]
    simp only [Linear.setTarget, if_neg hl]
    rw [hx']; exact (reproduces hs.ready _ w hcc).1
  refine ⟨htar, ?_, ?_, fun _ => ?_⟩
  · rw [sparseTarget, htar]; exact (hasLandmarks_iff _ _).1 ht
  · rw [denseTarget, htar]; exact (hasDense_iff _ _).1 hu
  · rw [Linear.apply, htar]; exact (hasDense_iff _ _).1 hu

/-- C103: the shapes of an algorithm result of a linear AAM are the landmarks of the shapes the
transform had when the parameters were recorded, whatever happened in between. -/
theorem C103_result_shapes {ortho : Ortho (l + m)}
    {pinv : (k : Nat) → Matrix (Fin k) (Fin l × Fin 2) ℝ → Matrix (Fin l × Fin 2) (Fin k) ℝ}
    (hp : ∀ k V, MoorePenrose V (pinv k V)) {model : Pca (l + m) 2}
    (ho : OrthoSpec ortho (similarityComponents model.mean) model.comps) {s₀ : Lin l m}
    (h₀ : newLin ortho pinv model = .ok s₀) (now : List LinOp) (recorded : List (List LinOp)) :
    resultShapes (now.foldl linStep s₀)
        (recorded.map fun (ops : List LinOp) => Linear.asVector (ops.foldl linStep s₀)) =
      .ok (recorded.map fun (ops : List LinOp) => sparseTarget (ops.foldl linStep s₀)) := by
  have hi := (newLin_inv hp ho h₀).2
  have one : ∀ ops : List LinOp, ∃ q, Linear.fromVector (now.foldl linStep s₀)
      (Linear.asVector (ops.foldl linStep s₀)) = .ok q ∧ sparseTarget q = sparseTarget (ops.foldl linStep s₀) := by
    intro ops
    obtain ⟨q, e, h1, h2, h3, h4, h5⟩ := linSteps_same now s₀
    obtain ⟨q', e', g1, g2, g3, g4, g5⟩ := linSteps_same ops s₀
    have rt := opdm_roundtrip (g5 hi)
    rw [e, e']
    simp only [Linear.fromVector, Linear.asVector, sparseTarget]
    have : oFromVector q (oAsVector q') = oFromVector q' (oAsVector q') := by
      simp only [oFromVector, oUpdateGlobalWeights, oTargetOf, h1, h2, h3, h4, g1, g2, g3, g4]
      cases instanceOf s₀.pdm.simMean s₀.pdm.simComps (List.take 4 (oAsVector q')) with
      | error e => rfl
      | ok t =>
        simp only [bind, Except.bind]
    rw [this, rt]
    exact ⟨_, rfl, rfl⟩
  induction recorded with
  | nil => rfl
  | cons r rs ih =>
    obtain ⟨q, hq, hs⟩ := one r
    simp only [List.map_cons, resultShapes, hq, bind, Except.bind, ih, pure, Except.pure, hs]

/-- C103: landmarks in other than two dimensions and shapes with other numbers of points are refused
and change nothing. -/
theorem C103_refuses (s : Lin l m) (c : Cloud) (h : c.d ≠ 2 ∨ (c.n ≠ l ∧ c.n ≠ l + m)) :
    setTarget s c = (s, .error .valueError) := by
  have f : ∀ k, c.d ≠ 2 ∨ c.n ≠ k → c.fit k 2 = none := by
    intro k hk
    unfold Cloud.fit
    rw [dif_neg]; rintro ⟨h1, h2⟩; rcases hk with hk | hk
    · exact hk h2
    · exact hk h1
  unfold Linear.setTarget
  split
  · rename_i hn
    rw [f l (by rcases h with h | h; exacts [.inl h, absurd hn h.1])]
  · rw [oSetTarget, f (l + m) (by rcases h with h | h; exacts [.inl h, .inr h.2])]

/-- The history of the transform is a history of its shape model. -/
theorem lin_history (ortho : Ortho (l + m)) (ops : List LinOp) (s : Lin l m) :
    ∃ pops : List (PdmOp (l + m) 2), (∀ o ∈ pops, NoIncrement o) ∧
      (ops.foldl linStep s).pdm = pops.foldl (opdmStep ortho) s.pdm := by
  induction ops generalizing s with
  | nil => exact ⟨[], by simp, rfl⟩
  | cons o os ih =>
    obtain ⟨pops, h, e⟩ := ih (linStep s o)
    have one : ∃ ps : List (PdmOp (l + m) 2), (∀ o ∈ ps, NoIncrement o) ∧
        (linStep s o).pdm = ps.foldl (opdmStep ortho) s.pdm := by
      cases o with
      | target c =>
        simp only [linStep, Linear.setTarget]
        split
        · cases c.fit l 2 with
          | none => exact ⟨[], by simp, rfl⟩
          | some t => exact ⟨[.target ⟨l + m, 2, densify s t⟩], by simp [NoIncrement], rfl⟩
        · exact ⟨[.target c], by simp [NoIncrement], rfl⟩
      | vector v =>
        refine ⟨[.vector v], by simp [NoIncrement], ?_⟩
        simp only [linStep, Linear.fromVector, List.foldl_cons, List.foldl_nil, opdmStep]
        cases oFromVector s.pdm v <;> rfl
    obtain ⟨ps, h', e'⟩ := one
    refine ⟨ps ++ pops, ?_, ?_⟩
    · intro o ho
      rcases List.mem_append.1 ho with ho | ho
      exacts [h' o ho, h o ho]
    · rw [List.foldl_cons, e, e', List.foldl_append]

/-- C103: `d_dp` is the derivative of the dense points with respect to the parameters, at zero
non-rigid weights and without rotation.  (Missing: other parameters, where it is not, as for C46.) -/
theorem C103_jacobian_partial {ortho : Ortho (l + m)}
    {pinv : (k : Nat) → Matrix (Fin k) (Fin l × Fin 2) ℝ → Matrix (Fin l × Fin 2) (Fin k) ℝ}
    (hp : ∀ k V, MoorePenrose V (pinv k V)) {model : Pca (l + m) 2}
    (ho : OrthoSpec ortho (similarityComponents model.mean) model.comps) {s₀ : Lin l m}
    (h₀ : newLin ortho pinv model = .ok s₀) (ops : List LinOp) (q : Nat → ℝ) (s₁ : Lin l m)
    (h : let s := ops.foldl linStep s₀
      Linear.fromVector s (vectorOf q (nParams s.pdm.model.active.length)) = .ok s₁)
    (hc : ¬ Collapsed s₁.pdm.target) (hw : ∀ j, q (4 + j) = 0) (hr : s₁.pdm.glob.b = 0)
    (f : (Nat → ℝ) → Fin m → Fin 2 → ℝ)
    (hf : ∀ q, ∃ s', Linear.fromVector s₁ (vectorOf q (nParams s₁.pdm.model.active.length)) = .ok s' ∧
      ∀ i r, apply s' () (i, r) = f q i r) :
    IsParamJacobian f q (nParams s₁.pdm.model.active.length) (ddp s₁) := by
  obtain ⟨pops, hi, e⟩ := lin_history ortho ops s₀
  simp only [Linear.fromVector] at h
  rw [e] at h
  have hn : newOPdm ortho model = .ok s₀.pdm := by
    simp only [newLin] at h₀
    cases hn : newOPdm ortho model with
    | error e => rw [hn] at h₀; cases h₀
    | ok p =>
      simp only [hn, bind, Except.bind, pure, Except.pure] at h₀
      injection h₀ with h₀
      rw [← h₀]
  cases hv : oFromVector (pops.foldl (opdmStep ortho) s₀.pdm)
      (vectorOf q (nParams (pops.foldl (opdmStep ortho) s₀.pdm).model.active.length)) with
  | error e => rw [hv] at h; cases h
  | ok p₁ =>
    rw [hv] at h
    simp only [Except.map] at h
    injection h with h
    have hp₁ : s₁.pdm = p₁ := by rw [← h]
    subst hp₁
    have h4 : s₁.pdm.simComps.length = 4 := by
      have hrd := ready_reach ortho model ho hn pops hi
      have : s₁.pdm.simComps = (pops.foldl (opdmStep ortho) s₀.pdm).simComps := by
        obtain ⟨q', h', -⟩ := oFromVector_target _ hrd.four q
        rw [hv] at h'
        simp only [oFromVector, oUpdateGlobalWeights] at hv
        cases hx : instanceOf (pops.foldl (opdmStep ortho) s₀.pdm).simMean
            (pops.foldl (opdmStep ortho) s₀.pdm).simComps
            (List.take 4 (vectorOf q (nParams (pops.foldl (opdmStep ortho) s₀.pdm).model.active.length))) with
        | error e => rw [hx] at hv; cases hv
        | ok t =>
          simp only [hx, bind, Except.bind] at hv
          split at hv
          · cases hv
          · injection hv with hv; rw [← hv]
      rw [this]; exact hrd.four
    obtain ⟨F, hF⟩ : ∃ F, OTargets s₁.pdm F := by
      refine ⟨fun q i r => ((procrustes s₁.pdm.source (simAt s₁.pdm q)).apply
        fun ij => shapeAt s₁.pdm.model q ij.1 ij.2) (i, r), fun q => ?_⟩
      obtain ⟨p', h', ht'⟩ := oFromVector_target s₁.pdm h4 q
      exact ⟨p', h', fun i r => by rw [ht']⟩
    have key := C46_ortho_pdm_partial ortho model ho hn pops hi q s₁.pdm hv hc hw hr F hF
    have hfF : ∀ q i r, f q i r = F q (Fin.natAdd l i) r := by
      intro q i r
      obtain ⟨p', h', ht⟩ := hF q
      obtain ⟨s', hs', hts⟩ := hf q
      simp only [Linear.fromVector, h', Except.map] at hs'
      injection hs' with hs'
      rw [← hts, ← ht, ← hs']; rfl
    intro i k r hk
    simp only [hfF]
    exact key (Fin.natAdd l i) k r hk

/-- A transform with four landmarks, five dense points, two components and one of them active. -/
theorem wide_new {pinv} (hp : ∀ k V, MoorePenrose V (pinv k V)) :
    ∃ s₀ : Lin 4 5, newLin wideOrtho pinv wideModel = .ok s₀ ∧ LinInv s₀ ∧
      s₀.pdm.model = wideModel ∧ s₀.pdm.simComps = wideSim ∧
      s₀.W = wideSim ++ [widen squeeze] := by
  obtain ⟨p, hp0⟩ : ∃ p, p = constructSim wideOrtho ⟨wideModel, [], wideModel.mean, wideModel.mean, [],
    [], wideModel.mean, procrustes wideModel.mean wideModel.mean⟩ := ⟨_, rfl⟩
  have hm : p.model = wideModel := by rw [hp0]; rfl
  have hs : p.simComps = wideSim := by rw [hp0]; rfl
  have ht : ∃ t, newOPdm wideOrtho wideModel = .ok { p with target := t } := by
    obtain ⟨q, hq, -⟩ := newOPdm_eq wideOrtho wideModel
    rw [hq]
    simp only [newOPdm, ← hp0, bind, Except.bind] at hq
    cases h : oTargetOf p with
    | error e => rw [h] at hq; cases hq
    | ok t => rw [h] at hq; injection hq with hq; exact ⟨t, by rw [hq]⟩
  obtain ⟨t, ht⟩ := ht
  have hn : newLin wideOrtho pinv wideModel = .ok ⟨{ p with target := t }, p.simComps ++ p.model.active,
      pinv _ (rowsV (p.simComps ++ p.model.active))⟩ := by
    simp only [newLin, ht, bind, Except.bind, pure, Except.pure]
  refine ⟨_, hn, (newLin_inv hp wide_spec hn).1, hm, hs, ?_⟩
  show p.simComps ++ p.model.active = _
  rw [hm, hs]; rfl

theorem wide_determines : LandmarksDetermine (l := 4) (m := 5) wideModel := by
  obtain ⟨pinv, hp⟩ := exists_moorePenrose 4
  obtain ⟨s, -, hs, hm, hc, hW⟩ := wide_new hp
  intro x y t hx hy hxt hyt
  have hx := (inFamily_iff hs.ready x).1 (by rw [hm]; exact hx)
  have hy := (inFamily_iff hs.ready y).1 (by rw [hm]; exact hy)
  have hmem : ∀ c ∈ s.pdm.simComps ++ s.pdm.model.active, Centred9 c := by
    intro c h
    rw [hm, hc] at h
    refine wide_centred c ?_
    simp only [Pca.active, wideModel, List.take_succ_cons, List.take_zero, List.mem_append,
      List.mem_cons, List.not_mem_nil, or_false] at h ⊢
    tauto
  refine centred_det (centred_span hmem x hx) (centred_span hmem y hy) ?_
  rw [(hasLandmarks_iff _ _).1 hxt, (hasLandmarks_iff _ _).1 hyt]

/-- The hypotheses of the theorems above: the witness can be constructed, its landmarks determine the
shapes of its family and its mean is not collapsed. -/
example : ∃ pinv, (∀ k V, MoorePenrose V (pinv k V)) ∧
    OrthoSpec wideOrtho (similarityComponents wideModel.mean) wideModel.comps ∧
    (∃ s₀ : Lin 4 5, newLin wideOrtho pinv wideModel = .ok s₀ ∧ s₀.pdm.model = wideModel) ∧
    LandmarksDetermine (l := 4) (m := 5) wideModel ∧ ¬ Collapsed wideModel.mean := by
  obtain ⟨pinv, hp⟩ := exists_moorePenrose 4
  obtain ⟨s, h, -, hm, -⟩ := wide_new hp
  refine ⟨pinv, hp, wide_spec, ⟨s, h, hm⟩, wide_determines, ?_⟩
  have := wide_not_collapsed ⟨1, 0, 0, 0⟩ (by simp)
  rw [sim_apply_eq] at this; simpa [wideModel] using this

/-- The landmarks of a rotated shape do not bring it back, although they determine it and the
transform itself has that shape: the components of `W` are not rotated with the mean, so that a
quarter turn of a deformed cross loses its deformation. -/
theorem C103_rotation_violated :
    ∃ (ortho : Ortho (4 + 5)) (pinv : (k : Nat) → Matrix (Fin k) (Fin 4 × Fin 2) ℝ →
        Matrix (Fin 4 × Fin 2) (Fin k) ℝ) (model : Pca (4 + 5) 2) (s₀ : Lin 4 5) (x : Pts (4 + 5) 2),
      (∀ k V, MoorePenrose V (pinv k V)) ∧
      OrthoSpec ortho (similarityComponents model.mean) model.comps ∧
      newLin ortho pinv model = .ok s₀ ∧
      LandmarksDetermine s₀.pdm.model ∧ ¬ Collapsed s₀.pdm.model.mean ∧
      let s := (setTarget s₀ ⟨4 + 5, 2, x⟩).1
      s.pdm.target = x ∧ (setTarget s ⟨4, 2, sparseTarget s⟩).2 = .ok () ∧
      sparseTarget (setTarget s ⟨4, 2, sparseTarget s⟩).1 ≠ sparseTarget s := by
  obtain ⟨pinv, hp⟩ := exists_moorePenrose 4
  obtain ⟨s₀, hn, hi, hm, hc, hW⟩ := wide_new hp
  have hact : wideModel.active = [widen squeeze] := rfl
  have hmean : wideModel.mean = widen MI.cross := rfl
  have hnc : ¬ Collapsed ((⟨0, 1, 0, 0⟩ : Sim).apply s₀.pdm.model.mean) := by
    rw [hm]; exact wide_not_collapsed _ (by simp)
  obtain ⟨x, hx⟩ : ∃ x, x = (⟨0, 1, 0, 0⟩ : Sim).apply
    (s₀.pdm.model.mean + combine [1] s₀.pdm.model.active) := ⟨_, rfl⟩
  have hx' : x = widen (rotatedCcw MI.cross + rotatedCcw squeeze) := by
    rw [hx, hm, hact, hmean, sim_apply_eq]
    simp [combine_cons, rotated_add, widen_rot, widen_add]
  refine ⟨wideOrtho, pinv, wideModel, s₀, x, hp, wide_spec, hn, by rw [hm]; exact wide_determines, ?_, ?_⟩
  · rw [hm]
    have := wide_not_collapsed ⟨1, 0, 0, 0⟩ (by simp)
    rw [sim_apply_eq] at this; simpa [wideModel] using this
  obtain ⟨s, hs⟩ : ∃ s, s = (setTarget s₀ ⟨4 + 5, 2, x⟩).1 := ⟨_, rfl⟩
  rw [← hs]
  have hts : s.pdm.target = x := by
    rw [hs]
    simp only [Linear.setTarget, show ¬ (4 + 5 = 4) by decide, if_false]
    rw [hx]; exact (reproduces hi.ready _ _ hnc).1
  obtain ⟨q, e, h1, h2, h3, h4, -⟩ := linStep_same s₀ (.target ⟨4 + 5, 2, x⟩)
  have hsq : s = { s₀ with pdm := q } := by rw [hs]; exact e
  have his : LinInv s := by rw [hs]; exact hi.steps [.target ⟨4 + 5, 2, x⟩]
  have hWs : s.W = wideSim ++ [widen squeeze] := by rw [hsq]; exact hW
  have hms : s.pdm.model = wideModel := by rw [hsq, ← hm]; exact h1
  have hden : densify s (sparseTarget s) = widen (rotatedCcw MI.cross) := by
    refine densify_eq his.pinv ?_ _ ?_ ?_
    · intro a b ha hb hab
      have hmem : ∀ c ∈ s.W, Centred9 c := fun c h => wide_centred c (by
        rw [hWs] at h; simp only [List.mem_append, List.mem_cons, List.not_mem_nil, or_false] at h ⊢
        tauto)
      exact centred_det (centred_span hmem a ha) (centred_span hmem b hb) hab
    · have : (1/2 : ℝ) • widen (rotatedCcw MI.cross) ∈ Submodule.span ℝ {c | c ∈ s.W} :=
        Submodule.subset_span (by rw [hWs]; simp [wideSim])
      have := Submodule.smul_mem _ 2 this
      convert this using 1; module
    · intro c h
      rw [hWs] at h
      rw [sparseTarget, hts, hx', landmarks_widen, landmarks_widen]
      simp only [wideSim, List.cons_append, List.nil_append, List.mem_cons, List.not_mem_nil,
        or_false] at h
      rcases h with rfl | rfl | rfl | rfl | rfl <;>
        (simp only [dotProduct, sum42, landmarks]; norm_num [rotatedCcw, ex, ey])
  have hset : setTarget s ⟨4, 2, sparseTarget s⟩ =
      ({ s with pdm := (oSetTarget s.pdm ⟨4 + 5, 2, widen (rotatedCcw MI.cross)⟩).1 },
        (oSetTarget s.pdm ⟨4 + 5, 2, widen (rotatedCcw MI.cross)⟩).2) := by
    simp only [Linear.setTarget, if_true, cloud_fit, hden]
  have hrep := reproduces his.ready ⟨0, 1, 0, 0⟩ [] (by
    rw [hms]; exact wide_not_collapsed _ (by simp))
  have hee : (⟨0, 1, 0, 0⟩ : Sim).apply (s.pdm.model.mean + combine [] s.pdm.model.active) =
      widen (rotatedCcw MI.cross) := by
    rw [hms, hact, hmean, sim_apply_eq]; simp [widen_rot]
  rw [hee] at hrep
  refine ⟨hts, by rw [hset]; exact hrep.2, ?_⟩
  rw [hset]
  simp only [sparseTarget, hrep.1, hts, hx', landmarks_widen]
  intro h
  have := congrFun h (0, 1)
  norm_num [rotatedCcw] at this

/-- `W` and its pseudo-inverse are those of the components active at construction: after activating
another component, landmarks of (unrotated) instances of the model do not bring them back, although
the whole shapes do. -/
theorem C103_activation_violated :
    ∃ (ortho : Ortho (4 + 5)) (pinv : (k : Nat) → Matrix (Fin k) (Fin 4 × Fin 2) ℝ →
        Matrix (Fin 4 × Fin 2) (Fin k) ℝ) (model : Pca (4 + 5) 2) (s₀ s : Lin 4 5)
        (w : List ℝ) (x : Pts (4 + 5) 2),
      (∀ k V, MoorePenrose V (pinv k V)) ∧
      OrthoSpec ortho (similarityComponents model.mean) model.comps ∧
      newLin ortho pinv model = .ok s₀ ∧ Linear.setActive s₀ 2 = (s, .ok ()) ∧
      LandmarksDetermine s.pdm.model ∧ ¬ Collapsed s.pdm.model.mean ∧
      Generates s.pdm.model.mean s.pdm.model.active w x ∧
      (setTarget s ⟨4 + 5, 2, x⟩).1.pdm.target = x ∧
      ∃ t, HasLandmarks x t ∧ (setTarget s ⟨4, 2, t⟩).2 = .ok () ∧
        sparseTarget (setTarget s ⟨4, 2, t⟩).1 ≠ t := by
  obtain ⟨pinv, hp⟩ := exists_moorePenrose 4
  obtain ⟨s₀, hn, hi, hm, hc, hW⟩ := wide_new hp
  obtain ⟨M, hM⟩ : ∃ M : Pca (4 + 5) 2, M = ⟨widen MI.cross, [widen squeeze, widen shear], 2⟩ := ⟨_, rfl⟩
  have hsa : s₀.pdm.model.setActive 2 = .ok M := by rw [hm, hM]; rfl
  obtain ⟨q, hq, hqm, hqs, hqc, hqo⟩ : ∃ q, oSetActive s₀.pdm 2 = (q, .ok ()) ∧ q.model = M ∧
      q.simMean = s₀.pdm.simMean ∧ q.simComps = s₀.pdm.simComps ∧ q.source = s₀.pdm.source := by
    rw [oSetActive, hsa]
    simp only
    rw [oSyncState_eq]
    exact ⟨_, rfl, rfl, rfl, rfl, rfl⟩
  have hr : Ready q := by
    have h := hi.ready
    refine ⟨?_, ?_, ?_, ?_, ?_⟩
    · rw [hqs, h.1, hqm, hm, hM]; rfl
    · rw [hqo, h.2, hqm, hm, hM]; rfl
    · rw [hqc]; exact h.3
    · rw [hqc, hqm, hc, hM]; exact wide_orth
    · rw [hqc, hqm, hc, hM]; exact wide_span
  have hact : q.model.active = [widen squeeze, widen shear] := by rw [hqm, hM]; rfl
  have hmean : q.model.mean = widen MI.cross := by rw [hqm, hM]
  have h1 : (⟨1, 0, 0, 0⟩ : Sim).apply q.model.mean = q.model.mean := by rw [sim_apply_eq]; simp
  have hnc : ¬ Collapsed ((⟨1, 0, 0, 0⟩ : Sim).apply q.model.mean) := by
    rw [hmean]; exact wide_not_collapsed _ (by simp)
  have hx : (⟨1, 0, 0, 0⟩ : Sim).apply (q.model.mean + combine [0, 1] q.model.active) =
      widen (MI.cross + shear) := by
    rw [sim_apply_eq, hmean, hact, widen_add]; simp [combine_cons]
  have hx0 : (⟨1, 0, 0, 0⟩ : Sim).apply (q.model.mean + combine [] q.model.active) = widen MI.cross := by
    rw [sim_apply_eq, hmean, hact]; simp
  refine ⟨wideOrtho, pinv, wideModel, s₀, { s₀ with pdm := q }, [0, 1], widen (MI.cross + shear), hp,
    wide_spec, hn, by simp only [Linear.setActive, hq], ?_, by rw [h1] at hnc; exact hnc, ?_, ?_,
    MI.cross + shear, by rw [hasLandmarks_iff, landmarks_widen], ?_⟩
  · intro x y t hx hy hxt hyt
    have hx := (inFamily_iff hr x).1 hx
    have hy := (inFamily_iff hr y).1 hy
    have hmem : ∀ c ∈ q.simComps ++ q.model.active, Centred9 c := by
      rw [hqc, hc, hact]; exact wide_centred
    refine centred_det (centred_span hmem x hx) (centred_span hmem y hy) ?_
    rw [(hasLandmarks_iff _ _).1 hxt, (hasLandmarks_iff _ _).1 hyt]
  · rw [generates_iff, instanceOf_ok]
    refine ⟨by rw [hact]; simp, ?_⟩
    rw [hmean, hact, widen_add]; simp [combine_cons]
  · simp only [Linear.setTarget, show ¬ (4 + 5 = 4) by decide, if_false]
    rw [← hx]; exact (reproduces hr _ _ hnc).1
  have hden : densify { s₀ with pdm := q } (MI.cross + shear) = widen MI.cross := by
    refine densify_eq hi.pinv ?_ _ ?_ ?_
    · intro a b ha hb hab
      have hmem : ∀ c ∈ s₀.W, Centred9 c := fun c h => wide_centred c (by
        rw [hW] at h; simp only [List.mem_append, List.mem_cons, List.not_mem_nil, or_false] at h ⊢
        tauto)
      exact centred_det (centred_span hmem a ha) (centred_span hmem b hb) hab
    · have : (1/2 : ℝ) • widen MI.cross ∈ Submodule.span ℝ {c | c ∈ s₀.W} :=
        Submodule.subset_span (by rw [hW]; simp [wideSim])
      have := Submodule.smul_mem _ 2 this
      convert this using 1; module
    · intro c h
      have h : c ∈ s₀.W := h
      rw [hW] at h
      rw [landmarks_widen]
      simp only [wideSim, List.cons_append, List.nil_append, List.mem_cons, List.not_mem_nil,
        or_false] at h
      rcases h with rfl | rfl | rfl | rfl | rfl <;>
        (simp only [dotProduct, sum42, landmarks]; norm_num [rotatedCcw, ex, ey])
  have hrep := reproduces hr ⟨1, 0, 0, 0⟩ [] hnc
  rw [hx0] at hrep
  simp only [Linear.setTarget, if_true, cloud_fit, hden]
  refine ⟨hrep.2, ?_⟩
  simp only [sparseTarget, hrep.1, landmarks_widen]
  intro h
  have := congrFun h (0, 0)
  norm_num at this

end Menpofit
