import Verif.Lemmas.CoarserTraining
import Verif.Props.Training
import Verif.Props.ScaleTraining
/-!
# Properties: finer scales only add to a training (C148)
-/

namespace Menpofit
open Training ScaleTrain Perturb CoarserTraining Spec

section models
variable {Im Sh F W SM AM G DM : Type} [DecidableEq F]

/-- **C148**, constructor of an AAM or CLM.  If the training with all scales succeeds, the training with the
first (coarsest) `m` scales succeeds too: the same reference shape and, scale by scale, the same models. -/
theorem C148_training (o : ImageOps Im Sh F) (L : Learners Im Sh W SM AM) (levels : List (Level F))
    (ref : Option Sh) (images : List Im) (batchSize : Option Nat) (m : Nat) (st : St Sh SM AM)
    (h : construct o L levels ref images batchSize = .ok st) :
    construct o L (levels.take m) ref images batchSize =
      .ok ⟨st.ref, st.shapeModels.take m, st.second.take m⟩ := by
  have := trainLoop_take o L levels m (batches images batchSize) 0 false ⟨ref, [], []⟩ st
    (Or.inr ⟨rfl, rfl⟩) h
  simp only [cutSt, List.take_nil] at this
  exact this

/-- **C148**, incrementing an AAM or CLM: the model cut to its first `m` scales is incremented to the incremented
model cut to its first `m` scales. -/
theorem C148_increment (o : ImageOps Im Sh F) (L : Learners Im Sh W SM AM) (levels : List (Level F))
    (st st' : St Sh SM AM) (images : List Im) (batchSize : Option Nat) (m : Nat)
    (h : incrementModel o L levels st images batchSize = .ok st') :
    incrementModel o L (levels.take m) ⟨st.ref, st.shapeModels.take m, st.second.take m⟩ images batchSize =
      .ok ⟨st'.ref, st'.shapeModels.take m, st'.second.take m⟩ :=
  trainLoop_take o L levels m (batches images batchSize) 0 true st st' (Or.inl (Or.inr rfl)) h

/-- **C148**, constructor of an APS: also the graphs and deformation models of the first `m` scales. -/
theorem C148_aps_training (o : ImageOps Im Sh F) (L : ApsOps Im Sh W G SM DM AM) (levels : List (Level F))
    (ref : Option Sh) (graphs : List (Option G)) (images : List Im) (batchSize : Option Nat) (m : Nat)
    (st : ApsSt Sh G SM DM AM) (h : apsConstruct o L levels ref graphs images batchSize = .ok st) :
    apsConstruct o L (levels.take m) ref (graphs.take m) images batchSize =
      .ok ⟨st.ref, st.graphs.take m, st.shapeModels.take m, st.deformation.take m, st.second.take m⟩ := by
  have := apsTrainLoop_take o L levels m (batches images batchSize) 0 false ⟨ref, graphs, [], [], []⟩ st
    (Or.inr ⟨rfl, rfl, rfl⟩) h
  simp only [cutAps, List.take_nil] at this
  exact this

/-- **C148**, incrementing an APS. -/
theorem C148_aps_increment (o : ImageOps Im Sh F) (L : ApsOps Im Sh W G SM DM AM) (levels : List (Level F))
    (st st' : ApsSt Sh G SM DM AM) (images : List Im) (batchSize : Option Nat) (m : Nat)
    (h : apsIncrement o L levels st images batchSize = .ok st') :
    apsIncrement o L (levels.take m) ⟨st.ref, st.graphs.take m, st.shapeModels.take m, st.deformation.take m,
        st.second.take m⟩ images batchSize =
      .ok ⟨st'.ref, st'.graphs.take m, st'.shapeModels.take m, st'.deformation.take m, st'.second.take m⟩ :=
  apsTrainLoop_take o L levels m (batches images batchSize) 0 true st st' (Or.inl (Or.inr rfl)) h

/-- **C148**, constructor of an ATM: the reference shape, the shape models and what the fitters of the first `m`
scales are built from are the same.  The lists of templates themselves are not (with several batches they repeat
the templates of all scales, `C67_atm_templates_violated`). -/
theorem C148_atm_training (o : ImageOps Im Sh F) (L : AtmOps Im Sh W SM) (levels : List (Level F))
    (ref : Option Sh) (template : Im) (shapes : List Sh) (batchSize : Option Nat) (m : Nat)
    (hm : m ≤ levels.length) (hb : batches shapes batchSize ≠ []) (st : AtmSt Sh SM W)
    (h : atmConstruct o L levels ref template shapes batchSize = .ok st) :
    ∃ s, atmConstruct o L (levels.take m) ref template shapes batchSize = .ok s ∧ s.ref = st.ref ∧
      s.shapeModels = st.shapeModels.take m ∧ atmInterfaces s = (atmInterfaces st).take m := by
  obtain ⟨s, hs, ha⟩ := atmConstruct_take o L levels ref template shapes batchSize m hm hb st h
  exact ⟨s, hs, ha.ref, ha.shapes, agree_interfaces ha⟩

/-- **C148**, incrementing an ATM: two models whose first `m` scales have the same shape models and the same
templates still do so after `increment` with the same data, the one with only the first `m` scales. -/
theorem C148_atm_increment (o : ImageOps Im Sh F) (L : AtmOps Im Sh W SM) (levels : List (Level F))
    (s st st' : AtmSt Sh SM W) (template : Im) (shapes : List Sh) (batchSize : Option Nat) (m : Nat)
    (hr : s.ref = st.ref) (hs : s.shapeModels = st.shapeModels.take m)
    (ht : s.templates.take m = st.templates.take m) (hl : m ≤ s.templates.length)
    (hl' : m ≤ st.templates.length) (h : atmIncrement o L levels st template shapes batchSize = .ok st') :
    ∃ s', atmIncrement o L (levels.take m) s template shapes batchSize = .ok s' ∧ s'.ref = st'.ref ∧
      s'.shapeModels = st'.shapeModels.take m ∧ s'.templates.take m = st'.templates.take m ∧
      atmInterfaces s' = (atmInterfaces st').take m := by
  obtain ⟨s', hs', ha⟩ := atmTrain_inc o L levels m (batches shapes batchSize) 0 true template s st st'
    (Or.inr rfl) ⟨hr, hs, ht, hl, hl'⟩ h
  exact ⟨s', hs', ha.ref, ha.shapes, ha.temps, agree_interfaces ha⟩

end models

section cascades
variable {S P T : Type}

/-- **C148**, dlib training: with the first `m` scales only, the training succeeds whenever it does with all of them,
and at each of these scales the algorithm sees the same images, ground truths and shapes and returns the same. -/
theorem C148_ert_training (g : Geom S P) (perturb : Nat → S → S → Except PyErr S) (ops : Ops S P T)
    (group : String) (glob : Option (String → Bool)) (nPert n m : Nat) (hm : m ≤ n) (images : List (Perturb.Im S P))
    (r : List (Scale S P T) × List (Perturb.Im S P))
    (h : trainErt g perturb ops group glob nPert n images = .ok r) :
    ∃ ims, trainErt g perturb ops group glob nPert m images = .ok (r.1.take m, ims) := by
  unfold trainErt at h ⊢
  rcases hg : generate g perturb nPert (some group) glob images with ⟨b, e⟩
  rw [hg] at h
  cases e with
  | some e => cases h
  | none =>
    simp only at h ⊢
    cases m with
    | zero => exact ⟨b, by simp⟩
    | succ m =>
      obtain ⟨k, rfl⟩ : ∃ k, n = k + 1 := ⟨n - 1, by omega⟩
      exact ertLoop_take _ group nPert k m 0 b r (by omega) h

/-- **C148**, supervised descent training, for features and rescalings that keep the names of the landmark groups
(`MovesLandmarks`) and images without a group called `__sdm_current_shape_0` of their own: with the first `m` scales
only, the training succeeds whenever it does with all of them, and at each of these scales the algorithm sees the
same images, ground truths and shapes and returns the same. -/
theorem C148_sdm_training (g : Geom S P) (perturb : Nat → S → S → Except PyErr S) (ops : Ops S P T)
    (inv : T → S → S) (hmv : MovesLandmarks ops inv) (group : String) (glob : Option (String → Bool))
    (nPert n m : Nat) (hm : m ≤ n) (images batch : List (Perturb.Im S P))
    (hg : generate g perturb nPert (some group) glob images = (batch, none))
    (hk : ∀ im ∈ batch, sdmKey 0 ∉ im.lms.map Prod.fst)
    (r : List (Scale S P T) × List (Perturb.Im S P))
    (h : trainSdm g perturb ops group glob nPert n images = .ok r) :
    ∃ ims, trainSdm g perturb ops group glob nPert m images = .ok (r.1.take m, ims) := by
  unfold trainSdm at h ⊢
  rw [hg] at h ⊢
  simp only at h ⊢
  cases m with
  | zero => exact ⟨batch, by simp⟩
  | succ m =>
    obtain ⟨k, rfl⟩ : ∃ k, n = k + 1 := ⟨n - 1, by omega⟩
    have hm' : MovesLandmarks { ops with key := sdmKey } inv := ⟨hmv.feature, hmv.rescale⟩
    obtain ⟨r', hr'⟩ := scaleLoop_cut hm' (fun j k h => numbered_inj h) group nPert k m 0 batch none r (by omega)
      (Or.inr hk) h
    refine ⟨r'.2, hr'.trans ?_⟩
    rw [← scaleLoop_take _ group nPert k m 0 batch none r r' (by omega) h hr']

/-- The same without these conditions, when both trainings succeed (with an own group of that name, the clean-up at
the last scale of the shorter training may raise). -/
theorem C148_sdm_same (g : Geom S P) (perturb : Nat → S → S → Except PyErr S) (ops : Ops S P T)
    (group : String) (glob : Option (String → Bool)) (nPert n m : Nat) (hm : m ≤ n) (images : List (Perturb.Im S P))
    (r r' : List (Scale S P T) × List (Perturb.Im S P))
    (h : trainSdm g perturb ops group glob nPert n images = .ok r)
    (h' : trainSdm g perturb ops group glob nPert m images = .ok r') :
    r'.1 = r.1.take m := by
  unfold trainSdm at h h'
  rcases hg : generate g perturb nPert (some group) glob images with ⟨b, e⟩
  rw [hg] at h h'
  cases e with
  | some e => cases h
  | none =>
    simp only at h h'
    cases m with
    | zero => cases h'; simp
    | succ m =>
      obtain ⟨k, rfl⟩ : ∃ k, n = k + 1 := ⟨n - 1, by omega⟩
      exact scaleLoop_take _ group nPert k m 0 b none r r' (by omega) h h'

end cascades

/-! ### Concrete cases: two scales in several batches, three scales of a cascade -/

example : ∃ st, construct numberOps numberAam twoLevels none [1, 2, 3, 4, 5] (some 2) = .ok st ∧
    st.shapeModels = [[-4, -6, -8, -10, -12], [2, 3, 4]] ∧
    construct numberOps numberAam (twoLevels.take 1) none [1, 2, 3, 4, 5] (some 2) =
      .ok ⟨some 1, [[-4, -6, -8, -10, -12]], [[-9, -13, -17, -21]]⟩ :=
  ⟨⟨some 1, [[-4, -6, -8, -10, -12], [2, 3, 4]], [[-9, -13, -17, -21], [4, 6, 8, 10, 12]]⟩,
    by decide +kernel, rfl, C148_training numberOps numberAam twoLevels none [1, 2, 3, 4, 5] (some 2) 1
      ⟨some 1, [[-4, -6, -8, -10, -12], [2, 3, 4]], [[-9, -13, -17, -21], [4, 6, 8, 10, 12]]⟩
      (by decide +kernel)⟩

example : incrementModel numberOps numberAam (twoLevels.take 1) ⟨some 1, [[7]], [[9]]⟩ [1, 2] (some 1) =
    .ok ⟨some 1, [[7, -4, -6]], [[9, -9, -13]]⟩ :=
  C148_increment numberOps numberAam twoLevels ⟨some 1, [[7], [8]], [[9], [10]]⟩
    ⟨some 1, [[7, -4, -6], [8, 2, 3]], [[9, -9, -13], [10, 4, 6]]⟩ [1, 2] (some 1) 1 (by decide +kernel)

example : ∃ st, apsConstruct numberOps numberAps (twoLevels.take 1) none [some ()] [1, 2, 3] (some 2) = .ok st ∧
    st.shapeModels = [[-4, -6, -8]] :=
  ⟨_, C148_aps_training numberOps numberAps twoLevels none [some (), none] [1, 2, 3] (some 2) 1
    ⟨some 1, [some (), some ()], [[-4, -6, -8], [2, 3, 4]], [[-4, -6, -8], [2, 3, 4]],
      [[-8, -12, -16], [5, 7, 9]]⟩ (by decide +kernel), rfl⟩

example : ∃ st', apsIncrement numberOps numberAps twoLevels ⟨some 1, [some (), some ()], [[1], [2]], [[3], [4]],
    [[5], [6]]⟩ [1, 2] (some 1) = .ok st' := by
  refine ⟨⟨some 1, [some (), some ()], [[1, -4, -6], [2, 2, 3]], [[3, -4, -6], [4, 2, 3]],
    [[5, -8, -12], [6, 5, 7]]⟩, ?_⟩
  decide +kernel

example : ∃ s, atmConstruct numberOps numberAtm (twoLevels.take 1) none 5 [1, 2, 3] (some 2) = .ok s ∧
    s.ref = some 1 ∧ s.shapeModels = [[-1, -2, -3]] ∧ atmInterfaces s = [(-13, [-1, -2, -3])] :=
  C148_atm_training numberOps numberAtm twoLevels none 5 [1, 2, 3] (some 2) 1 (by decide) (by decide +kernel)
    ⟨some 1, [[-1, -2, -3], [1, 2, 3]], [-13, 6, -13, 6]⟩ (by decide +kernel)

example : ∃ s', atmIncrement numberOps numberAtm (twoLevels.take 1) ⟨some 1, [[1]], [-13, -13]⟩ 50 [4] none = .ok s' ∧
    s'.ref = some 1 ∧ s'.shapeModels = [[1, -4]] ∧ s'.templates.take 1 = [-13] ∧
    atmInterfaces s' = [(-13, [1, -4])] :=
  C148_atm_increment numberOps numberAtm twoLevels ⟨some 1, [[1]], [-13, -13]⟩ ⟨some 1, [[1], [1]], [-13, 6]⟩
    ⟨some 1, [[1, -4], [1, 4]], [-13, 6, -103, 51]⟩ 50 [4] none 1 rfl rfl rfl (by decide) (by decide)
    (by decide +kernel)

example : ∃ ims, trainSdm numberGeom (fun c gt bb => .ok (100 * c + gt + bb)) numberScaleOps "PTS" none 2 1
    [⟨[("PTS", 51)], 9999⟩] = .ok ([⟨[⟨[("PTS", 51), ("__generated_bb_0", 3102), ("__generated_bb_1", 3202)], 9999⟩],
      [0], [51], [[3102, 3202]], [[3103, 3203]]⟩], ims) := by
  refine C148_sdm_training numberGeom (fun c gt bb => .ok (100 * c + gt + bb)) numberScaleOps
    (fun j s => s - 10 * j) ⟨fun _ _ => rfl, fun j im im' t h => by
      simp only [numberScaleOps, Except.ok.injEq, Prod.mk.injEq] at h
      rw [← h.1, ← h.2]⟩ "PTS" none 2 3 1 (by decide) [⟨[("PTS", 51)], 9999⟩]
    [⟨[("PTS", 51), ("__generated_bb_0", 3102), ("__generated_bb_1", 3202)], 9999⟩] (by decide +kernel)
    (by decide +kernel) _ rfl

example : ∃ r r', trainSdm numberGeom (fun c gt bb => .ok (100 * c + gt + bb)) numberScaleOps "PTS" none 2 3
      [⟨[("PTS", 51)], 9999⟩] = .ok r ∧
    trainSdm numberGeom (fun c gt bb => .ok (100 * c + gt + bb)) numberScaleOps "PTS" none 2 2
      [⟨[("PTS", 51)], 9999⟩] = .ok r' ∧ r'.1.map Scale.output = [[[3103, 3203]], [[3094, 3194]]] := by
  refine ⟨_, _, rfl, rfl, ?_⟩; decide +kernel

example : ∃ r, trainErt numberGeom (fun c gt bb => .ok (100 * c + gt + bb)) numberScaleOps "PTS" none 2 3
    [⟨[("PTS", 51)], 9999⟩] = .ok r ∧ r.1.length = 3 := by
  refine ⟨_, rfl, ?_⟩; decide +kernel

end Menpofit
