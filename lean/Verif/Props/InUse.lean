import Verif.Lemmas.InUse
/-!
# Properties: components that are not in use do not matter (C146)
-/

namespace Menpofit
open MI Spec InUse

variable {n d : Nat} {T : Type}

/-- **C146** for a PDM: cutting the model off after `k` components when it is made, and making it with all
components and then using `k` of them, gives shape models in the same state with the same components in
use. -/
theorem C146_pdm (k : Nat) (hk : 1 ≤ k) (m : Pca n d) (hm : m.nActive = m.comps.length) :
    ∃ q, MI.setActive (newPdm m none) k = (q, .ok ()) ∧ SamePdm (newPdm m (some k)) q := by
  obtain ⟨m', h, hs⟩ := take_active k hk m hm
  have hmean : m'.mean = m.mean := hs.mean
  have hpr : m'.project m.mean = List.replicate m'.active.length 0 := by
    rw [Pca.project, hmean, projectOn_mean]
  have hin : m'.inst (List.replicate m'.active.length 0) = .ok m.mean := by
    rw [Pca.inst, instanceOf_ok]
    exact ⟨by simp, by rw [combine_zero, hmean, add_zero]⟩
  refine ⟨⟨m', List.replicate m'.active.length 0, m.mean⟩, ?_, hs, ?_, rfl⟩
  · have : (newPdm m none).model.setActive k = .ok m' := h
    simp only [MI.setActive, this, syncState]
    have ht : (newPdm m none).target = m.mean := rfl
    rw [ht, hpr, hin]
  · rw [hs.active]; rfl

/-- **C146** for a PDM with a global similarity transform. -/
theorem C146_global_pdm (k : Nat) (hk : 1 ≤ k) (m : Pca n 2) (hm : m.nActive = m.comps.length)
    (hc : ¬ Collapsed m.mean) :
    ∃ q, gSetActive (alignmentSimilarity n) (newGPdm m (m.mean, procrustes m.mean m.mean)) k = (q, .ok ()) ∧
      SameGlobalPdm (newGPdm (trim k m) (m.mean, procrustes m.mean m.mean)) q := by
  obtain ⟨m', h, hs⟩ := take_active k hk m hm
  have hmean : m'.mean = m.mean := hs.mean
  have hpr : m'.project m.mean = List.replicate m'.active.length 0 := by
    rw [Pca.project, hmean, projectOn_mean]
  have hin : m'.inst (List.replicate m'.active.length 0) = .ok m.mean := by
    rw [Pca.inst, instanceOf_ok]
    exact ⟨by simp, by rw [combine_zero, hmean, add_zero]⟩
  refine ⟨⟨m', List.replicate m'.active.length 0, m.mean, m.mean, procrustes m.mean m.mean⟩, ?_, hs, ?_, rfl, rfl⟩
  · simp only [gSetActive, newGPdm, h, gSyncState, gTargetOf, alignmentSimilarity]
    rw [procrustes_self hc, ident_inv, ident_apply, hpr, hin]
    simp only [Except.map, ident_apply]
  · rw [hs.active]; rfl

/-- **C146** for an orthonormalised PDM, as AAMs, CLMs and APSs use: training with
`max_shape_components=k`, and training with all components and activating `k` of them, gives shape
models in the same state with the same components in use. -/
theorem C146_ortho_pdm (ortho : Ortho n) (ho : InOrder ortho) (k : Nat) (hk : 1 ≤ k) (m : Pca n 2)
    (hm : m.nActive = m.comps.length) (hc : ¬ Collapsed m.mean) :
    ∃ p q q', newOPdm ortho (trim k m) = .ok p ∧ newOPdm ortho m = .ok q ∧
      oSetActive q k = (q', .ok ()) ∧ SameOrthoPdm p q' := by
  have hkI : ¬ ((k : Int) < 1) := by omega
  have hfew := ho.fewer (similarityComponents m.mean) m.comps
  have hfirst := ho.first (similarityComponents m.mean) m.comps k
  generalize hoo : ortho (similarityComponents m.mean) m.comps = o at hfew hfirst
  have hin : ∀ cs : List (Pts n 2), instanceOf m.mean cs (List.replicate cs.length 0) = .ok m.mean := by
    intro cs
    rw [instanceOf_ok]
    exact ⟨by simp, by rw [combine_zero, add_zero]⟩
  have hnew : ∀ m₀ : Pca n 2, m₀.mean = m.mean → ∀ o₀, ortho (similarityComponents m.mean) m₀.comps = o₀ →
      newOPdm ortho m₀ = .ok
        ⟨⟨m.mean, o₀.2, min m₀.nActive o₀.2.length⟩,
          List.replicate (Pca.active ⟨m.mean, o₀.2, min m₀.nActive o₀.2.length⟩).length 0, m.mean, m.mean, o₀.1,
          List.replicate o₀.1.length 0, m.mean, ⟨1, 0, 0, 0⟩⟩ := by
    intro m₀ h0 o₀ ho₀
    simp only [newOPdm, constructSim, oTargetOf, Pca.inst, h0, ho₀, procrustes_self hc, projectOn_mean, hin,
      Except.map, ident_apply, bind, Except.bind]
  have hp := hnew (trim k m) rfl _ hfirst
  have hq := hnew m rfl _ hoo
  have hx : oSetActive
        (⟨⟨m.mean, o.2, min m.nActive o.2.length⟩,
          List.replicate (Pca.active ⟨m.mean, o.2, min m.nActive o.2.length⟩).length 0, m.mean, m.mean, o.1,
          List.replicate o.1.length 0, m.mean, ⟨1, 0, 0, 0⟩⟩ : OPdm n) k =
      (⟨⟨m.mean, o.2, min k o.2.length⟩,
          List.replicate (Pca.active ⟨m.mean, o.2, min k o.2.length⟩).length 0, m.mean, m.mean, o.1,
          List.replicate o.1.length 0, m.mean, ⟨1, 0, 0, 0⟩⟩, .ok ()) := by
    unfold oSetActive Pca.setActive
    simp only
    rw [if_neg hkI]
    simp only [Int.toNat_natCast]
    rw [oSyncState_eq]
    simp only [projectOn_mean, combine_zero, add_zero, procrustes_self hc, ident_inv, ident_apply, Pca.project]
  have hact : (Pca.active ⟨m.mean, o.2, min k o.2.length⟩ : List (Pts n 2)) =
      Pca.active ⟨m.mean, o.2.take k, min (trim k m).nActive (o.2.take k).length⟩ := by
    simp only [Pca.active, trim, hm, List.take_take, List.length_take]
    congr 1
    omega
  refine ⟨_, _, _, hp, hq, hx, ⟨rfl, hact⟩, ?_, rfl, rfl, rfl, rfl, rfl, rfl⟩
  simp only
  rw [hact]

/-- **C146** (calls): whatever targets and parameter vectors are set, shape models that differ only in
components that are not in use stay in the same state; their parameters and their Jacobians are the same.
(`C146_exceptions`: each call raises for both or for neither, and the same exception.) -/
theorem C146_calls (tr : Transforms T n d) (ortho : Ortho n) :
    (∀ (ops : List (PdmOp n d)), (∀ o ∈ ops, KeepsModel o) → ∀ p q : Pdm n d, SamePdm p q →
      SamePdm (ops.foldl pdmStep p) (ops.foldl pdmStep q) ∧ Homog.pdmDdp q.model = Homog.pdmDdp p.model) ∧
    (∀ (ops : List (PdmOp n d)), (∀ o ∈ ops, KeepsModel o) → ∀ p q : GPdm T n d, SameGlobalPdm p q →
      SameGlobalPdm (ops.foldl (gpdmStep tr) p) (ops.foldl (gpdmStep tr) q) ∧ gAsVector tr q = gAsVector tr p ∧
      ∀ nq dq lin, Homog.gpdmDdp q.model nq dq lin = Homog.gpdmDdp p.model nq dq lin) ∧
    (∀ (ops : List (PdmOp n 2)), (∀ o ∈ ops, KeepsModel o) → ∀ p q : OPdm n, SameOrthoPdm p q →
      SameOrthoPdm (ops.foldl (opdmStep ortho) p) (ops.foldl (opdmStep ortho) q) ∧
      oAsVector q = oAsVector p ∧ Homog.opdmDdp q = Homog.opdmDdp p) := by
  refine ⟨fun ops ho p q h => ⟨?_, ?_⟩, fun ops ho p q h => ⟨?_, ?_, ?_⟩, fun ops ho p q h => ⟨?_, ?_, ?_⟩⟩
  · induction ops generalizing p q with
    | nil => exact h
    | cons o ops ih =>
      refine ih (fun x hx => ho x (by simp [hx])) _ _ ?_
      have hk := ho o (by simp)
      cases o with
      | target c => exact (setTarget_pdm h c).2
      | vector v =>
        simp only [pdmStep]
        rcases fromVector_pdm h v with ⟨e, h1, h2⟩ | ⟨p', q', h1, h2, h3⟩
        · rw [h1, h2]; exact h
        · rw [h1, h2]; exact h3
      | active k => exact hk.elim
      | increment m => exact hk.elim
  · funext i k r; unfold Homog.pdmDdp; rw [h.model.active]
  · induction ops generalizing p q with
    | nil => exact h
    | cons o ops ih =>
      refine ih (fun x hx => ho x (by simp [hx])) _ _ ?_
      have hk := ho o (by simp)
      cases o with
      | target c => exact (setTarget_glob tr h c).2
      | vector v =>
        simp only [gpdmStep]
        rcases fromVector_glob tr h v with ⟨e, h1, h2⟩ | ⟨p', q', h1, h2, h3⟩
        · rw [h1, h2]; exact h
        · rw [h1, h2]; exact h3
      | active k => exact hk.elim
      | increment m => exact hk.elim
  · unfold gAsVector; rw [h.glob, h.weights]
  · intro nq dq lin; unfold Homog.gpdmDdp Homog.pdmDdp; rw [h.model.active]
  · induction ops generalizing p q with
    | nil => exact h
    | cons o ops ih =>
      refine ih (fun x hx => ho x (by simp [hx])) _ _ ?_
      have hk := ho o (by simp)
      cases o with
      | target c => exact (setTarget_ortho h c).2
      | vector v =>
        simp only [opdmStep]
        rcases fromVector_ortho h v with ⟨e, h1, h2⟩ | ⟨p', q', h1, h2, h3⟩
        · rw [h1, h2]; exact h
        · rw [h1, h2]; exact h3
      | active k => exact hk.elim
      | increment m => exact hk.elim
  · exact vector_ortho h
  · unfold Homog.opdmDdp Homog.gpdmDdp Homog.pdmDdp; rw [h.model.active, h.simComps, h.glob]

/-- **C146** (exceptions): setting a target or a parameter vector raises the same exception, or none, on
shape models that differ only in components that are not in use. -/
theorem C146_exceptions (tr : Transforms T n d) :
    (∀ p q : Pdm n d, SamePdm p q → (∀ c, (MI.setTarget q c).2 = (MI.setTarget p c).2) ∧
      ∀ v e, MI.fromVector q v = .error e ↔ MI.fromVector p v = .error e) ∧
    (∀ p q : GPdm T n d, SameGlobalPdm p q → (∀ c, (gSetTarget tr q c).2 = (gSetTarget tr p c).2) ∧
      ∀ v e, gFromVector tr q v = .error e ↔ gFromVector tr p v = .error e) ∧
    (∀ p q : OPdm n, SameOrthoPdm p q → (∀ c, (oSetTarget q c).2 = (oSetTarget p c).2) ∧
      ∀ v e, oFromVector q v = .error e ↔ oFromVector p v = .error e) := by
  refine ⟨fun p q h => ⟨fun c => (setTarget_pdm h c).1, fun v e => ?_⟩,
    fun p q h => ⟨fun c => (setTarget_glob tr h c).1, fun v e => ?_⟩,
    fun p q h => ⟨fun c => (setTarget_ortho h c).1, fun v e => ?_⟩⟩
  · rcases fromVector_pdm h v with ⟨e', h1, h2⟩ | ⟨p', q', h1, h2, -⟩ <;> simp [h1, h2]
  · rcases fromVector_glob tr h v with ⟨e', h1, h2⟩ | ⟨p', q', h1, h2, -⟩ <;> simp [h1, h2]
  · rcases fromVector_ortho h v with ⟨e', h1, h2⟩ | ⟨p', q', h1, h2, -⟩ <;> simp [h1, h2]

/-- **C146** for fitters of CLMs and APSs: a fitter of the model trained with `max_shape_components=k`, and
one made with `n_shape=k` from the model trained with all components, are made of the same algorithm (or
the constructors raise the same exception), and whatever they are asked to fit, one after the other, the
results are the same, exceptions included. -/
theorem C146_fitters {Im C : Type} (ortho : Ortho n) (ho : InOrder ortho) (k : Nat) (hk : 1 ≤ k) (m : Pca n 2)
    (hm : m.nActive = m.comps.length) (hc : ¬ Collapsed m.mean) (K : Shared.Kind n Im C) :
    ∃ p q, newOPdm ortho (trim k m) = .ok p ∧ newOPdm ortho m = .ok q ∧
      (Shared.build K (some k) q).2 = (Shared.build K none p).2 ∧
      ∀ (a : Shared.Alg K) (eps : ℝ) (rs : List (Shared.Request Im)),
        results (Shared.run K a eps) (Shared.build K (some k) q).1 rs =
          results (Shared.run K a eps) (Shared.build K none p).1 rs := by
  obtain ⟨p, q, q', hp, hq, hs, h⟩ := C146_ortho_pdm ortho ho k hk m hm hc
  refine ⟨p, q, hp, hq, ?_, fun a eps rs => ?_⟩
  · simp only [Shared.build, hs]
    exact newAlg_ortho K h
  · simp only [Shared.build, hs]
    exact results_ortho K a eps rs h

/-- **C146** for priors: the noise variance and the prior of a model cut off after `k` components are
those of the whole model with `k` components in use. -/
theorem C146_prior (s : Spectrum) (k : Nat) :
    (s.trim k).noise k = s.noise k ∧ (s.trim k).prior k = s.prior k := by
  have hn : (s.trim k).noise k = s.noise k := by
    have e : (s.kept.take k).drop k = [] := by simp
    have hp : (s.cut ++ s.kept.drop k).Perm (s.kept.drop k ++ s.cut) := List.perm_append_comm
    simp only [Spectrum.noise, Spectrum.trim, e, List.nil_append]
    by_cases h : s.kept.drop k ++ s.cut = []
    · rw [if_pos h, if_pos (by rw [h] at hp; exact hp.eq_nil)]
    · rw [if_neg h, if_neg (fun h' => h (by rw [h'] at hp; exact hp.symm.eq_nil)), hp.sum_eq, hp.length_eq]
  refine ⟨hn, ?_⟩
  funext i
  unfold Spectrum.prior
  split
  · rfl
  · rw [hn]
    congr 1
    have hi : i.val - 4 < k := by omega
    simp only [Spectrum.trim, List.getD_eq_getElem?_getD, List.getElem?_take, if_pos hi]

/-! ### Concrete cases -/

/-- An orthonormalisation that goes through the components in order: it keeps the similarity components and
subtracts from every component its parts along them. -/
noncomputable def rejection : Ortho n := fun a b =>
  (a, b.map fun c => c - (a.map fun s => (s ⬝ᵥ c) • s).sum)

/-- The hypotheses of `C146_ortho_pdm` and `C146_fitters` are met: an orthonormalisation in order, and a model of two points with
two components all of which are in use, cut off after the first. -/
example : InOrder (rejection : Ortho 2) ∧
    (∃ m : Pca 2 2, m.nActive = m.comps.length ∧ m.comps.length = 2 ∧ ¬ Collapsed m.mean) := by
  refine ⟨⟨fun a b k => ?_, fun a b => ?_⟩,
    ⟨⟨fun ij => ij.1.val, [fun _ => 1, fun ij => ij.1.val], 2⟩, rfl, rfl, fun h => ?_⟩⟩
  · simp [rejection, List.map_take]
  · simp [rejection]
  · have := (h 0 1).1
    norm_num at this

/-- Two shape models with the same component in use, only one of which has another. -/
example : ∃ p q : Pdm 2 2, SamePdm p q ∧ p.model.comps.length = 1 ∧ q.model.comps.length = 2 := by
  refine ⟨⟨⟨0, [fun _ => 1], 1⟩, [3], fun _ => 3⟩, ⟨⟨0, [fun _ => 1, fun ij => ij.1.val], 1⟩, [3], fun _ => 3⟩,
    ⟨⟨rfl, rfl⟩, rfl, rfl⟩, rfl, rfl⟩

/-- A spectrum with components that are not in use. -/
example : (⟨[4, 2, 1], [1]⟩ : Spectrum).noise 1 = 4 / 3 ∧ (Spectrum.trim 1 ⟨[4, 2, 1], [1]⟩).kept = [4] := by
  refine ⟨?_, rfl⟩
  rw [Spectrum.noise, if_neg (by simp)]
  norm_num

end Menpofit
