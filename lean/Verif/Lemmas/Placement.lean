import Verif.Model.Placement
import Verif.Spec.Placement
import Verif.Lemmas.ModelInstanceState
import Verif.Lemmas.Optim
import Verif.Lemmas.Clm
import Verif.Lemmas.GaussNewton
import Verif.Lemmas.Result
/-!
# Helper lemmas for moving pictures (C124)
-/

namespace Menpofit
namespace Place
open MI Matrix Warp ClmRun Spec Optim

variable {N : Nat}

/-- The shape all of whose points are `t`. -/
def trans (N : Nat) (t : Fin 2 → ℝ) : Pts N 2 := fun ij => t ij.2

theorem movedShape_eq (t : Fin 2 → ℝ) (s : Pts N 2) : movedShape t s = s + trans N t := rfl

theorem trans_eq (t : Fin 2 → ℝ) : trans N t = t 0 • ex N + t 1 • ey N := by
  funext ⟨i, j⟩
  match j with
  | 0 => simp [trans, ex, ey]
  | 1 => simp [trans, ex, ey]

/-- What moving needs of the state of an `OrthoPDM`. -/
structure Movable (M : OPdm N) : Prop where
  four : M.simComps.length = 4
  orth : OrthonormalList M.simComps
  span : ∀ t, trans N t ∈ Submodule.span ℝ {c | c ∈ M.simComps}

theorem movable_of_spec {M : OPdm N} {mean : Pts N 2} (h4 : M.simComps.length = 4)
    (ho : OrthonormalList M.simComps)
    (hs : Submodule.span ℝ {c | c ∈ M.simComps} = Submodule.span ℝ {c | c ∈ similarityComponents mean}) :
    Movable M := by
  refine ⟨h4, ho, fun t => ?_⟩
  rw [hs, sim_span_iff]
  exact ⟨0, 0, t 0, t 1, by rw [trans_eq]; module⟩

theorem movable_construct (ortho : Ortho N) (M : OPdm N)
    (ho : OrthoSpec ortho (similarityComponents M.model.mean) M.model.comps) :
    Movable (constructSim ortho M) := by
  obtain ⟨o1, o2, o3⟩ := ho
  exact movable_of_spec (mean := M.model.mean) (by simp only [constructSim]; rw [o1]; simp [similarityComponents])
    (orth_sublist (List.sublist_append_left _ _) o2) o3

theorem movable_same {M M' : OPdm N} (h : M'.simComps = M.simComps) (hM : Movable M) : Movable M' :=
  ⟨by rw [h]; exact hM.four, by rw [h]; exact hM.orth, by rw [h]; exact hM.span⟩

theorem oSync_simComps (M : OPdm N) : (oSyncState M).1.simComps = M.simComps := by
  rw [oSyncState_eq]

theorem oFrom_simComps {M r : OPdm N} {v} (h : oFromVector M v = .ok r) : r.simComps = M.simComps := by
  simp only [oFromVector, oUpdateGlobalWeights, bind, Except.bind] at h
  cases ht : instanceOf M.simMean M.simComps (v.take 4) with
  | error e => simp [ht] at h
  | ok t =>
    simp only [ht] at h
    split at h
    · cases h
    · injection h with h; subst h; rfl

theorem movable_step (ortho : Ortho N) (M : OPdm N) (o : PdmOp N 2)
    (ho : ∀ m, o = .increment m → OrthoSpec ortho (similarityComponents m.mean) m.comps)
    (hM : Movable M) : Movable (opdmStep ortho M o) := by
  have target : ∀ (M : OPdm N) c, Movable M → Movable (oSetTarget M c).1 := by
    intro M c hM
    unfold oSetTarget
    split
    · exact hM
    · exact movable_same (M := M) (oSync_simComps _) hM
  cases o with
  | target c => exact target M c hM
  | vector v =>
    simp only [opdmStep]
    split
    · next h => exact movable_same (oFrom_simComps h) hM
    · exact hM
  | active k =>
    simp only [opdmStep, oSetActive]
    split
    · exact hM
    · exact movable_same (M := M) (oSync_simComps _) hM
  | increment m =>
    refine target _ _ (movable_construct ortho { M with model := m } (ho m rfl))

theorem movable_reach (ortho : Ortho N) (m : Pca N 2)
    (h0 : OrthoSpec ortho (similarityComponents m.mean) m.comps) {M₀ : OPdm N}
    (hn : newOPdm ortho m = .ok M₀) (ops : List (PdmOp N 2))
    (ho : ∀ m', .increment m' ∈ ops → OrthoSpec ortho (similarityComponents m'.mean) m'.comps) :
    Movable (ops.foldl (opdmStep ortho) M₀) := by
  have h : Movable M₀ := by
    obtain ⟨r, hr, -, -, -, h4, -⟩ := newOPdm_eq ortho m
    rw [hr] at hn; injection hn with hn; subst hn
    obtain ⟨o1, o2, o3⟩ := h0
    refine movable_of_spec (mean := m.mean) (by rw [h4, o1]; simp [similarityComponents]) ?_ ?_
    · rw [h4]; exact orth_sublist (List.sublist_append_left _ _) o2
    · rw [h4]; exact o3
  clear hn h0
  induction ops generalizing M₀ with
  | nil => exact h
  | cons o os ih =>
    exact ih (fun x hx => ho x (by simp [hx]))
      (movable_step ortho M₀ o (fun m' e => ho m' (by simp [e])) h)

/-! ### Combinations -/

theorem combine_add (cs : List (Pts N 2)) (w w' : List ℝ) (h : w.length = w'.length) :
    combine (List.zipWith (· + ·) w w') cs = combine w cs + combine w' cs := by
  induction cs generalizing w w' with
  | nil => simp
  | cons c cs ih =>
    cases w with
    | nil => cases w' with
      | nil => simp
      | cons b w' => simp at h
    | cons a w => cases w' with
      | nil => simp at h
      | cons b w' =>
        simp only [List.zipWith_cons_cons, combine_cons, ih w w' (by simpa using h)]
        module

theorem combine_span {cs : List (Pts N 2)} (o : OrthonormalList cs) {y : Pts N 2}
    (hy : y ∈ Submodule.span ℝ {c | c ∈ cs}) : combine (cs.map fun c => c ⬝ᵥ y) cs = y := by
  obtain ⟨r, hr⟩ : ∃ r, r = y - combine (cs.map fun c => c ⬝ᵥ y) cs := ⟨_, rfl⟩
  have h1 : ∀ c ∈ cs, r ⬝ᵥ c = 0 := by
    intro c hc; rw [dotProduct_comm, hr]; exact resid_orth o y c hc
  have h2 : r ∈ Submodule.span ℝ {c | c ∈ cs} := by
    rw [hr]; exact Submodule.sub_mem _ hy (combine_mem _ _)
  have h3 : r ⬝ᵥ r = 0 := orth_span h1 h2
  have h4 : r = 0 := dotProduct_self_eq_zero.mp h3
  rw [h4] at hr
  exact (sub_eq_zero.mp hr.symm).symm

/-! ### The alignment -/

/-- A similarity followed by a translation. -/
def Sim.then (s : Sim) (t : Fin 2 → ℝ) : Sim := ⟨s.a, s.b, s.tx + t 0, s.ty + t 1⟩

theorem then_apply (s : Sim) (t : Fin 2 → ℝ) (x : Pts N 2) :
    (Sim.then s t).apply x = s.apply x + trans N t := by
  funext ⟨i, j⟩
  match j with
  | 0 => simp [Sim.apply, Sim.then, trans]; ring
  | 1 => simp [Sim.apply, Sim.then, trans]; ring

theorem then_inv (s : Sim) (t : Fin 2 → ℝ) (x : Pts N 2) :
    (Sim.then s t).inv.apply (x + trans N t) = s.inv.apply x := by
  funext ⟨i, j⟩
  match j with
  | 0 => simp [Sim.apply, Sim.inv, Sim.then, trans]; ring
  | 1 => simp [Sim.apply, Sim.inv, Sim.then, trans]; ring

theorem centroid_trans (hN : 0 < N) (x : Pts N 2) (t : Fin 2 → ℝ) (j : Fin 2) :
    centroid (x + trans N t) j = centroid x j + t j := by
  have hn' : (N : ℝ) ≠ 0 := by exact_mod_cast hN.ne'
  simp only [centroid, Pi.add_apply, trans, Finset.sum_add_distrib, Finset.sum_const,
    Finset.card_univ, Fintype.card_fin, nsmul_eq_mul]
  field_simp

theorem centred_trans (hN : 0 < N) (x : Pts N 2) (t : Fin 2 → ℝ) : centred (x + trans N t) = centred x := by
  funext ij
  simp only [centred, centroid_trans hN, Pi.add_apply, trans]
  ring

theorem procrustes_trans (hN : 0 < N) (s x : Pts N 2) (t : Fin 2 → ℝ) :
    procrustes s (x + trans N t) = Sim.then (procrustes s x) t := by
  simp only [procrustes, centred_trans hN, centroid_trans hN, Sim.then, Sim.mk.injEq, true_and]
  constructor <;> ring

theorem movable_pos {M : OPdm N} (h : Movable M) : 0 < N := by
  rcases Nat.eq_zero_or_pos N with rfl | hN
  · exfalso
    obtain ⟨c, hc⟩ : ∃ c, c ∈ M.simComps := by
      cases hl : M.simComps with
      | nil => have := h.four; rw [hl] at this; simp at this
      | cons c cs => exact ⟨c, by simp⟩
    have := h.orth.1 c hc
    simp at this
  · exact hN

/-! ### Parameters and shapes of an OrthoPDM -/

/-- The change of the parameters. -/
noncomputable def shiftOf (M : OPdm N) (t : Fin 2 → ℝ) : Fin (nPar M) → ℝ := fun i =>
  (M.simComps.map fun c => c ⬝ᵥ trans N t).getD i.val 0

theorem shiftOf_only {M : OPdm N} (h : Movable M) (t : Fin 2 → ℝ) : OnlySimilarity (shiftOf M t) := by
  intro i hi
  simp only [shiftOf]
  rw [List.getD_eq_default]
  simp [h.four, hi]

theorem oSetTarget_self (M : OPdm N) (s : Pts N 2) :
    (oSetTarget M ⟨N, 2, s⟩) = oSyncState { M with target := s } := by
  unfold oSetTarget
  rw [cloud_fit]

theorem set_moved {M : OPdm N} (h : Movable M) (t : Fin 2 → ℝ) (s : Pts N 2) :
    let r := (oSetTarget M ⟨N, 2, s⟩).1
    let r' := (oSetTarget M ⟨N, 2, movedShape t s⟩).1
    r'.simWeights = List.zipWith (· + ·) r.simWeights (M.simComps.map fun c => c ⬝ᵥ trans N t) ∧
    r'.weights = r.weights ∧ r'.target = movedShape t r.target := by
  have hN := movable_pos h
  have e := oSyncState_eq { M with target := s }
  have e' := oSyncState_eq { M with target := movedShape t s }
  simp only at e e'
  have hq : projectOn M.simMean M.simComps (movedShape t s) =
      List.zipWith (· + ·) (projectOn M.simMean M.simComps s) (M.simComps.map fun c => c ⬝ᵥ trans N t) := by
    unfold projectOn
    rw [List.zipWith_map_left, List.zipWith_map_right, List.zipWith_self]
    apply List.map_congr_left
    intro c _
    rw [movedShape_eq, ← dotProduct_add]
    congr 1; abel
  have hg : procrustes M.source (M.simMean + combine (projectOn M.simMean M.simComps (movedShape t s)) M.simComps)
      = Sim.then (procrustes M.source (M.simMean + combine (projectOn M.simMean M.simComps s) M.simComps)) t := by
    rw [hq, combine_add _ _ _ (by simp), combine_span h.orth (h.span t), ← add_assoc, procrustes_trans hN]
  have hw : ∀ g : Sim, M.model.project ((Sim.then g t).inv.apply (movedShape t s)) =
      M.model.project (g.inv.apply s) := by
    intro g; rw [movedShape_eq, then_inv]
  rw [hg, hw] at e'
  rw [oSetTarget_self, oSetTarget_self, e, e']
  exact ⟨hq, rfl, by simp only [then_apply]; rfl⟩

theorem set_lengths {M : OPdm N} (h : Movable M) (s : Pts N 2) :
    (oSetTarget M ⟨N, 2, s⟩).1.simWeights.length = 4 ∧
    (oSetTarget M ⟨N, 2, s⟩).1.weights.length = M.model.active.length := by
  rw [oSetTarget_self, oSyncState_eq]
  simp [h.four, Pca.project]

theorem pdmParams_moved {M : OPdm N} (h : Movable M) (t : Fin 2 → ℝ) (s : Pts N 2) :
    pdmParams M (movedShape t s) = pdmParams M s + shiftOf M t := by
  obtain ⟨h1, h2, -⟩ := set_moved h t s
  obtain ⟨l1, l2⟩ := set_lengths h s
  funext i
  simp only [pdmParams, oAsVector, Pi.add_apply, shiftOf]
  rw [h1, h2]
  by_cases hi : i.val < 4
  · rw [List.getD_append _ _ _ _ (by simp [l1, h.four, hi]), List.getD_append _ _ _ _ (by simp [l1, hi])]
    have a1 : i.val < (oSetTarget M ⟨N, 2, s⟩).1.simWeights.length := by rw [l1]; exact hi
    have a2 : i.val < (M.simComps.map fun c => c ⬝ᵥ trans N t).length := by simp [h.four, hi]
    rw [List.getD_eq_getElem _ _ (by simp [l1, h.four, hi]), List.getD_eq_getElem _ _ a1,
      List.getD_eq_getElem _ _ a2, List.getElem_zipWith]
  · rw [List.getD_append_right _ _ _ _ (by simp [l1, h.four]; omega),
      List.getD_append_right _ _ _ _ (by simp [l1]; omega)]
    rw [List.getD_eq_default (M.simComps.map fun c => c ⬝ᵥ trans N t) _ (by simp [h.four]; omega), add_zero]
    congr 1
    simp [l1, h.four]

/-- The shape at given parameters. -/
theorem pdmShape_eq {M : OPdm N} (h : Movable M) (v : Fin (nPar M) → ℝ) :
    pdmShape M v = (procrustes M.source (M.simMean + combine ((List.ofFn v).take 4) M.simComps)).apply
      (M.model.mean + combine ((List.ofFn v).drop 4) M.model.active) := by
  unfold pdmShape
  have e1 : instanceOf M.simMean M.simComps ((List.ofFn v).take 4) =
      .ok (M.simMean + combine ((List.ofFn v).take 4) M.simComps) :=
    instanceOf_ok.mpr ⟨by simp [h.four], rfl⟩
  have e2 : instanceOf M.model.mean M.model.active ((List.ofFn v).drop 4) =
      .ok (M.model.mean + combine ((List.ofFn v).drop 4) M.model.active) :=
    instanceOf_ok.mpr ⟨by simp, rfl⟩
  simp only [oFromVector, oUpdateGlobalWeights, e1, bind, Except.bind, oTargetOf, Pca.inst, e2, Except.map]

theorem pdmShape_moved {M : OPdm N} (h : Movable M) (t : Fin 2 → ℝ) (v : Fin (nPar M) → ℝ) :
    pdmShape M (v + shiftOf M t) = movedShape t (pdmShape M v) := by
  rw [pdmShape_eq h, pdmShape_eq h]
  have h1 : (List.ofFn (v + shiftOf M t)).take 4 =
      List.zipWith (· + ·) ((List.ofFn v).take 4) (M.simComps.map fun c => c ⬝ᵥ trans N t) := by
    apply List.ext_getElem
    · simp [h.four]
    · intro i a b
      have hi : i < 4 := by simp at a; omega
      simp only [List.getElem_take, List.getElem_ofFn, List.getElem_zipWith, Pi.add_apply, shiftOf]
      rw [List.getD_eq_getElem _ _ (by simp [h.four, hi])]
  have h2 : (List.ofFn (v + shiftOf M t)).drop 4 = (List.ofFn v).drop 4 := by
    apply List.ext_getElem
    · simp
    · intro i a b
      simp only [List.getElem_drop, List.getElem_ofFn, Pi.add_apply]
      rw [shiftOf_only h t _ (by simp), add_zero]
  rw [h1, h2, combine_add _ _ _ (by simp [h.four]), combine_span h.orth (h.span t), ← add_assoc,
    procrustes_trans (movable_pos h), then_apply]
  rfl

theorem distance_moved (t : Fin 2 → ℝ) (s s' : Pts N 2) :
    shapeDistance (movedShape t s) (movedShape t s') = shapeDistance s s' := by
  simp [shapeDistance, movedShape]

end Place
end Menpofit
