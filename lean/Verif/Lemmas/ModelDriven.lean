import Verif.Spec.ModelDriven
import Verif.Spec.GaussNewton
import Verif.Lemmas.Quadratic
import Verif.Lemmas.ModelInstanceState
/-!
# Lemmas for model-driven transforms
-/

namespace Menpofit
namespace MDT
open Matrix MI Homog Spec

variable {Q A : Type} {n d : Nat}

/-- An operation of a shape model that raises leaves its target unchanged. -/
structure Lawful (o : Ops Q n d) : Prop where
  sync : ∀ q, (o.sync q).2 = .ok ()
  set : ∀ q c t, c.fit n d = some t → (o.setTarget q c).2 = .ok ()
  vec : ∀ q v e, (o.fromVectorInplace q v).2 = .error e →
    o.target (o.fromVectorInplace q v).1 = o.target q

theorem plain_lawful : Lawful (plain n d) where
  sync q := by simp [plain, syncState_eq]
  set q c t h := by simp [plain, setTarget_ok q h]
  vec q v e h := by
    simp only [plain, MI.fromVectorInplace] at h ⊢
    split at h <;> simp_all

theorem glob_lawful : Lawful (glob n) where
  sync q := by
    simp only [glob, gSyncState, gTargetOf, Pca.project, Pca.inst, instanceOf_project, Except.map]
  set q c t h := by
    simp only [glob, gSetTarget, h, gSyncState, gTargetOf, Pca.project, Pca.inst, instanceOf_project,
      Except.map]
  vec q v e h := by
    simp only [glob, gFromVectorInplace] at h ⊢
    cases h1 : (alignmentSimilarity n).ofVec q.glob (v.take 4) with
    | error e => simp
    | ok g =>
      simp only [h1] at h ⊢
      split at h <;> simp_all

theorem ortho_lawful : Lawful (ortho n) where
  sync q := by simp [ortho, oSyncState_eq]
  set q c t h := by simp [ortho, oSetTarget, h, oSyncState_eq]
  vec q v e h := by
    simp only [ortho, oFromVectorInplace] at h ⊢
    cases h1 : oUpdateGlobalWeights q (v.take 4) with
    | error e => simp
    | ok g =>
      have : g.target = q.target := by
        simp only [oUpdateGlobalWeights, bind, Except.bind] at h1
        split at h1
        · cases h1
        · injection h1 with h1; rw [← h1]
      simp only [h1] at h ⊢
      split at h <;> simp_all

theorem mdStep_target [DecidableEq A] {o : Ops Q n d} (ho : Lawful o) (ddl : A → DW n d)
    (x : (Nat → A) × Md Q n d) (op : MdOp A) (h : x.2.warpTarget = o.target x.2.pdm) :
    (mdStep o ddl x op).2.warpTarget = o.target (mdStep o ddl x op).2.pdm := by
  cases op with
  | write a v => exact h
  | jac a =>
    simp only [mdStep, dDp]
    split <;> rename_i h1 <;> split at h1 <;> simp_all
    all_goals (obtain ⟨h1, h2⟩ := h1; subst h1; simpa using h)
  | target c =>
    simp only [mdStep, MDT.setTarget]
    cases hc : c.fit n d with
    | none => exact h
    | some t =>
      have h1 := ho.set x.2.pdm c t hc
      obtain ⟨q, hq⟩ : ∃ q, o.setTarget x.2.pdm c = (q, .ok ()) := ⟨_, Prod.ext rfl h1⟩
      obtain ⟨q', hq'⟩ : ∃ q', o.sync q = (q', .ok ()) := ⟨_, Prod.ext rfl (ho.sync q)⟩
      simp [hq, hq']
  | vector v =>
    simp only [mdStep, MDT.fromVectorInplace]
    have h2 := ho.vec x.2.pdm v
    rcases hq : o.fromVectorInplace x.2.pdm v with ⟨q, e | _⟩
    · simp only [hq] at h2 ⊢
      rw [h2 e rfl, h]
    · simp

/-- The pieces of the cache invariant. -/
def CacheInv (ddl : A → DW n d) (x : (Nat → A) × Md Q n d) (hist : List (MdOp A)) : Prop :=
  ∀ a dl, x.2.cached = some (a, dl) → dl = ddl (x.1 a) ∧ MdOp.jac a ∈ hist

theorem cached_set {o : Ops Q n d} (s : Md Q n d) (c) : (MDT.setTarget o s c).1.cached = s.cached := by
  simp only [MDT.setTarget]
  split
  · rfl
  · split
    · rfl
    · split <;> rfl

theorem cached_vec {o : Ops Q n d} (s : Md Q n d) (v) :
    (MDT.fromVectorInplace o s v).1.cached = s.cached := by
  simp only [MDT.fromVectorInplace]
  split <;> rfl

theorem dDp_eq [DecidableEq A] (o : Ops Q n d) (ddl : A → DW n d) (heap : Nat → A) (s : Md Q n d)
    (a : Nat) (h : ∀ b dl, s.cached = some (b, dl) → dl = ddl (heap b)) :
    (dDp o ddl heap s a).2 = (o.ddp s.pdm).map (contract (ddl (heap a))) ∧
    (dDp o ddl heap s a).1.pdm = s.pdm ∧
    ((dDp o ddl heap s a).1.cached = s.cached ∨
      (dDp o ddl heap s a).1.cached = some (a, ddl (heap a))) := by
  unfold dDp
  cases hc : s.cached with
  | none =>
    simp only [hc]
    cases o.ddp s.pdm <;> simp [bind, Except.bind, Except.map]
  | some c =>
    obtain ⟨b, dl⟩ := c
    have := h b dl hc
    by_cases he : heap b = heap a
    · simp only [hc, if_pos he]
      rw [this, he]
      cases o.ddp s.pdm <;> simp [bind, Except.bind, Except.map, hc, this, he]
    · simp only [hc, if_neg he]
      cases o.ddp s.pdm <;> simp [bind, Except.bind, Except.map]

theorem cacheInv_run [DecidableEq A] (o : Ops Q n d) (ddl : A → DW n d) (ops : List (MdOp A)) :
    ∀ (hist : List (MdOp A)) (x : (Nat → A) × Md Q n d), NoOverwrite (hist ++ ops) →
      CacheInv ddl x hist → CacheInv ddl (ops.foldl (mdStep o ddl) x) (hist ++ ops) := by
  induction ops with
  | nil => intro hist x _ h; simpa using h
  | cons op ops ih =>
    intro hist x hn h
    have e : hist ++ op :: ops = (hist ++ [op]) ++ ops := by simp
    rw [e] at hn ⊢
    refine ih _ _ hn ?_
    intro a dl hc
    cases op with
    | write b v =>
      simp only [mdStep] at hc ⊢
      obtain ⟨h1, h2⟩ := h a dl hc
      have hne : a ≠ b := by
        rintro rfl
        exact hn hist ops a v (by simp) h2
      rw [Function.update_of_ne hne]
      exact ⟨h1, by simp [h2]⟩
    | jac b =>
      have hd := dDp_eq o ddl x.1 x.2 b fun b dl hb => (h b dl hb).1
      simp only [mdStep] at hc ⊢
      rcases hd.2.2 with h3 | h3
      · rw [h3] at hc
        obtain ⟨h1, h2⟩ := h a dl hc
        exact ⟨h1, by simp [h2]⟩
      · rw [h3] at hc
        injection hc with hc
        injection hc with h4 h5
        subst h4
        exact ⟨h5.symm, by simp⟩
    | target c =>
      simp only [mdStep, cached_set] at hc ⊢
      obtain ⟨h1, h2⟩ := h a dl hc
      exact ⟨h1, by simp [h2]⟩
    | vector v =>
      simp only [mdStep, cached_vec] at hc ⊢
      obtain ⟨h1, h2⟩ := h a dl hc
      exact ⟨h1, by simp [h2]⟩

/-! ### Least squares -/

/-- A Jacobian as a matrix. -/
def asMatrix (k : Nat) (jac : Jac n d) : Matrix (Fin n × Fin d) (Fin k) ℝ :=
  Matrix.of fun x j => jac x.1 j x.2

theorem gram_eq (k : Nat) (a b : Jac n d) :
    (Matrix.of fun j l => ∑ i, ∑ c, a i j c * b i l c : Matrix (Fin k) (Fin k) ℝ) =
      (asMatrix k a)ᵀ * asMatrix k b := by
  ext j l
  simp only [of_apply, mul_apply, transpose_apply, asMatrix, Fintype.sum_prod_type]

theorem independent_det {k : Nat} {jac : Jac n d} (h : Independent k jac) :
    ((asMatrix k jac)ᵀ * asMatrix k jac).det ≠ 0 := by
  intro h0
  obtain ⟨v, hv, hm⟩ := exists_mulVec_eq_zero_iff.mpr h0
  apply hv
  apply h
  have h1 : v ⬝ᵥ (((asMatrix k jac)ᵀ * asMatrix k jac) *ᵥ v) = 0 := by rw [hm, dotProduct_zero]
  rw [← mulVec_mulVec, dot_transpose] at h1
  have h2 : ∀ x, (asMatrix k jac *ᵥ v) x = 0 := by
    have := (Finset.sum_eq_zero_iff_of_nonneg (fun x _ => mul_self_nonneg _)).mp h1
    intro x
    exact mul_self_eq_zero.mp (this x (Finset.mem_univ _))
  intro i r
  exact h2 (i, r)

theorem mismatch_eq {k : Nat} (dWdp dWdp0 : Jac n d) (dWdx : Fin n → Fin d → Fin d → ℝ)
    (delta inc : Fin k → ℝ) :
    mismatch dWdp dWdp0 dWdx delta inc =
      regEnergy 1 (asMatrix k dWdp)
        (fun x => -(∑ c, dWdx x.1 x.2 c * ∑ l : Fin k, dWdp0 x.1 l c * delta l)) 0 0 inc := by
  rw [regEnergy, zero_mulVec, dotProduct_zero, add_zero, one_mulVec]
  simp only [mismatch, dotProduct, Fintype.sum_prod_type]
  refine Finset.sum_congr rfl fun i _ => Finset.sum_congr rfl fun r _ => ?_
  simp only [Pi.add_apply, mulVec, dotProduct, asMatrix, of_apply]
  ring

/-- With an identity spatial Jacobian the increment is the least-squares one. -/
theorem increment_min {k : Nat} (dWdp dWdp0 : Jac n d) (h : Independent k dWdp) (delta : List ℝ)
    (hd : delta.length = k) :
    ∃ inc : Fin k → ℝ, increment "ilk" k dWdp dWdp0 (identityDx n d) delta = .ok (List.ofFn inc) ∧
      UniqueMin (mismatch dWdp dWdp0 (identityDx n d) fun i => delta.getD i 0) inc := by
  have hdet := independent_det h
  have ha' : ∀ i l c, ∑ j, identityDx n d i j c * dWdp0 i l c = dWdp0 i l c := by
    intro i l c
    simp [identityDx]
  have hc : einsumCheck ["ijk", "ilk"] "ilk" = .ok () := by decide
  refine ⟨(((asMatrix k dWdp)ᵀ * asMatrix k dWdp)⁻¹ * ((asMatrix k dWdp)ᵀ * asMatrix k dWdp0)) *ᵥ
    fun i => delta.getD i 0, ?_, ?_⟩
  · simp only [increment, hc, ha', gram_eq, GN.npSolveMat, if_neg hdet, bind, Except.bind, if_pos hd]
  · intro d'
    have hx : ∀ (i : Fin n) (r : Fin d) , (∑ c, identityDx n d i r c *
        ∑ l : Fin k, dWdp0 i l c * delta.getD l 0) = ∑ l : Fin k, dWdp0 i l r * delta.getD l 0 := by
      intro i r; simp [identityDx]
    have := regEnergy_min (W := (1 : Matrix (Fin n × Fin d) (Fin n × Fin d) ℝ)) (by simp)
      (fun x => by rw [one_mulVec]; exact dot_self_nonneg x) (asMatrix k dWdp)
      (fun x => -(∑ c, identityDx n d x.1 x.2 c * ∑ l : Fin k, dWdp0 x.1 l c * delta.getD l 0))
      (P := 0) (by simp) (by simp) 0
      ((((asMatrix k dWdp)ᵀ * asMatrix k dWdp)⁻¹ * ((asMatrix k dWdp)ᵀ * asMatrix k dWdp0)) *ᵥ
        fun i => delta.getD i 0) (by simpa using hdet) ?_ d'
    · rw [← mismatch_eq, ← mismatch_eq] at this
      exact this
    · rw [Matrix.mul_one, add_zero, one_mulVec, zero_mulVec, add_zero, mulVec_mulVec, ← Matrix.mul_assoc,
        Matrix.mul_nonsing_inv _ (isUnit_iff_ne_zero.2 hdet), Matrix.one_mul]
      simp only [hx]
      rw [← mulVec_mulVec, ← mulVec_neg]
      congr 1
      funext x
      simp [mulVec, dotProduct, asMatrix]

end MDT
end Menpofit
