import Verif.Model.Deformation
import Verif.Spec.Deformation
import Verif.Lemmas.Aps
import Verif.Lemmas.PlacementRuns
import Mathlib.Analysis.Matrix.Order
/-!
# Helper lemmas for the deformation model of an APS (C127)
-/

namespace Menpofit
namespace Deform
open Matrix MI Shared Place Spec GN

variable {n N m M : Nat}

/-! ### The covariance of an edge -/

theorem edgeCov_eq (shapes : Fin N → Pts n 2) (e : Fin n × Fin n) :
    edgeCov shapes e = relCovariance shapes e.1 e.2 := by
  ext d d'
  have hm : ∀ d, Mst.mean (Mst.diff shapes e.1 e.2 d) = relPosition (meanOfShapes shapes) e.1 e.2 d := by
    intro d
    simp only [Mst.mean, Mst.diff, relPosition, meanOfShapes, Finset.sum_sub_distrib]
    ring
  simp only [edgeCov, relCovariance, of_apply, Mst.cov, hm]
  rfl

theorem edgeCov_psd (shapes : Fin N → Pts n 2) (e : Fin n × Fin n) : (edgeCov shapes e).PosSemidef := by
  rcases Nat.eq_zero_or_pos N with rfl | hN
  · have : edgeCov shapes e = 0 := by ext d d'; simp [edgeCov, Mst.cov]
    rw [this]; exact PosSemidef.zero
  · have hn : (0 : ℝ) ≤ ((N : ℝ) - 1)⁻¹ := by
      apply inv_nonneg.2
      have : (1 : ℝ) ≤ N := by exact_mod_cast hN
      linarith
    obtain ⟨A, hA⟩ : ∃ A : Matrix (Fin N) (Fin 2) ℝ, A = Matrix.of fun k d =>
        Mst.diff shapes e.1 e.2 d k - Mst.mean (Mst.diff shapes e.1 e.2 d) := ⟨_, rfl⟩
    have : edgeCov shapes e = ((N : ℝ) - 1)⁻¹ • (Aᴴ * A) := by
      ext d d'
      simp [edgeCov, Mst.cov, hA, Matrix.mul_apply, div_eq_inv_mul]
    rw [this]
    exact (posSemidef_conjTranspose_mul_self A).smul hn

theorem edge_posDef {shapes : Fin N → Pts n 2} {e : Fin n × Fin n} {B : Matrix (Fin 2) (Fin 2) ℝ}
    (h : npInv (edgeCov shapes e) = .ok B) : B = (relCovariance shapes e.1 e.2)⁻¹ ∧ B.PosDef := by
  unfold npInv at h
  split at h
  · cases h
  · next hd =>
    injection h with h
    subst h
    refine ⟨by rw [edgeCov_eq], PosDef.inv ?_⟩
    exact (edgeCov_psd shapes e).posDef_iff_isUnit.2 ((isUnit_iff_isUnit_det _).2 (isUnit_iff_ne_zero.2 hd))

/-! ### The precision -/

theorem blockSign_eq {e : Fin n × Fin n} (he : e.1 ≠ e.2) (i j : Fin n) :
    blockSign e i j = ((if i = e.1 then 1 else 0) - (if i = e.2 then 1 else 0)) *
      ((if j = e.1 then 1 else 0) - (if j = e.2 then 1 else 0)) := by
  unfold blockSign
  by_cases h1 : i = e.1 <;> by_cases h2 : i = e.2 <;> by_cases h3 : j = e.1 <;> by_cases h4 : j = e.2 <;>
    by_cases h5 : i = j <;> simp_all

theorem signed_form (σ : Fin n → ℝ) (B : Matrix (Fin 2) (Fin 2) ℝ) (x y : Pts n 2) :
    shapeVector x ⬝ᵥ (Matrix.of fun r c : Fin (n * 2) => σ (finProdFinEquiv.symm r).1 * σ (finProdFinEquiv.symm c).1 *
      B (finProdFinEquiv.symm r).2 (finProdFinEquiv.symm c).2) *ᵥ shapeVector y =
    (fun d => ∑ i, σ i * x (i, d)) ⬝ᵥ B *ᵥ fun d => ∑ i, σ i * y (i, d) := by
  have step : ∀ f : Fin n × Fin 2 → ℝ, ∑ r : Fin (n * 2), f (finProdFinEquiv.symm r) = ∑ d, ∑ i, f (i, d) := by
    intro f
    rw [finProdFinEquiv.symm.sum_comp, Fintype.sum_prod_type, Finset.sum_comm]
  simp only [dotProduct, mulVec, of_apply, shapeVector]
  rw [step fun r => x r * ∑ c : Fin (n * 2), σ r.1 * σ (finProdFinEquiv.symm c).1 *
    B r.2 (finProdFinEquiv.symm c).2 * y (finProdFinEquiv.symm c)]
  refine Finset.sum_congr rfl fun d _ => ?_
  rw [Finset.sum_mul]
  refine Finset.sum_congr rfl fun i _ => ?_
  rw [step fun c => σ i * σ c.1 * B d c.2 * y c, Finset.mul_sum, Finset.mul_sum]
  refine Finset.sum_congr rfl fun d' _ => ?_
  rw [Finset.mul_sum, Finset.mul_sum, Finset.mul_sum]
  refine Finset.sum_congr rfl fun j _ => ?_
  ring

/-- The bilinear form of the precision. -/
theorem assemble_form (es : List (Fin n × Fin n)) (hne : ∀ e ∈ es, e.1 ≠ e.2)
    (Bs : List (Matrix (Fin 2) (Fin 2) ℝ)) (x y : Pts n 2) :
    shapeVector x ⬝ᵥ assemble es Bs *ᵥ shapeVector y =
      (List.zipWith (fun e B => relPosition x e.1 e.2 ⬝ᵥ B *ᵥ relPosition y e.1 e.2) es Bs).sum := by
  induction es generalizing Bs with
  | nil => simp [assemble]
  | cons e es ih =>
    cases Bs with
    | nil => simp [assemble]
    | cons B Bs =>
      simp only [assemble, List.zipWith_cons_cons, List.sum_cons, add_mulVec, dotProduct_add]
      rw [ih (fun e he => hne e (by simp [he]))]
      congr 1
      simp only [blockSign_eq (hne e (by simp))]
      rw [signed_form fun i => (if i = e.1 then 1 else 0) - (if i = e.2 then 1 else 0)]
      have red : ∀ z : Pts n 2, (fun d => ∑ i, ((if i = e.1 then (1 : ℝ) else 0) - (if i = e.2 then 1 else 0)) * z (i, d)) =
          relPosition z e.1 e.2 := by
        intro z; funext d
        simp [sub_mul, Finset.sum_sub_distrib, relPosition]
      rw [red, red]

theorem blockSign_symm (e : Fin n × Fin n) (i j : Fin n) : blockSign e i j = blockSign e j i := by
  unfold blockSign
  by_cases h : i = j
  · subst h; rfl
  · have h' : ¬ j = i := fun h' => h h'.symm
    rw [if_neg h, if_neg h']
    simp only [and_comm, or_comm]

theorem assemble_symm (es : List (Fin n × Fin n)) (Bs : List (Matrix (Fin 2) (Fin 2) ℝ))
    (hB : ∀ B ∈ Bs, Bᵀ = B) : (assemble es Bs)ᵀ = assemble es Bs := by
  induction es generalizing Bs with
  | nil => simp [assemble]
  | cons e es ih =>
    cases Bs with
    | nil => simp [assemble]
    | cons B Bs =>
      simp only [assemble, transpose_add, ih Bs fun B h => hB B (by simp [h])]
      congr 1
      ext r c
      simp only [transpose_apply, of_apply]
      rw [blockSign_symm]
      congr 1
      exact congrFun (congrFun (hB B (by simp)) _) _

/-! ### What is built -/

theorem mapM_forall₂ {α β : Type} {f : α → Except PyErr β} {l : List α} {r : List β}
    (h : l.mapM f = .ok r) : List.Forall₂ (fun a b => f a = .ok b) l r := by
  induction l generalizing r with
  | nil =>
    simp only [List.mapM_nil, pure, Except.pure] at h
    injection h with h; subst h; exact .nil
  | cons a l ih =>
    simp only [List.mapM_cons, bind, Except.bind, pure, Except.pure] at h
    cases h1 : f a with
    | error e => rw [h1] at h; cases h
    | ok b =>
      rw [h1] at h
      cases h2 : l.mapM f with
      | error e => rw [h2] at h; cases h
      | ok bs =>
        rw [h2] at h
        injection h with h; subst h
        exact .cons h1 (ih h2)

theorem build_ok {shapes : Fin N → Pts n 2} {edges : List (Fin n × Fin n)} {Q μ}
    (h : build shapes edges = .ok (Q, μ)) : ∃ Bs, Q = assemble edges Bs ∧
      List.Forall₂ (fun e B => B = (relCovariance shapes e.1 e.2)⁻¹ ∧ B.PosDef) edges Bs ∧
      μ = shapeVector (meanOfShapes shapes) := by
  unfold build at h
  cases hm : edges.mapM fun e => npInv (edgeCov shapes e) with
  | error e => rw [hm] at h; cases h
  | ok Bs =>
    rw [hm] at h
    simp only [bind, Except.bind, pure, Except.pure] at h
    injection h with h
    injection h with h1 h2
    refine ⟨Bs, h1.symm, (mapM_forall₂ hm).imp fun e B hB => edge_posDef hB, ?_⟩
    rw [← h2]; rfl

theorem zip_sum {es : List (Fin n × Fin n)} {Bs : List (Matrix (Fin 2) (Fin 2) ℝ)}
    {P : Fin n × Fin n → Matrix (Fin 2) (Fin 2) ℝ → Prop} {f : Fin n × Fin n → Matrix (Fin 2) (Fin 2) ℝ → ℝ}
    {g : Fin n × Fin n → ℝ} (h : List.Forall₂ P es Bs) (hf : ∀ e B, P e B → f e B = g e) :
    (List.zipWith f es Bs).sum = (es.map g).sum := by
  induction h with
  | nil => rfl
  | cons h1 _ ih => simp [hf _ _ h1, ih]

theorem build_form {shapes : Fin N → Pts n 2} {edges : List (Fin n × Fin n)} {Q μ}
    (hne : ∀ e ∈ edges, e.1 ≠ e.2) (h : build shapes edges = .ok (Q, μ)) (x y : Pts n 2) :
    shapeVector x ⬝ᵥ Q *ᵥ shapeVector y =
      (edges.map fun e => relPosition x e.1 e.2 ⬝ᵥ (relCovariance shapes e.1 e.2)⁻¹ *ᵥ relPosition y e.1 e.2).sum := by
  obtain ⟨Bs, rfl, hB, -⟩ := build_ok h
  rw [assemble_form edges hne]
  exact zip_sum hB fun e B hB => by rw [hB.1]

theorem build_edge {shapes : Fin N → Pts n 2} {edges : List (Fin n × Fin n)} {Q μ}
    (h : build shapes edges = .ok (Q, μ)) {e : Fin n × Fin n} (he : e ∈ edges) :
    ((relCovariance shapes e.1 e.2)⁻¹).PosDef := by
  obtain ⟨Bs, -, hB, -⟩ := build_ok h
  clear h
  induction hB with
  | nil => cases he
  | cons h1 _ ih =>
    rcases List.mem_cons.1 he with rfl | he
    · rw [← h1.1]; exact h1.2
    · exact ih he

theorem build_symm {shapes : Fin N → Pts n 2} {edges : List (Fin n × Fin n)} {Q μ}
    (h : build shapes edges = .ok (Q, μ)) : Qᵀ = Q := by
  obtain ⟨Bs, rfl, hB, -⟩ := build_ok h
  refine assemble_symm _ _ ?_
  clear h
  induction hB with
  | nil => simp
  | cons h1 _ ih =>
    intro B hB
    rcases List.mem_cons.1 hB with rfl | hB
    · simpa using h1.2.isHermitian.eq
    · exact ih B hB

theorem vector_surj (v : Fin (n * 2) → ℝ) : ∃ s : Pts n 2, shapeVector s = v :=
  ⟨fun ij => v (finProdFinEquiv ij), by funext r; simp only [shapeVector, Equiv.apply_symm_apply]⟩

theorem rel_trans (t : Fin 2 → ℝ) (i j : Fin n) : relPosition (trans n t) i j = 0 := by
  funext d; simp [relPosition, Place.trans]

theorem build_trans {shapes : Fin N → Pts n 2} {edges : List (Fin n × Fin n)} {Q μ}
    (hne : ∀ e ∈ edges, e.1 ≠ e.2) (h : build shapes edges = .ok (Q, μ)) (t : Fin 2 → ℝ) :
    Q *ᵥ shapeVector (trans n t) = 0 := by
  rw [← dotProduct_eq_zero_iff (v := Q *ᵥ shapeVector (trans n t))]
  intro v
  obtain ⟨s, rfl⟩ := vector_surj v
  rw [dotProduct_comm, build_form hne h]
  simp [rel_trans]

theorem vector_sub (s s' : Pts n 2) : shapeVector s - shapeVector s' = shapeVector (s - s') := rfl

theorem vector_add (s s' : Pts n 2) : shapeVector s + shapeVector s' = shapeVector (s + s') := rfl

theorem build_energy {shapes : Fin N → Pts n 2} {edges : List (Fin n × Fin n)} {Q μ}
    (hne : ∀ e ∈ edges, e.1 ≠ e.2) (h : build shapes edges = .ok (Q, μ)) (s : Pts n 2) :
    (shapeVector s - μ) ⬝ᵥ Q *ᵥ (shapeVector s - μ) = deformationEnergy shapes edges s := by
  have hμ : μ = shapeVector (meanOfShapes shapes) := by
    obtain ⟨Bs, -, -, hμ⟩ := build_ok h; exact hμ
  rw [hμ, vector_sub, build_form hne h]
  unfold deformationEnergy
  congr 1
  apply List.map_congr_left
  intro e _
  have : relPosition (s - meanOfShapes shapes) e.1 e.2 =
      fun c => relPosition s e.1 e.2 c - relPosition (meanOfShapes shapes) e.1 e.2 c := by
    funext c; simp only [relPosition, Pi.sub_apply]; ring
  rw [this, ← quad_sum]

theorem sum_eq_zero {l : List ℝ} (h : ∀ x ∈ l, 0 ≤ x) (hs : l.sum = 0) : ∀ x ∈ l, x = 0 := by
  induction l with
  | nil => simp
  | cons a l ih =>
    have h1 := h a (by simp)
    have h2 : 0 ≤ l.sum := List.sum_nonneg fun x hx => h x (by simp [hx])
    rw [List.sum_cons] at hs
    intro x hx
    rcases List.mem_cons.1 hx with rfl | hx
    · linarith
    · exact ih (fun x hx => h x (by simp [hx])) (by linarith) x hx

theorem posDef_zero {B : Matrix (Fin 2) (Fin 2) ℝ} (h : B.PosDef) {x : Fin 2 → ℝ} (hx : x ⬝ᵥ B *ᵥ x = 0) :
    x = 0 := by
  by_contra hne
  have := h.dotProduct_mulVec_pos hne
  simp [hx] at this

theorem posDef_nonneg {B : Matrix (Fin 2) (Fin 2) ℝ} (h : B.PosDef) (x : Fin 2 → ℝ) : 0 ≤ x ⬝ᵥ B *ᵥ x := by
  by_cases hx : x = 0
  · simp [hx]
  · have := h.dotProduct_mulVec_pos hx
    simpa using this.le

theorem build_zero {shapes : Fin N → Pts n 2} {edges : List (Fin n × Fin n)} {Q μ}
    (hne : ∀ e ∈ edges, e.1 ≠ e.2) (h : build shapes edges = .ok (Q, μ)) (hc : ConnectsAll edges)
    (s : Pts n 2) : shapeVector s ⬝ᵥ Q *ᵥ shapeVector s = 0 ↔ ∃ t, s = trans n t := by
  constructor
  · intro h0
    rw [build_form hne h] at h0
    have hz := sum_eq_zero (by
      intro x hx
      obtain ⟨e, he, rfl⟩ := List.mem_map.1 hx
      exact posDef_nonneg (build_edge h he) _) h0
    have rel : ∀ i j, Relation.EqvGen (fun a b => (a, b) ∈ edges) i j → ∀ d, s (i, d) = s (j, d) := by
      intro i j hij
      induction hij with
      | rel i j hij =>
        intro d
        have := posDef_zero (build_edge h hij) (hz _ (List.mem_map.2 ⟨_, hij, rfl⟩))
        exact sub_eq_zero.1 (congrFun this d)
      | refl => intro d; rfl
      | symm _ _ _ ih => intro d; exact (ih d).symm
      | trans _ _ _ _ _ ih ih' => intro d; exact (ih d).trans (ih' d)
    rcases Nat.eq_zero_or_pos n with rfl | hn
    · exact ⟨0, by funext ⟨i, _⟩; exact i.elim0⟩
    · refine ⟨fun d => s (⟨0, hn⟩, d), ?_⟩
      funext ⟨i, d⟩
      exact rel _ _ (hc i _) d
  · rintro ⟨t, rfl⟩
    rw [build_trans hne h, dotProduct_zero]

/-! ### Runs -/

/-- The change of the parameters when the shape is moved. -/
noncomputable def tau (p : OPdm n) (t : Fin 2 → ℝ) : Fin 4 → ℝ := fun i => p.simComps.getD i 0 ⬝ᵥ trans n t

/-- The states of a run and of the moved run. -/
structure Pair (τ : Fin 4 → ℝ) (t : Fin 2 → ℝ) (p q : OPdm n) : Prop where
  same : SameModel p q
  mov : Movable p
  four : p.simWeights.length = 4
  sim : q.simWeights = List.zipWith (· + ·) p.simWeights (List.ofFn τ)
  w : q.weights = p.weights
  target : q.target = movedShape t p.target
  tau : List.ofFn τ = p.simComps.map fun c => c ⬝ᵥ Place.trans n t

theorem tau_list {p : OPdm n} (h : Movable p) (t : Fin 2 → ℝ) :
    List.ofFn (tau p t) = p.simComps.map fun c => c ⬝ᵥ trans n t := by
  apply List.ext_getElem
  · simp [h.four]
  · intro i a b
    have hi : i < p.simComps.length := by simpa using b
    simp only [List.getElem_ofFn, List.getElem_map, tau]
    rw [List.getD_eq_getElem _ _ hi]

theorem pair_vector {τ : Fin 4 → ℝ} {t : Fin 2 → ℝ} {p q : OPdm n} (h : Pair τ t p q) :
    oAsVector q = changedSimilarity τ (oAsVector p) := by
  have h1 : (p.simWeights ++ p.weights).take 4 = p.simWeights := by
    rw [List.take_append_of_le_length (by rw [h.four]), List.take_of_length_le (by rw [h.four])]
  have h2 : (p.simWeights ++ p.weights).drop 4 = p.weights := by
    rw [← h.four, List.drop_left]
  simp only [oAsVector, changedSimilarity, h1, h2, h.sim, h.w]

theorem changed_length (τ : Fin 4 → ℝ) (v : List ℝ) : (changedSimilarity τ v).length = v.length := by
  simp [changedSimilarity]; omega

theorem changed_getD (τ : Fin 4 → ℝ) (v : List ℝ) (i : Nat) (hi : i < v.length) :
    (changedSimilarity τ v).getD i 0 = v.getD i 0 + (List.ofFn τ).getD i 0 := by
  unfold changedSimilarity
  by_cases h : i < 4
  · rw [List.getD_append _ _ _ _ (by simp; omega), List.getD_eq_getElem _ _ (by simp; omega),
      List.getD_eq_getElem _ _ hi, List.getD_eq_getElem _ _ (by simp; omega)]
    simp
  · have hl : (List.zipWith (· + ·) (v.take 4) (List.ofFn τ)).length = 4 := by simp; omega
    rw [List.getD_append_right _ _ _ _ (by omega), hl, List.getD_eq_default (List.ofFn τ) _ (by simp; omega), add_zero,
      List.getD_eq_getElem _ _ (by simp; omega), List.getD_eq_getElem _ _ hi]
    simp only [List.getElem_drop]
    congr 1
    omega

theorem from_eq {p : OPdm n} (h4 : p.simComps.length = 4) (v : List ℝ) :
    oFromVector p v = if p.model.active.length < (v.drop 4).length then .error .valueError
      else .ok { p with
        simWeights := v.take 4
        glob := procrustes p.source (p.simMean + combine (v.take 4) p.simComps)
        weights := v.drop 4
        target := (procrustes p.source (p.simMean + combine (v.take 4) p.simComps)).apply
          (p.model.mean + combine (v.drop 4) p.model.active) } := by
  have h1 : instanceOf p.simMean p.simComps (v.take 4) =
      .ok (p.simMean + combine (v.take 4) p.simComps) := by
    rw [instanceOf_ok]; exact ⟨by simp [h4], rfl⟩
  simp only [oFromVector, oUpdateGlobalWeights, h1, bind, Except.bind, oTargetOf, Pca.inst]
  unfold instanceOf
  by_cases h : p.model.active.length < (v.drop 4).length
  · rw [if_pos h, if_pos h]; rfl
  · rw [if_neg h, if_neg h]; rfl

theorem from_pair {τ : Fin 4 → ℝ} {t : Fin 2 → ℝ} {p q : OPdm n} (h : Pair τ t p q) {v : List ℝ}
    (hv : 4 ≤ v.length) :
    (∃ e, oFromVector p v = .error e ∧ oFromVector q (changedSimilarity τ v) = .error e) ∨
    ∃ p' q', oFromVector p v = .ok p' ∧ oFromVector q (changedSimilarity τ v) = .ok q' ∧ Pair τ t p' q' := by
  have hl : (List.zipWith (· + ·) (v.take 4) (List.ofFn τ)).length = 4 := by simp; omega
  have h1 : (changedSimilarity τ v).take 4 = List.zipWith (· + ·) (v.take 4) (List.ofFn τ) := by
    unfold changedSimilarity
    rw [List.take_append_of_le_length (by omega), List.take_of_length_le (by omega)]
  have h2 : (changedSimilarity τ v).drop 4 = v.drop 4 := by
    unfold changedSimilarity
    exact List.drop_left' hl
  rw [from_eq h.mov.four, from_eq (by rw [← h.same.simComps]; exact h.mov.four), h2, ← h.same.model]
  by_cases hd : p.model.active.length < (v.drop 4).length
  · rw [if_pos hd, if_pos hd]; exact .inl ⟨_, rfl, rfl⟩
  · rw [if_neg hd, if_neg hd]
    refine .inr ⟨_, _, rfl, rfl, ?_⟩
    have hg : procrustes q.source (q.simMean + combine ((changedSimilarity τ v).take 4) q.simComps) =
        Sim.then (procrustes p.source (p.simMean + combine (v.take 4) p.simComps)) t := by
      rw [← h.same.source, ← h.same.simMean, ← h.same.simComps, h1, h.tau,
        combine_add _ _ _ (by simp [h.mov.four]; omega), combine_span h.mov.orth (h.mov.span t), ← add_assoc,
        procrustes_trans (movable_pos h.mov)]
    refine ⟨⟨rfl, h.same.simMean, h.same.simComps, h.same.source⟩, movable_same (M := p) rfl h.mov, by simp; omega, h1, rfl, ?_, h.tau⟩
    simp only [hg, then_apply, movedShape_eq]

theorem set_pair {p : OPdm n} (h : Movable p) (t : Fin 2 → ℝ) (s : Pts n 2) :
    Pair (tau p t) t (oSetTarget p ⟨n, 2, s⟩).1 (oSetTarget p ⟨n, 2, movedShape t s⟩).1 := by
  obtain ⟨h1, h2, h3⟩ := set_moved h t s
  have hs := sameModel_setTarget p ⟨n, 2, s⟩
  have hs' := sameModel_setTarget p ⟨n, 2, movedShape t s⟩
  refine ⟨⟨hs.1.trans hs'.1.symm, hs.2.trans hs'.2.symm, hs.3.trans hs'.3.symm, hs.4.trans hs'.4.symm⟩,
    movable_same hs.3 h, (set_lengths h s).1, by rw [h1, tau_list h], h2, h3, by rw [tau_list h, hs.3]⟩

theorem dist_moved (t : Fin 2 → ℝ) (s s' : Pts n 2) :
    Shared.distance (movedShape t s) (movedShape t s') = Shared.distance s s' := by
  simp [Shared.distance, movedShape]

variable {Im C : Type}

theorem zipWith_changed (τ : Fin 4 → ℝ) {k : Nat} (v : List ℝ) (dp : Fin k → ℝ) (hv : v.length = k) :
    List.zipWith (· + ·) (changedSimilarity τ v) (List.ofFn dp) =
      changedSimilarity τ (List.zipWith (· + ·) v (List.ofFn dp)) := by
  apply List.ext_getElem
  · simp [changed_length]
  · intro i a b
    have hi : i < v.length := by simp [changed_length] at a; omega
    have e1 := changed_getD τ v i hi
    have e2 := changed_getD τ (List.zipWith (· + ·) v (List.ofFn dp)) i (by simp; omega)
    rw [List.getD_eq_getElem _ _ (by rw [changed_length]; exact hi), List.getD_eq_getElem _ _ hi] at e1
    rw [List.getD_eq_getElem _ _ b, List.getD_eq_getElem _ _ (by simp; omega)] at e2
    rw [List.getElem_zipWith, e1, e2, List.getElem_zipWith]
    ring

/-- The change of the parameters, as a vector. -/
noncomputable def tauVec (τ : Fin 4 → ℝ) (k : Nat) : Fin k → ℝ := fun i => (List.ofFn τ).getD i 0

/-- Running in a moved picture, for any class of algorithms that sees the same. -/
theorem shared_run_moved {K : Kind n Im C} {a : Alg K} {im im' : Im} {t : Fin 2 → ℝ} {p : OPdm n}
    (h : Movable p)
    (hstart : ∀ c s, K.start im' c (movedShape t s) = K.start im c s)
    (hstep : ∀ s v, K.step a.data im' (movedShape t s) (v + tauVec (tau p t) a.k) = K.step a.data im s v)
    (hafter : ∀ s, K.after im' (movedShape t s) = K.after im s)
    (hcost : ∀ s, K.cost im' (movedShape t s) = K.cost im s)
    (eps : ℝ) (s : Pts n 2) (maxIters : Int) (costs : Bool) :
    (Shared.run K a eps ⟨im', ⟨n, 2, movedShape t s⟩, maxIters, costs⟩ p).2 =
      (Shared.run K a eps ⟨im, ⟨n, 2, s⟩, maxIters, costs⟩ p).2.map
        (movedTrace t (changedSimilarity (tau p t))) := by
  have hp := set_pair h t s
  have hk : (oSetTarget p ⟨n, 2, s⟩).2 = .ok () ∧ (oSetTarget p ⟨n, 2, movedShape t s⟩).2 = .ok () := by
    rw [oSetTarget_self, oSetTarget_self, oSyncState_eq, oSyncState_eq]; exact ⟨rfl, rfl⟩
  unfold Shared.run
  obtain ⟨⟨p1, r1⟩, hx⟩ : ∃ x, x = oSetTarget p ⟨n, 2, s⟩ := ⟨_, rfl⟩
  obtain ⟨⟨q1, r2⟩, hy⟩ : ∃ x, x = oSetTarget p ⟨n, 2, movedShape t s⟩ := ⟨_, rfl⟩
  rw [← hx, ← hy] at hp hk
  obtain ⟨rfl, rfl⟩ := hk
  simp only [← hx, ← hy]
  rw [hp.target, hstart]
  cases hs : K.start im costs p1.target with
  | error e => rfl
  | ok u =>
    simp only
    obtain ⟨τ, hτ⟩ : ∃ τ, τ = tau p t := ⟨_, rfl⟩
    rw [← hτ] at hp ⊢
    rw [← hτ] at hstep
    refine run_moved (machine K a im) (machine K a im') (movedShape t) (changedSimilarity τ) (Pair τ t) maxIters eps
      (fun s t' h => h.target) (fun s t' h => pair_vector h)
      (fun s t' h => by simp only [machine]; rw [h.target, hcost]) ?_ (costs && K.reports) p1 q1 hp
    intro p q hpq
    have hlen : (oAsVector q).length = (oAsVector p).length := by rw [pair_vector hpq, changed_length]
    simp only [machine]
    by_cases hl : (oAsVector p).length = a.k
    · rw [if_pos hl, if_pos (hlen.trans hl)]
      have hv : (fun i : Fin a.k => (oAsVector q).getD i 0) =
          (fun i : Fin a.k => (oAsVector p).getD i 0) + tauVec τ a.k := by
        funext i
        rw [pair_vector hpq]
        exact changed_getD τ _ i (by rw [hl]; exact i.2)
      rw [hpq.target, hv, hstep]
      cases hd : K.step a.data im p.target (fun i => (oAsVector p).getD i 0) with
      | error e => exact ⟨rfl, fun e he => by cases he⟩
      | ok dp =>
        simp only
        have h4 : 4 ≤ (List.zipWith (· + ·) (oAsVector p) (List.ofFn dp)).length := by
          have : 4 ≤ (oAsVector p).length := by simp only [oAsVector, List.length_append, hpq.four]; omega
          simp; omega
        rw [pair_vector hpq, zipWith_changed τ _ dp hl]
        rcases from_pair hpq h4 with ⟨e, e1, e2⟩ | ⟨p', q', e1, e2, hp'⟩
        · rw [e1, e2]; exact ⟨rfl, fun e he => by cases he⟩
        · rw [e1, e2]
          simp only
          rw [hp'.target, hafter]
          cases ha : K.after im p'.target with
          | error e => exact ⟨rfl, fun e he => by cases he⟩
          | ok u => exact ⟨by simp only [dist_moved], fun _ _ => hp'⟩
    · rw [if_neg hl, if_neg (by rw [hlen]; exact hl)]
      exact ⟨rfl, fun e he => by cases he⟩

/-! ### The algorithms of an APS -/

theorem jacobian_tau {p p0 : OPdm n} (h : Movable p) (hs : p0.simComps = p.simComps) (t : Fin 2 → ℝ)
    {k : Nat} (hk : 4 ≤ k) : jacobian p0 k *ᵥ tauVec (tau p t) k = shapeVector (trans n t) := by
  funext r
  have h0 := congrFun (combine_span h.orth (h.span t)) (finProdFinEquiv.symm r)
  rw [combine_apply] at h0
  simp only [shapeVector]
  rw [← h0, ← tau_list h t]
  simp only [mulVec, dotProduct, tauVec, jacobian, of_apply, Homog.opdmDdp, Homog.gpdmDdp, hs]
  obtain ⟨f, hf⟩ : ∃ f : Nat → ℝ, f = fun c => (List.ofFn (tau p t)).getD c 0 *
    (p.simComps.getD c 0) (finProdFinEquiv.symm r) := ⟨_, rfl⟩
  have e1 : ∀ c : Nat, 4 ≤ c → (List.ofFn (tau p t)).getD c 0 = 0 := fun c hc =>
    List.getD_eq_default _ _ (by simp; omega)
  have e2 : ∀ c : Nat, 4 ≤ c → f c = 0 := by
    intro c hc; rw [hf]; simp only [e1 c hc, zero_mul]
  have l : ∑ c : Fin k, f c = ∑ c ∈ Finset.range k, f c := Finset.sum_range f |>.symm
  have l' : ∑ c : Fin p.simComps.length, f c = ∑ c ∈ Finset.range p.simComps.length, f c :=
    Finset.sum_range f |>.symm
  trans ∑ c : Fin k, f c
  · refine Finset.sum_congr rfl fun c _ => ?_
    by_cases hc : c.val < 4
    · simp only [if_pos hc, hf, Prod.mk.eta]; ring
    · rw [e1 _ (by omega), e2 _ (by omega), mul_zero]
  · trans ∑ c : Fin p.simComps.length, f c
    · rw [l, l', h.four]
      exact (Finset.sum_subset (by intro x; simp; omega) fun x _ hx => e2 x (by simpa using hx)).symm
    · refine Finset.sum_congr rfl fun c _ => ?_
      simp only [hf]
      rw [List.getD_eq_getElem _ _ c.2]; rfl

theorem hessianS_tau {a : Aps n m M} {p p0 : OPdm n} (h : Movable p) (hs : p0.simComps = p.simComps) (t : Fin 2 → ℝ)
    {k : Nat} (hk : 4 ≤ k) (hQ : a.Qd *ᵥ shapeVector (trans n t) = 0) :
    hessianS a (jacobian p0 k) *ᵥ tauVec (tau p t) k = 0 := by
  rw [hessianS, smul_mulVec, Matrix.mul_assoc, ← mulVec_mulVec, ← mulVec_mulVec, jacobian_tau h hs t hk, hQ]
  simp

theorem zeroed_tau {a : Aps n m M} {k : Nat} (τ : Fin 4 → ℝ) (v : Fin k → ℝ) (H : Matrix (Fin k) (Fin k) ℝ)
    (hH : H *ᵥ tauVec τ k = 0) : H *ᵥ zeroed a (v + tauVec τ k) = H *ᵥ zeroed a v := by
  by_cases hp : a.useProcrustes = true
  · congr 1
    funext i
    simp only [zeroed, hp, true_and]
    by_cases hi : i.val < 4
    · rw [if_pos hi, if_pos hi]
    · rw [if_neg hi, if_neg hi, Pi.add_apply]
      simp only [tauVec]
      rw [List.getD_eq_default _ _ (by simp; omega), add_zero]
  · have e : ∀ w : Fin k → ℝ, zeroed a w = w := by
      intro w; funext i; simp [zeroed, hp]
    rw [e, e, mulVec_add, hH, add_zero]

theorem landmark_moved (t : Fin 2 → ℝ) (s : Pts n 2) (i : Fin n) :
    point (movedShape t s) i = point s i + WithLp.toLp 2 t := by
  ext j
  match j with
  | 0 => simp [point, movedShape]
  | 1 => simp [point, movedShape]

theorem patches_follow {q : Nat} {Pic Ch : Type} (offs : Fin q → Warp.P 2) (sample : Pic → Warp.P 2 → Ch) {t : Fin 2 → ℝ} {im im' : Pic}
    (h : MovedPicture sample t im im') (s : Pts n 2) :
    patches offs sample im' (movedShape t s) = patches offs sample im s := by
  funext i o
  simp only [patches]
  rw [landmark_moved, add_right_comm, h]

theorem cost_moved {a : Aps n m M} (hs : a.Qdᵀ = a.Qd) {t : Fin 2 → ℝ} (hQ : a.Qd *ᵥ shapeVector (trans n t) = 0)
    (s : Pts n 2) : deformationCost a (movedShape t s) = deformationCost a s := by
  have e : shapeVector (movedShape t s) - a.dbar = (shapeVector s - a.dbar) + shapeVector (trans n t) := by
    rw [movedShape_eq, ← vector_add]; abel
  have e2 : shapeVector (trans n t) ⬝ᵥ a.Qd *ᵥ (shapeVector s - a.dbar) = 0 := by
    rw [dotProduct_mulVec, ← mulVec_transpose, hs, hQ, zero_dotProduct]
  simp only [deformationCost]
  rw [e, mulVec_add, hQ, add_zero, add_dotProduct, e2, add_zero]

theorem inverse_step_moved {a : Aps n m M} {p₁ : OPdm n} {alg : Alg (apsInverse a)}
    (halg : newAlg (apsInverse a) p₁ = .ok alg) {im im' : ApsImage n m} {t : Fin 2 → ℝ} {τ : Fin 4 → ℝ}
    (hw : ∀ s, im'.warp (movedShape t s) = im.warp s)
    (hH : hessianS a (jacobian p₁ (nParameters p₁)) *ᵥ tauVec τ (nParameters p₁) = 0) (s : Pts n 2)
    (v : Fin alg.k → ℝ) :
    (apsInverse a).step alg.data im' (movedShape t s) (v + tauVec τ alg.k) = (apsInverse a).step alg.data im s v := by
  unfold newAlg at halg
  cases hpre : (apsInverse a).pre (nParameters p₁) (jacobian p₁ (nParameters p₁)) with
  | error e => rw [hpre] at halg; cases halg
  | ok d =>
    rw [hpre] at halg
    simp only [bind, Except.bind, pure, Except.pure] at halg
    injection halg with halg
    subst halg
    have hd : d.Hs = hessianS a (jacobian p₁ (nParameters p₁)) := by
      simp only [apsInverse, bind, Except.bind, pure, Except.pure] at hpre
      split at hpre
      · cases hpre
      · injection hpre with hpre; rw [← hpre]
    show (do let i ← im'.warp (movedShape t s); pure (-(d.invH *ᵥ (d.JQ *ᵥ (i - a.abar) + d.Hs *ᵥ zeroed a (v + tauVec τ _))))
        : Except PyErr _) = do let i ← im.warp s; pure (-(d.invH *ᵥ (d.JQ *ᵥ (i - a.abar) + d.Hs *ᵥ zeroed a v)))
    rw [hw, zeroed_tau _ _ _ (by rw [hd]; exact hH)]

theorem forward_step_moved {a : Aps n m M} {p₁ : OPdm n} {alg : Alg (apsForward a)}
    (halg : newAlg (apsForward a) p₁ = .ok alg) {im im' : ApsImage n m} {t : Fin 2 → ℝ} {τ : Fin 4 → ℝ}
    (hw : ∀ s, im'.warp (movedShape t s) = im.warp s)
    (hg : ∀ s, im'.gradient (movedShape t s) = im.gradient s)
    (hH : hessianS a (jacobian p₁ (nParameters p₁)) *ᵥ tauVec τ (nParameters p₁) = 0) (s : Pts n 2)
    (v : Fin alg.k → ℝ) :
    (apsForward a).step alg.data im' (movedShape t s) (v + tauVec τ alg.k) = (apsForward a).step alg.data im s v := by
  unfold newAlg at halg
  obtain ⟨d, hpre, hd⟩ : ∃ d, (apsForward a).pre (nParameters p₁) (jacobian p₁ (nParameters p₁)) = .ok d ∧
    d.2 = hessianS a (jacobian p₁ (nParameters p₁)) := ⟨_, rfl, rfl⟩
  rw [hpre] at halg
  simp only [bind, Except.bind, pure, Except.pure] at halg
  injection halg with halg
  subst halg
  show (do let i ← im'.warp (movedShape t s); GN.apsForwardStep (sdi a.part (im'.gradient (movedShape t s)) d.1) a.Qa d.2 (i - a.abar) (zeroed a (v + tauVec τ _)) : Except PyErr _) =
    do let i ← im.warp s; GN.apsForwardStep (sdi a.part (im.gradient s) d.1) a.Qa d.2 (i - a.abar) (zeroed a v)
  rw [hw, hg]
  congr 1
  funext i
  unfold GN.apsForwardStep
  rw [zeroed_tau _ _ _ (by rw [hd]; exact hH)]

end Deform
end Menpofit
