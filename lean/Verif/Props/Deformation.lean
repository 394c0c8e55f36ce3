import Verif.Lemmas.Deformation
import Verif.Lemmas.SharedWitness
/-!
# C127: the deformation model of an APS, and its runs do not depend on the position of the face
-/

namespace Menpofit
open Matrix MI Shared Place Spec Deform Warp

variable {n N m M : Nat}

/-- **C127** (energy).  The quadratic form of the deformation model at a shape is the sum over the
edges of the graph of how far the relative position of the ends is from that of the mean training shape, measured
by the inverse covariance of the relative position in the training shapes: the aligned ones with
`use_procrustes`, otherwise as they are. -/
theorem C127_energy (useProcrustes : Bool) (scaled aligned : Fin N → Pts n 2) (edges : List (Fin n × Fin n))
    (hne : ∀ e ∈ edges, e.1 ≠ e.2) {Q μ}
    (h : Deform.build (trainingShapes useProcrustes scaled aligned) edges = .ok (Q, μ)) (s : Pts n 2) :
    ∑ u, ∑ v, (s (finProdFinEquiv.symm u) - μ u) * Q u v * (s (finProdFinEquiv.symm v) - μ v) =
      deformationEnergy (if useProcrustes = true then aligned else scaled) edges s := by
  have e := build_energy hne h s
  rw [← quad_sum] at e
  exact e

/-- **C127** (reported).  The deformation cost a run of either algorithm reports for a shape is the
weight times that energy. -/
theorem C127_reported (a : Aps n m m) (scaled aligned : Fin N → Pts n 2) (edges : List (Fin n × Fin n))
    (hne : ∀ e ∈ edges, e.1 ≠ e.2)
    (h : Deform.build (trainingShapes a.useProcrustes scaled aligned) edges = .ok (a.Qd, a.dbar))
    (K : Kind n (ApsImage n m) (ℝ × ℝ × ℝ)) (hK : K = apsInverse a ∨ K = apsForward a) (alg : Alg K)
    {eps : ℝ} {r : Request (ApsImage n m)} {p : OPdm n} {tr} (hr : (Shared.run K alg eps r p).2 = .ok tr)
    (hc : r.costs = true) :
    ∃ cs, tr.costs = some cs ∧ cs.map (fun c => c.2.1) = tr.shapes.map fun s =>
      a.weight * deformationEnergy (if a.useProcrustes = true then aligned else scaled) edges s := by
  obtain ⟨k, st, -, -, -, hsh, -, hco⟩ := run_ok hr
  have hrep : K.reports = true := by rcases hK with rfl | rfl <;> rfl
  have hcost : ∀ s, (K.cost r.im s).2.1 = deformationCost a s := by
    intro s
    have : K.cost r.im s = apsCosts a r.im s := by rcases hK with rfl | rfl <;> rfl
    rw [this]
    unfold apsCosts
    dsimp only
    split <;> rfl
  rw [hrep, hc] at hco
  refine ⟨_, hco, ?_⟩
  rw [hsh, List.map_map, List.map_map]
  apply List.map_congr_left
  intro i _
  simp only [Function.comp]
  rw [hcost, deformationCost, mul_comm]
  congr 1
  exact build_energy hne h _

/-- **C127** (precision).  The precision is symmetric with a non-negative quadratic form. -/
theorem C127_precision (shapes : Fin N → Pts n 2) (edges : List (Fin n × Fin n))
    (hne : ∀ e ∈ edges, e.1 ≠ e.2) {Q μ} (h : Deform.build shapes edges = .ok (Q, μ)) : SymmPsd Q := by
  refine ⟨fun i j => congrFun (congrFun (build_symm h).symm i) j, fun x => ?_⟩
  obtain ⟨s, rfl⟩ := vector_surj x
  rw [quad_sum, build_form hne h]
  refine List.sum_nonneg fun y hy => ?_
  obtain ⟨e, he, rfl⟩ := List.mem_map.1 hy
  exact posDef_nonneg (build_edge h he) _

/-- **C127** (undeformed).  If the graph joins all points, exactly the moved copies of the mean shape
are not deformed. -/
theorem C127_undeformed (shapes : Fin N → Pts n 2) (edges : List (Fin n × Fin n))
    (hne : ∀ e ∈ edges, e.1 ≠ e.2) (hc : ConnectsAll edges) {Q μ}
    (h : Deform.build shapes edges = .ok (Q, μ)) (s : Pts n 2) :
    ∑ u, ∑ v, (s (finProdFinEquiv.symm u) - μ u) * Q u v * (s (finProdFinEquiv.symm v) - μ v) = 0 ↔
      ∃ t, s = movedShape t (meanOfShapes shapes) := by
  have hμ : μ = shapeVector (meanOfShapes shapes) := by
    obtain ⟨Bs, -, -, hμ⟩ := build_ok h; exact hμ
  have e : ∑ u, ∑ v, (s (finProdFinEquiv.symm u) - μ u) * Q u v * (s (finProdFinEquiv.symm v) - μ v) =
      shapeVector (s - meanOfShapes shapes) ⬝ᵥ Q *ᵥ shapeVector (s - meanOfShapes shapes) := by
    rw [← quad_sum, hμ]; rfl
  rw [e, build_zero hne h hc]
  constructor
  · rintro ⟨t, ht⟩
    exact ⟨t, by rw [movedShape_eq, ← ht]; abel⟩
  · rintro ⟨t, ht⟩
    exact ⟨t, by rw [ht, movedShape_eq]; abel⟩

/-- **C127** (singular).  Building fails, with `LinAlgError`, exactly when the relative positions of the
ends of some edge have a singular covariance. -/
theorem C127_singular (shapes : Fin N → Pts n 2) (edges : List (Fin n × Fin n)) :
    ((∃ e ∈ edges, (relCovariance shapes e.1 e.2).det = 0) → Deform.build shapes edges = .error .linAlgError) ∧
    ((∀ e ∈ edges, (relCovariance shapes e.1 e.2).det ≠ 0) → ∃ Q μ, Deform.build shapes edges = .ok (Q, μ)) := by
  have key : ∀ es : List (Fin n × Fin n),
      ((∃ e ∈ es, (relCovariance shapes e.1 e.2).det = 0) →
        (es.mapM fun e => GN.npInv (edgeCov shapes e)) = .error .linAlgError) ∧
      ((∀ e ∈ es, (relCovariance shapes e.1 e.2).det ≠ 0) →
        ∃ Bs, (es.mapM fun e => GN.npInv (edgeCov shapes e)) = .ok Bs) := by
    intro es
    induction es with
    | nil => exact ⟨by simp, fun _ => ⟨[], rfl⟩⟩
    | cons e es ih =>
      obtain ⟨i1, i2⟩ := ih
      by_cases hd : (relCovariance shapes e.1 e.2).det = 0
      · refine ⟨fun _ => ?_, fun h => absurd hd (h e (by simp))⟩
        simp only [List.mapM_cons, GN.npInv, edgeCov_eq, if_pos hd, bind, Except.bind]
      · constructor
        · rintro ⟨e', he', hd'⟩
          rcases List.mem_cons.1 he' with rfl | he'
          · exact absurd hd' hd
          · have := i1 ⟨e', he', hd'⟩
            rw [List.mapM_cons, this]
            simp only [GN.npInv, edgeCov_eq, if_neg hd, bind, Except.bind]
        · intro h
          obtain ⟨Bs, hB⟩ := i2 fun e' he' => h e' (by simp [he'])
          rw [List.mapM_cons, hB]
          simp only [GN.npInv, edgeCov_eq, if_neg hd, bind, Except.bind]
          exact ⟨_, rfl⟩
  obtain ⟨k1, k2⟩ := key edges
  constructor
  · intro h; simp only [Deform.build, k1 h, bind, Except.bind]
  · intro h
    obtain ⟨Bs, hB⟩ := k2 h
    simp only [Deform.build, hB, bind, Except.bind]
    exact ⟨_, _, rfl⟩

/-- **C127** (too few).  Two training shapes or fewer never suffice. -/
theorem C127_too_few (shapes : Fin N → Pts n 2) (hN : N ≤ 2) (edges : List (Fin n × Fin n)) (he : edges ≠ []) :
    Deform.build shapes edges = .error .linAlgError := by
  obtain ⟨e, es, rfl⟩ := List.exists_cons_of_ne_nil he
  refine (C127_singular shapes (e :: es)).1 ⟨e, by simp, ?_⟩
  rw [det_fin_two]
  have : N = 0 ∨ N = 1 ∨ N = 2 := by omega
  rcases this with rfl | rfl | rfl
  · simp [relCovariance]
  · simp [relCovariance]
  · simp only [relCovariance, of_apply, relPosition, meanOfShapes, Fin.sum_univ_two]
    push_cast
    ring

/-- **C127** (drawn).  Drawing the deformation model of a graph that joins no two points twice never fails, and
draws one ellipse for every edge, in order: around the second end of the edge in the mean of the shape model, with
the covariance of the relative position of the ends in the training shapes. -/
theorem C127_drawn (shapes : Fin N → Pts n 2) (edges : List (Fin n × Fin n)) (hne : ∀ e ∈ edges, e.1 ≠ e.2)
    (hj : JoinedOnce edges) {Q μ} (h : Deform.build shapes edges = .ok (Q, μ)) (mean : Pts n 2) :
    Deform.ellipses Q mean edges =
      .ok (edges.map fun e => (relCovariance shapes e.1 e.2, fun d => mean (e.2, d))) := by
  obtain ⟨Bs, rfl, hB, -⟩ := build_ok h
  have key : ∀ e ∈ edges, ∀ d d', -assemble edges Bs (finProdFinEquiv (e.2, d)) (finProdFinEquiv (e.1, d')) =
      (relCovariance shapes e.1 e.2)⁻¹ d d' := by
    clear h
    induction hB with
    | nil => simp
    | @cons a B es Bs hab hB ih =>
      have ih' := ih (fun e he => hne e (by simp [he])) (List.pairwise_cons.1 hj).2
      have h1 := (List.pairwise_cons.1 hj).1
      intro e he d d'
      have hee := hne e he
      simp only [assemble, Matrix.add_apply, of_apply, Equiv.symm_apply_apply]
      rcases List.mem_cons.1 he with rfl | he'
      · have hz : assemble es Bs (finProdFinEquiv (e.2, d)) (finProdFinEquiv (e.1, d')) = 0 := by
          clear ih ih' hj hne
          induction hB with
          | nil => simp [assemble]
          | @cons b B' es Bs hb hB ih2 =>
            simp only [assemble, Matrix.add_apply, of_apply, Equiv.symm_apply_apply]
            rw [ih2 (fun e1 he1 => h1 e1 (List.mem_cons_of_mem _ he1)) (List.mem_cons_self ..)]
            · have h3 := h1 b (by simp)
              have : blockSign b e.2 e.1 = 0 := by
                unfold blockSign
                rw [if_neg (Ne.symm hee), if_neg]
                rintro (⟨p, q⟩ | ⟨p, q⟩)
                · exact h3 (Or.inr (Prod.ext q p))
                · exact h3 (Or.inl (Prod.ext q p))
              simp [this]
        have : blockSign e e.2 e.1 = -1 := by
          unfold blockSign
          rw [if_neg (Ne.symm hee), if_pos (Or.inr ⟨rfl, rfl⟩)]
        rw [hz, this, hab.1]; ring
      · have h3 := h1 e he'
        have : blockSign a e.2 e.1 = 0 := by
          unfold blockSign
          rw [if_neg (Ne.symm hee), if_neg]
          rintro (⟨p, q⟩ | ⟨p, q⟩)
          · exact h3 (Or.inr (Prod.ext p.symm q.symm))
          · exact h3 (Or.inl (Prod.ext q.symm p.symm))
        rw [this, zero_mul, zero_add]
        exact ih' e he' d d'
  have one : ∀ e ∈ edges, Deform.ellipse (assemble edges Bs) mean e =
      .ok (relCovariance shapes e.1 e.2, fun d => mean (e.2, d)) := by
    intro e he
    have hp := build_edge h he
    have hs : (relCovariance shapes e.1 e.2)⁻¹ 1 0 = (relCovariance shapes e.1 e.2)⁻¹ 0 1 := by
      have := congrFun (congrFun hp.1 0) 1
      simpa [conjTranspose_apply] using this
    have hm : !![(relCovariance shapes e.1 e.2)⁻¹ 0 0, (relCovariance shapes e.1 e.2)⁻¹ 0 1;
        (relCovariance shapes e.1 e.2)⁻¹ 0 1, (relCovariance shapes e.1 e.2)⁻¹ 1 1] =
        (relCovariance shapes e.1 e.2)⁻¹ := by
      ext i j; fin_cases i <;> fin_cases j <;> simp [hs]
    have hd : (relCovariance shapes e.1 e.2)⁻¹.det ≠ 0 := hp.det_pos.ne'
    have hd' : IsUnit (relCovariance shapes e.1 e.2).det := by
      rw [det_nonsing_inv] at hd
      by_contra hu
      exact hd (Ring.inverse_non_unit _ hu)
    simp only [Deform.ellipse, key e he, hm, GN.npInv, if_neg hd, bind, Except.bind, pure, Except.pure,
      nonsing_inv_nonsing_inv _ hd']
  unfold Deform.ellipses
  clear key h hB hne hj
  generalize assemble edges Bs = Q at one
  induction edges with
  | nil => rfl
  | cons e es ih =>
    rw [List.mapM_cons, one e (by simp), ih fun e' he' => one e' (by simp [he'])]
    rfl

/-- **C127** (position).  For a trained APS, in whatever state its shape model is, and any fitter of either
class made from it, with any number of active components and `use_procrustes` or not: after any further
uses, fitting the picture moved by `t` from the initial shape moved by `t` gives the same outcome, with
all shapes moved by `t`, the same four numbers added to the similarity parameters, and the same costs. -/
theorem C127_position {W C Pic : Type} {q : Nat} (ortho : Ortho n) (pca : Pca n 2)
    (h0 : OrthoSpec ortho (similarityComponents pca.mean) pca.comps) (M₀ : OPdm n)
    (hn : newOPdm ortho pca = .ok M₀) (ops : List (PdmOp n 2))
    (ho : ∀ m', .increment m' ∈ ops → OrthoSpec ortho (similarityComponents m'.mean) m'.comps)
    (a : Aps n m M) (shapes : Fin N → Pts n 2) (edges : List (Fin n × Fin n))
    (hne : ∀ e ∈ edges, e.1 ≠ e.2) (hd : Deform.build shapes edges = .ok (a.Qd, a.dbar))
    (K : Kind n (ApsImage n m) (ℝ × ℝ × ℝ)) (hK : K = apsInverse a ∨ K = apsForward a)
    (nShape : Option Int) (p₁ : OPdm n) (alg : Alg K)
    (hb : Shared.build K nShape (ops.foldl (opdmStep ortho) M₀) = (p₁, .ok alg))
    (uses : List (Use n)) (hu : ∀ u ∈ uses, KeepsComponents u) (t : Fin 2 → ℝ) :
    ∃ τ : Fin 4 → ℝ, ∀ (offs : Fin q → P 2) (normalise : (Fin n → Fin q → C) → W) (pixels : W → Fin m → ℝ)
      (grad : W → Fin 2 → Fin m → ℝ) (sample : Pic → P 2 → C) (im im' : Pic), MovedPicture sample t im im' →
      ∀ (eps : ℝ) (s : Pts n 2) (maxIters : Int) (costs : Bool),
      (Shared.run K alg eps ⟨apsImage offs normalise pixels grad sample im', ⟨n, 2, movedShape t s⟩, maxIters, costs⟩
          (uses.foldl afterUse p₁)).2 =
        (Shared.run K alg eps ⟨apsImage offs normalise pixels grad sample im, ⟨n, 2, s⟩, maxIters, costs⟩
          (uses.foldl afterUse p₁)).2.map (movedTrace t (changedSimilarity τ)) := by
  have hM : Movable (ops.foldl (opdmStep ortho) M₀) := movable_reach ortho pca h0 hn ops ho
  obtain ⟨p0, hp0⟩ : ∃ p0, p0 = ops.foldl (opdmStep ortho) M₀ := ⟨_, rfl⟩
  rw [← hp0] at hM hb
  have hp1 : Movable p₁ ∧ newAlg K p₁ = .ok alg := by
    unfold Shared.build at hb
    cases nShape with
    | none => injection hb with h1 h2; subst h1; exact ⟨hM, h2⟩
    | some v =>
      have hm := movable_step ortho p0 (.active v) (by intro m h; cases h) hM
      simp only [opdmStep] at hm
      simp only at hb
      split at hb
      · injection hb with h1 h2; cases h2
      · next heq =>
        injection hb with h1 h2
        rw [heq] at hm
        subst h1
        exact ⟨hm, h2⟩
  obtain ⟨hm1, halg⟩ := hp1
  have hsame := sameModel_uses (p := p₁) uses hu
  have hm2 : Movable (uses.foldl afterUse p₁) := movable_same hsame.simComps hm1
  obtain ⟨p2, hp2⟩ : ∃ p2, p2 = uses.foldl afterUse p₁ := ⟨_, rfl⟩
  rw [← hp2] at hm2 hsame ⊢
  refine ⟨tau p2 t, fun offs normalise pixels grad sample im im' him eps s maxIters costs => ?_⟩
  have hQ := build_trans hne hd t
  have hsym := build_symm hd
  have hw : ∀ s, (apsImage offs normalise pixels grad sample im').warp (movedShape t s) =
      (apsImage offs normalise pixels grad sample im).warp s := by
    intro s; simp only [apsImage]; rw [patches_follow offs sample him]
  have hg : ∀ s, (apsImage offs normalise pixels grad sample im').gradient (movedShape t s) =
      (apsImage offs normalise pixels grad sample im).gradient s := by
    intro s; simp only [apsImage]; rw [patches_follow offs sample him]
  have hcost : ∀ s, apsCosts a (apsImage offs normalise pixels grad sample im') (movedShape t s) =
      apsCosts a (apsImage offs normalise pixels grad sample im) s := by
    intro s; simp only [apsCosts]; rw [hw, cost_moved hsym hQ]
  have hstart : ∀ c s, apsStart a (apsImage offs normalise pixels grad sample im') c (movedShape t s) =
      apsStart a (apsImage offs normalise pixels grad sample im) c s := by
    intro c s; simp only [apsStart]; rw [hw]
  have hH : ∀ k, 4 ≤ k → hessianS a (jacobian p₁ k) *ᵥ tauVec (tau p2 t) k = 0 := fun k hk =>
    hessianS_tau hm2 hsame.simComps.symm t hk hQ
  have hk4 : 4 ≤ nParameters p₁ := by unfold nParameters; omega
  rcases hK with rfl | rfl
  · exact shared_run_moved hm2 hstart (fun s v => inverse_step_moved halg hw (hH _ hk4) s v)
      (fun s => congrArg (Except.map fun _ => ()) (hw s)) hcost eps s maxIters costs
  · exact shared_run_moved hm2 hstart (fun s v => forward_step_moved halg hw hg (hH _ hk4) s v)
      (fun s => congrArg (Except.map fun _ => ()) (hw s)) hcost eps s maxIters costs

/-- **C127** (similarity, violated).  With `use_procrustes` the shapes are aligned before the deformation is
learnt and the steps take the similarity parameters for zero, so one expects that a scaled copy of the
mean shape costs no deformation, as the mean shape itself.  The cost a fitter reports for a scaled copy
is positive whenever the graph joins all points, the mean shape is not a single point and the weight
is positive. -/
theorem C127_similarity_violated (a : Aps n m M) (scaled aligned : Fin N → Pts n 2)
    (_hp : a.useProcrustes = true) (edges : List (Fin n × Fin n))
    (hne : ∀ e ∈ edges, e.1 ≠ e.2) (hc : ConnectsAll edges)
    (h : Deform.build (trainingShapes a.useProcrustes scaled aligned) edges = .ok (a.Qd, a.dbar))
    (hw : 0 < a.weight) {i j : Fin n} {d : Fin 2} (hij : meanOfShapes aligned (i, d) ≠ meanOfShapes aligned (j, d))
    {c : ℝ} (hc1 : c ≠ 1) (im : ApsImage n m) :
    (apsCosts a im (meanOfShapes aligned)).2.1 = 0 ∧ 0 < (apsCosts a im (c • meanOfShapes aligned)).2.1 := by
  have h' : Deform.build aligned edges = .ok (a.Qd, a.dbar) := by
    simpa [trainingShapes, _hp] using h
  have hcost : ∀ s, (apsCosts a im s).2.1 = deformationCost a s := by
    intro s; unfold apsCosts; dsimp only; split <;> rfl
  have hz := C127_undeformed aligned edges hne hc h'
  have hpsd := (C127_precision aligned edges hne h').2
  have e : ∀ s, deformationCost a s = (∑ u, ∑ v, (s (finProdFinEquiv.symm u) - a.dbar u) * a.Qd u v *
      (s (finProdFinEquiv.symm v) - a.dbar v)) * a.weight := by
    intro s; simp only [deformationCost]; rw [← quad_sum]; rfl
  rw [hcost, hcost, e, e]
  constructor
  · rw [(hz _).2 ⟨0, by funext; simp [movedShape]⟩, zero_mul]
  · refine mul_pos (lt_of_le_of_ne (hpsd _) fun h0 => ?_) hw
    obtain ⟨t, ht⟩ := (hz _).1 h0.symm
    have e1 := congrFun ht (i, d)
    have e2 := congrFun ht (j, d)
    simp only [movedShape, Pi.smul_apply, smul_eq_mul] at e1 e2
    have : (c - 1) * (meanOfShapes aligned (i, d) - meanOfShapes aligned (j, d)) = 0 := by linarith
    rcases mul_eq_zero.1 this with h3 | h3
    · exact hc1 (by linarith)
    · exact hij (by linarith)

/-! ### The hypotheses are met -/

/-- Three shapes of four points: a row of points along the first axis, along the second, and a point. -/
def rows : Fin 3 → Pts 4 2 := fun k ij =>
  if (k.val = 1 ∧ ij.2 = 0) ∨ (k.val = 2 ∧ ij.2 = 1) then (ij.1.val : ℝ) else 0

/-- A chain that joins the four points. -/
def chain4 : List (Fin 4 × Fin 4) := [(0, 1), (1, 2), (2, 3)]

theorem chain4_ends : ∀ e ∈ chain4, e.1 ≠ e.2 := by decide

theorem chain4_connects : ConnectsAll chain4 := by
  have h0 : ∀ i : Fin 4, Relation.EqvGen (fun a b => (a, b) ∈ chain4) 0 i := by
    have a : Relation.EqvGen (fun a b => (a, b) ∈ chain4) 0 1 := .rel _ _ (by decide)
    have b : Relation.EqvGen (fun a b => (a, b) ∈ chain4) 1 2 := .rel _ _ (by decide)
    have c : Relation.EqvGen (fun a b => (a, b) ∈ chain4) 2 3 := .rel _ _ (by decide)
    intro i
    match i with
    | 0 => exact .refl _
    | 1 => exact a
    | 2 => exact .trans _ _ _ a b
    | 3 => exact .trans _ _ _ (.trans _ _ _ a b) c
  exact fun i j => .trans _ _ _ (.symm _ _ (h0 i)) (h0 j)

theorem rows_built : ∃ Q μ, Deform.build rows chain4 = .ok (Q, μ) := by
  refine (C127_singular rows chain4).2 fun e he => ?_
  have h : ∀ d d', relCovariance rows e.1 e.2 d d' = if d = d' then 1 / 3 else -1 / 6 := by
    have : e = (0, 1) ∨ e = (1, 2) ∨ e = (2, 3) := by simpa [chain4] using he
    rcases this with rfl | rfl | rfl <;> intro d d' <;> fin_cases d <;> fin_cases d' <;>
      simp only [relCovariance, relPosition, meanOfShapes, Fin.sum_univ_three, of_apply] <;> norm_num [rows]
  rw [det_fin_two]
  simp only [h]
  norm_num

/-- The APS of `Shared.xAps` with the deformation model of the chain. -/
noncomputable def chainAps (pro : Bool) : Aps 4 (4 * 2) (4 * 2) :=
  { xAps with
    Qd := (Classical.choose rows_built)
    dbar := (Classical.choose (Classical.choose_spec rows_built))
    useProcrustes := pro }

theorem chainAps_built (pro : Bool) : Deform.build rows chain4 = .ok ((chainAps pro).Qd, (chainAps pro).dbar) :=
  Classical.choose_spec (Classical.choose_spec rows_built)

/-- The hypotheses of `C127_energy`, `C127_precision`, `C127_undeformed`: a deformation model is built. -/
example (pro : Bool) : (∀ e ∈ chain4, e.1 ≠ e.2) ∧ ConnectsAll chain4 ∧ ∃ Q μ,
    Deform.build (trainingShapes pro rows rows) chain4 = .ok (Q, μ) :=
  ⟨chain4_ends, chain4_connects, by cases pro <;> exact rows_built⟩

/-- `C127_drawn`: the chain joins no two points twice. -/
example : JoinedOnce chain4 := by unfold JoinedOnce chain4; decide

/-- `C127_singular` and `C127_too_few`: two shapes. -/
example : Deform.build (fun k : Fin 2 => rows k.castSucc) chain4 = .error .linAlgError :=
  C127_too_few _ le_rfl _ (by decide)

/-- A fitter of either class is made from the shape model of `Shared.xAt`, and `C127_position`
applies to it. -/
theorem chain_fitter (pro : Bool) (K : Kind 4 (ApsImage 4 (4 * 2)) (ℝ × ℝ × ℝ))
    (hK : K = apsInverse (chainAps pro) ∨ K = apsForward (chainAps pro)) :
    ∃ alg, Shared.build K none (xAt 1 0) = (xAt 1 0, .ok alg) := by
  rcases hK with rfl | rfl
  · have hdet : (((chainAps pro).Qa * sdi (chainAps pro).part (chainAps pro).nabla (jacobian (xAt 1 0) (nParameters (xAt 1 0))))ᵀ *
        sdi (chainAps pro).part (chainAps pro).nabla (jacobian (xAt 1 0) (nParameters (xAt 1 0))) +
        hessianS (chainAps pro) (jacobian (xAt 1 0) (nParameters (xAt 1 0)))).det ≠ 0 := by
      have e1 : sdi (chainAps pro).part (chainAps pro).nabla (jacobian (xAt 1 0) (nParameters (xAt 1 0))) =
        jacobian (xAt 1 0) (nParameters (xAt 1 0)) := x_sdi _
      have e2 : (chainAps pro).Qa = 1 := rfl
      obtain ⟨hs, hq⟩ := symmPsd_iff (C127_precision rows chain4 chain4_ends (chainAps_built pro))
      rw [e1, e2, Matrix.one_mul, jacobian_gram (x_ready 1 0) rfl]
      have hpd : (diagonal fun c : Fin (nParameters (xAt 1 0)) => if c.val < 4 then (1 : ℝ) else (xAt 1 0).glob.a ^ 2).PosDef := by
        rw [posDef_diagonal_iff]
        intro i
        split
        · norm_num
        · show (0 : ℝ) < 1 ^ 2; norm_num
      have hps : (hessianS (chainAps pro) (jacobian (xAt 1 0) (nParameters (xAt 1 0)))).PosSemidef := by
        refine PosSemidef.of_dotProduct_mulVec_nonneg ?_ ?_
        · rw [IsHermitian, conjTranspose_eq_transpose_of_trivial]
          exact hessianS_symm _ hs _
        · intro x
          rw [star_trivial, hessianS_quad]
          exact mul_nonneg zero_le_one (hq _)
      exact (hpd.add_posSemidef hps).det_pos.ne'
    obtain ⟨d, hd'⟩ : ∃ d, (apsInverse (chainAps pro)).pre _ (jacobian (xAt 1 0) (nParameters (xAt 1 0))) = .ok d := by
      simp only [apsInverse, GN.npInv, if_neg hdet, bind, Except.bind, pure, Except.pure]
      exact ⟨_, rfl⟩
    exact ⟨⟨nParameters (xAt 1 0), d⟩, by simp only [Shared.build, newAlg, hd']; rfl⟩
  · exact ⟨⟨nParameters (xAt 1 0), jacobian (xAt 1 0) _, hessianS (chainAps pro) (jacobian (xAt 1 0) _)⟩, rfl⟩

example (pro : Bool) (t : Fin 2 → ℝ) : ∃ (alg : Alg (apsInverse (chainAps pro))) (τ : Fin 4 → ℝ),
    ∀ (offs : Fin 2 → P 2) (pixels : (Fin 4 → Fin 2 → ℝ) → Fin (4 * 2) → ℝ) (grad) (im : P 2 → ℝ) eps s maxIters costs,
      (Shared.run _ alg eps ⟨apsImage offs id pixels grad (fun f x => f x) (fun x => im (x - WithLp.toLp 2 t)),
          ⟨4, 2, movedShape t s⟩, maxIters, costs⟩ (xAt 1 0)).2 =
        (Shared.run _ alg eps ⟨apsImage offs id pixels grad (fun f x => f x) im, ⟨4, 2, s⟩, maxIters, costs⟩
          (xAt 1 0)).2.map (movedTrace t (changedSimilarity τ)) := by
  obtain ⟨alg, h⟩ := chain_fitter pro _ (.inl rfl)
  obtain ⟨τ, hτ⟩ := C127_position (W := Fin 4 → Fin 2 → ℝ) (C := ℝ) (Pic := P 2 → ℝ) (q := 2) crossOrtho xModel xSpec
    (xAt 1 0) x_new [] (by simp) (chainAps pro) rows chain4 chain4_ends (chainAps_built pro) _ (.inl rfl) none
    (xAt 1 0) alg h [] (by simp) t
  exact ⟨alg, τ, fun offs pixels grad im eps s maxIters costs =>
    hτ offs id pixels grad (fun f x => f x) im (fun x => im (x - WithLp.toLp 2 t)) (fun x => by simp) eps s maxIters costs⟩

/-- The hypotheses of `C127_reported`: one iteration, with costs. -/
example : ∃ (alg : Alg (apsInverse (chainAps true))) (tr : _),
    (Shared.run _ alg 0 ⟨xImage, ⟨4, 2, MI.cross⟩, 1, true⟩ (xAt 1 0)).2 = .ok tr ∧ tr.shapes.length = 2 := by
  obtain ⟨alg, h⟩ := chain_fitter true _ (.inl rfl)
  have h6 : alg.k = 6 := by
    injection h with _ h
    unfold newAlg at h
    cases hp : (apsInverse (chainAps true)).pre (nParameters (xAt 1 0)) (jacobian (xAt 1 0) (nParameters (xAt 1 0))) with
    | error e => rw [hp] at h; cases h
    | ok d => rw [hp] at h; injection h with h; rw [← h]; rfl
  have h3 : oSetTarget (xAt 1 0) ⟨4, 2, MI.cross⟩ = (xAt 1 0, .ok ()) := by
    have := x_setTarget one_ne_zero 1 0
    rwa [one_smul] at this
  have hstart : ∀ s, (apsInverse (chainAps true)).start xImage true s = .ok () := fun s => rfl
  have hafter : ∀ s, (apsInverse (chainAps true)).after xImage s = .ok () := fun s => rfl
  obtain ⟨dp, hdp⟩ : ∃ dp, (apsInverse (chainAps true)).step alg.data xImage (xAt 1 0).target
    (fun i => (oAsVector (xAt 1 0)).getD i 0) = .ok dp := ⟨_, rfl⟩
  obtain ⟨q, hq⟩ := oFromVector_succeeds (xAt 1 0) (x_ready 1 0).four
    (List.zipWith (· + ·) (oAsVector (xAt 1 0)) (List.ofFn dp)) (by
      rw [List.length_zipWith, List.length_ofFn, h6]; rfl)
  have hstep : (machine _ alg xImage).step (xAt 1 0) = (q, .ok (Shared.distance (xAt 1 0).target q.target)) := by
    simp only [machine]
    rw [if_pos (by rw [h6]; rfl)]
    simp only [hdp, hq, hafter]
  refine ⟨alg, ?_⟩
  unfold Shared.run
  simp only [h3, hstart, Optim.run]
  rw [loop_unfold, if_pos ⟨by decide, trivial⟩]
  simp only [hstep]
  rw [loop_unfold, if_neg (by simp)]
  exact ⟨_, rfl, rfl⟩

/-- The hypotheses of `C127_similarity_violated`. -/
example (im : ApsImage 4 (4 * 2)) : 0 < (apsCosts (chainAps true) im ((2 : ℝ) • meanOfShapes rows)).2.1 :=
  (C127_similarity_violated (chainAps true) rows rows rfl chain4 chain4_ends chain4_connects (chainAps_built true)
    (by show (0 : ℝ) < 1; norm_num) (i := 0) (j := 1) (d := 0)
    (by simp only [meanOfShapes, Fin.sum_univ_three]; norm_num [rows]) (by norm_num) im).2

end Menpofit
