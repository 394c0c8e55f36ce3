import Verif.Spec.LinearTransform
import Verif.Lemmas.ModelInstanceState
import Verif.Lemmas.SpectralExist
import Mathlib.LinearAlgebra.Finsupp.LinearCombination
/-!
# Lemmas for the transform of a linear AAM
-/

namespace Menpofit
namespace Linear
open Matrix MI Spec

variable {l m n : Nat}

theorem combine_ofFn {d : Nat} (cs : List (Pts n d)) (u : Fin cs.length → ℝ) :
    combine (List.ofFn u) cs = ∑ k, u k • cs[k] := by
  induction cs with
  | nil => simp
  | cons c cs ih =>
    simp only [List.length_cons] at u ⊢
    rw [List.ofFn_succ, combine_cons, ih, Fin.sum_univ_succ]
    rfl

theorem span_list {d : Nat} {cs : List (Pts n d)} {v : Pts n d} :
    v ∈ Submodule.span ℝ {c | c ∈ cs} ↔ ∃ u : Fin cs.length → ℝ, v = combine (List.ofFn u) cs := by
  constructor
  · intro h
    have e : {c | c ∈ cs} = Set.range (fun k : Fin cs.length => cs[k]) := by
      ext c; simp [List.mem_iff_get]
    rw [e, Submodule.mem_span_range_iff_exists_fun] at h
    obtain ⟨u, hu⟩ := h
    exact ⟨u, by rw [combine_ofFn, hu]⟩
  · rintro ⟨u, rfl⟩; exact combine_mem _ _

theorem landmarks_combine (W : List (Pts (l + m) 2)) (u : Fin W.length → ℝ) :
    landmarks (combine (List.ofFn u) W) = u ᵥ* rowsV W := by
  funext ij
  rw [combine_ofFn]
  simp [landmarks, Matrix.vecMul, dotProduct, rowsV, Finset.sum_apply]

/-- The state a transform is in between calls. -/
structure LinInv (s : Lin l m) : Prop where
  ready : Ready s.pdm
  W : s.W = s.pdm.simComps ++ s.pdm.model.active
  pinv : MoorePenrose (rowsV s.W) s.pinvV

theorem inFamily_iff {p : OPdm n} (h : Ready p) (x : Pts n 2) :
    InFamily p.model x ↔ x ∈ Submodule.span ℝ {c | c ∈ p.simComps ++ p.model.active} := by
  have e : {c | c ∈ p.simComps ++ p.model.active} = {c | c ∈ p.simComps} ∪ {c | c ∈ p.model.active} := by
    ext c; simp
  rw [e, Submodule.span_union, h.span, Submodule.mem_sup]
  constructor
  · rintro ⟨s, u, w, hu, rfl⟩
    refine ⟨_, ?_, u, ?_, rfl⟩
    · rw [sim_span_iff, sim_apply_eq]
      exact ⟨s.a, s.b, s.tx, s.ty, by module⟩
    · have := (instanceOf_ok.1 (generates_iff.1 hu)).2
      rw [this, zero_add]; exact combine_mem _ _
  · rintro ⟨y, hy, u, hu, rfl⟩
    rw [sim_span_iff] at hy
    obtain ⟨a, b, tx, ty, rfl⟩ := hy
    obtain ⟨w, rfl⟩ := span_list.1 hu
    refine ⟨⟨a, b, tx, ty⟩, combine (List.ofFn w) p.model.active, List.ofFn w,
      generates_iff.2 (instanceOf_ok.2 ⟨by simp, ?_⟩), ?_⟩
    · rw [zero_add]
    · rw [sim_apply_eq]

theorem densify_family {s : Lin l m} (h : LinInv s) (t : Pts l 2) :
    InFamily s.pdm.model (densify s t) := by
  rw [inFamily_iff h.ready, ← h.W, span_list]
  exact ⟨_, rfl⟩

theorem hasLandmarks_iff (x : Pts (l + m) 2) (t : Pts l 2) : HasLandmarks x t ↔ landmarks x = t :=
  ⟨fun h => funext fun ij => h ij.1 ij.2, fun h i j => congrFun h (i, j)⟩

theorem hasDense_iff (x : Pts (l + m) 2) (t : Pts m 2) : HasDense x t ↔ dense x = t :=
  ⟨fun h => funext fun ij => h ij.1 ij.2, fun h i j => congrFun h (i, j)⟩

theorem landmarkError_eq (x : Pts (l + m) 2) (t : Pts l 2) :
    landmarkError x t = (landmarks x - t) ⬝ᵥ (landmarks x - t) := by
  simp only [landmarkError, dotProduct, Fintype.sum_prod_type, Pi.sub_apply, landmarks, sq]

/-- The densified landmarks of a member of the family are its landmarks. -/
theorem densify_landmarks {s : Lin l m} (h : LinInv s) {x : Pts (l + m) 2}
    (hx : InFamily s.pdm.model x) : landmarks (densify s (landmarks x)) = landmarks x := by
  rw [inFamily_iff h.ready, ← h.W, span_list] at hx
  obtain ⟨u, rfl⟩ := hx
  rw [densify, landmarks_combine, landmarks_combine, vecMul_vecMul, vecMul_vecMul]
  congr 1
  rw [← Matrix.mul_assoc]; exact h.pinv.left

theorem densify_closest {s : Lin l m} (h : LinInv s) (t : Pts l 2) {x : Pts (l + m) 2}
    (hx : InFamily s.pdm.model x) : landmarkError (densify s t) t ≤ landmarkError x t := by
  rw [inFamily_iff h.ready, ← h.W, span_list] at hx
  obtain ⟨u, rfl⟩ := hx
  rw [landmarkError_eq, landmarkError_eq, densify, landmarks_combine, landmarks_combine, vecMul_vecMul]
  obtain ⟨V, hV⟩ : ∃ V, V = rowsV s.W := ⟨_, rfl⟩
  have hp := h.pinv
  rw [← hV] at hp ⊢
  -- the residual is orthogonal to every row
  have key : ∀ w, (t ᵥ* (s.pinvV * V) - t) ⬝ᵥ (w ᵥ* V) = 0 := by
    intro w
    have e1 : (t ᵥ* (s.pinvV * V)) ⬝ᵥ (w ᵥ* V) = t ⬝ᵥ (w ᵥ* V) := by
      have : w ᵥ* V = (w ᵥ* V) ᵥ* (s.pinvV * V) := by
        rw [vecMul_vecMul, ← Matrix.mul_assoc, hp.left]
      conv_rhs => rw [this]
      conv_rhs => rw [← hp.symm_right, vecMul_transpose, dotProduct_mulVec]
    rw [sub_dotProduct, e1, sub_self]
  have e : u ᵥ* V - t = (t ᵥ* (s.pinvV * V) - t) + (u - t ᵥ* s.pinvV) ᵥ* V := by
    rw [sub_vecMul, vecMul_vecMul]; abel
  rw [e, dotProduct_add, add_dotProduct, add_dotProduct, key]
  have h0 : (((u - t ᵥ* s.pinvV) ᵥ* V) ⬝ᵥ (t ᵥ* (s.pinvV * V) - t)) = 0 := by
    rw [dotProduct_comm]; exact key _
  rw [h0]
  have : 0 ≤ ((u - t ᵥ* s.pinvV) ᵥ* V) ⬝ᵥ ((u - t ᵥ* s.pinvV) ᵥ* V) :=
    pts_dot_self_nonneg ((u - t ᵥ* s.pinvV) ᵥ* V)
  linarith

/-! ### Reachable states -/

theorem setTarget_pdm (s : Lin l m) (c : Cloud) :
    ∃ q, (setTarget s c).1 = { s with pdm := q } ∧ (q = s.pdm ∨ ∃ c', q = (oSetTarget s.pdm c').1) := by
  unfold setTarget
  split
  · split
    · exact ⟨s.pdm, rfl, .inl rfl⟩
    · exact ⟨_, rfl, .inr ⟨_, rfl⟩⟩
  · exact ⟨_, rfl, .inr ⟨_, rfl⟩⟩

theorem oSetTarget_same (p : OPdm n) (c : Cloud) :
    (oSetTarget p c).1.model = p.model ∧ (oSetTarget p c).1.simComps = p.simComps ∧
      (oSetTarget p c).1.simMean = p.simMean ∧ (oSetTarget p c).1.source = p.source := by
  simp only [oSetTarget]
  cases c.fit n 2 with
  | none => exact ⟨rfl, rfl, rfl, rfl⟩
  | some t => simp only [oSyncState_eq]; exact ⟨trivial, trivial, trivial, trivial⟩

theorem oFromVector_same {p q : OPdm n} {v : List ℝ} (h : oFromVector p v = .ok q) :
    q.model = p.model ∧ q.simComps = p.simComps ∧ q.simMean = p.simMean ∧ q.source = p.source := by
  simp only [oFromVector, oUpdateGlobalWeights, bind, Except.bind] at h
  split at h
  · cases h
  · rename_i a ha
    split at ha
    · cases ha
    · injection ha with ha; subst ha
      simp only at h
      split at h
      · cases h
      · injection h with h; subst h; exact ⟨rfl, rfl, rfl, rfl⟩

theorem linStep_same (s : Lin l m) (o : LinOp) :
    ∃ q, linStep s o = { s with pdm := q } ∧ q.model = s.pdm.model ∧ q.simComps = s.pdm.simComps ∧
      q.simMean = s.pdm.simMean ∧ q.source = s.pdm.source ∧ (OInv s.pdm → OInv q) := by
  cases o with
  | target c =>
    obtain ⟨q, h, hq⟩ := setTarget_pdm s c
    refine ⟨q, h, ?_⟩
    rcases hq with rfl | ⟨c', rfl⟩
    · exact ⟨rfl, rfl, rfl, rfl, id⟩
    · obtain ⟨h1, h2, h3, h4⟩ := oSetTarget_same s.pdm c'
      refine ⟨h1, h2, h3, h4, fun hi => ?_⟩
      simp only [oSetTarget]
      cases c'.fit (l + m) 2 with
      | none => exact hi
      | some t => exact oSyncState_inv _ hi.four
  | vector v =>
    simp only [linStep, fromVector]
    cases hq : oFromVector s.pdm v with
    | error e => exact ⟨s.pdm, rfl, rfl, rfl, rfl, rfl, id⟩
    | ok q =>
      obtain ⟨h1, h2, h3, h4⟩ := oFromVector_same hq
      exact ⟨q, rfl, h1, h2, h3, h4, fun hi => oFromVector_inv hi hq⟩

/-- Everything that stays the same, for any history. -/
theorem linSteps_same (ops : List LinOp) (s : Lin l m) :
    ∃ q, ops.foldl linStep s = { s with pdm := q } ∧ q.model = s.pdm.model ∧
      q.simComps = s.pdm.simComps ∧ q.simMean = s.pdm.simMean ∧ q.source = s.pdm.source ∧
      (OInv s.pdm → OInv q) := by
  induction ops generalizing s with
  | nil => exact ⟨s.pdm, rfl, rfl, rfl, rfl, rfl, id⟩
  | cons o os ih =>
    obtain ⟨q, e, h1, h2, h3, h4, h5⟩ := linStep_same s o
    obtain ⟨q', e', g1, g2, g3, g4, g5⟩ := ih { s with pdm := q }
    refine ⟨q', ?_, g1.trans h1, g2.trans h2, g3.trans h3, g4.trans h4, fun h => g5 (h5 h)⟩
    rw [List.foldl_cons, e, e']

theorem newLin_inv {ortho : Ortho (l + m)}
    {pinv : (k : Nat) → Matrix (Fin k) (Fin l × Fin 2) ℝ → Matrix (Fin l × Fin 2) (Fin k) ℝ}
    (hp : ∀ k V, MoorePenrose V (pinv k V)) {model : Pca (l + m) 2}
    (ho : OrthoSpec ortho (similarityComponents model.mean) model.comps) {s : Lin l m}
    (h : newLin ortho pinv model = .ok s) : LinInv s ∧ OInv s.pdm := by
  unfold newLin at h
  cases hn : newOPdm ortho model with
  | error e => rw [hn] at h; cases h
  | ok p =>
    simp only [hn, bind, Except.bind, pure, Except.pure] at h
    injection h with h
    subst h
    have hr := ready_reach ortho model ho hn [] (by simp)
    refine ⟨⟨hr, rfl, hp _ _⟩, ?_⟩
    obtain ⟨q, hq, h1, -, h3, -, -, h6, h7, h8, -⟩ := newOPdm_eq ortho model
    rw [hn] at hq; injection hq with hq; subst hq
    refine ⟨hr.four, h7, ?_, .inl ?_⟩
    · show p.glob = procrustes p.source (p.simMean + combine p.simWeights p.simComps)
      rw [h6, h3, h1, h8, combine_zero]; simp
    · show p.simWeights.length = 4
      rw [h8]; simpa using hr.four

theorem LinInv.steps {s : Lin l m} (h : LinInv s) (ops : List LinOp) : LinInv (ops.foldl linStep s) := by
  obtain ⟨q, e, h1, h2, h3, h4, -⟩ := linSteps_same ops s
  rw [e]
  exact ⟨⟨by rw [h1, h3]; exact h.ready.1, by rw [h1, h4]; exact h.ready.2, by rw [h2]; exact h.ready.3,
    by rw [h1, h2]; exact h.ready.4, by rw [h1, h2]; exact h.ready.5⟩,
    by simp only [h1, h2]; exact h.W, h.pinv⟩

end Linear
end Menpofit

namespace Menpofit
namespace Linear
open Matrix MI Spec

variable {l m n : Nat}

/-- A shape an `OrthoPDM` can generate is what setting it as the target leads to. -/
theorem reproduces {p : OPdm n} (h : Ready p) (s : Sim) (w : List ℝ)
    (hc : ¬ Collapsed (s.apply p.model.mean)) :
    (oSetTarget p ⟨n, 2, s.apply (p.model.mean + combine w p.model.active)⟩).1.target =
      s.apply (p.model.mean + combine w p.model.active) ∧
    (oSetTarget p ⟨n, 2, s.apply (p.model.mean + combine w p.model.active)⟩).2 = .ok () := by
  have hn := pos_of_not_collapsed hc
  obtain ⟨u, hu⟩ := span_list.1 (combine_mem w p.model.active)
  rw [hu]
  obtain ⟨q, hq⟩ : ∃ q : Fin p.simComps.length → ℝ,
      s.apply p.model.mean - p.model.mean = combine (List.ofFn q) p.simComps := by
    rw [← span_list, h.span, sim_span_iff]
    refine ⟨s.a - 1, s.b, s.tx, s.ty, ?_⟩
    rw [sim_apply_eq]; module
  have hs : p.simMean + combine (List.ofFn q) p.simComps = s.apply p.model.mean := by
    rw [h.simMean, ← hq]; abel
  have hg : procrustes p.source (p.simMean + combine (List.ofFn q) p.simComps) = s := by
    rw [hs, h.source]; exact procrustes_exact hn s _ hc
  have key := settled (p := { p with
      simWeights := List.ofFn q
      glob := s
      weights := List.ofFn u
      target := s.apply (p.model.mean + combine (List.ofFn u) p.model.active) })
    ⟨h.1, h.2, h.3, h.4, h.5⟩
    ⟨h.four, by
      have : p.model.inst (List.ofFn u) =
          .ok (p.model.mean + combine (List.ofFn u) p.model.active) := by
        rw [Pca.inst, instanceOf_ok]; exact ⟨by simp, rfl⟩
      simp only [oTargetOf, this, Except.map], hg.symm, .inl (by simp [h.four])⟩
    (by simp [h.four]) (by simp) (by simp only [hs]; exact hc)
  simp only [oSetTarget, cloud_fit] at key ⊢
  rw [oSyncState_eq] at key ⊢
  simp only [Prod.mk.injEq, OPdm.mk.injEq, true_and, and_true] at key ⊢
  exact key.2.1

/-- If the landmarks of a combination differ from the target by something orthogonal to all rows,
then it is the densified target. -/
theorem densify_eq {s : Lin l m} (hp : MoorePenrose (rowsV s.W) s.pinvV)
    (hdet : ∀ x y, x ∈ Submodule.span ℝ {c | c ∈ s.W} → y ∈ Submodule.span ℝ {c | c ∈ s.W} →
      landmarks x = landmarks y → x = y)
    (t : Pts l 2) {d : Pts (l + m) 2} (hd : d ∈ Submodule.span ℝ {c | c ∈ s.W})
    (ho : ∀ c ∈ s.W, landmarks c ⬝ᵥ (landmarks d - t) = 0) : densify s t = d := by
  obtain ⟨u, rfl⟩ := span_list.1 hd
  refine hdet _ _ (span_list.2 ⟨_, rfl⟩) hd ?_
  rw [densify, landmarks_combine, landmarks_combine, vecMul_vecMul]
  rw [landmarks_combine] at ho
  have hz : rowsV s.W *ᵥ (u ᵥ* rowsV s.W - t) = 0 := by
    funext k
    exact ho s.W[k] (List.getElem_mem _)
  have e : rowsV s.W *ᵥ (u ᵥ* rowsV s.W) = rowsV s.W *ᵥ t := by
    rw [mulVec_sub, sub_eq_zero] at hz; exact hz
  have h1 : t ᵥ* (s.pinvV * rowsV s.W) = (s.pinvV * rowsV s.W) *ᵥ t := by
    rw [← vecMul_transpose, hp.symm_right]
  have h2 : (u ᵥ* rowsV s.W) ᵥ* (s.pinvV * rowsV s.W) = (s.pinvV * rowsV s.W) *ᵥ (u ᵥ* rowsV s.W) := by
    rw [← vecMul_transpose, hp.symm_right]
  rw [h1, ← mulVec_mulVec, ← e, mulVec_mulVec, ← h2, vecMul_vecMul, ← Matrix.mul_assoc, hp.left]

theorem determine_span {p : OPdm (l + m)} (h : Ready p) (hd : LandmarksDetermine p.model) (x y)
    (hx : x ∈ Submodule.span ℝ {c | c ∈ p.simComps ++ p.model.active})
    (hy : y ∈ Submodule.span ℝ {c | c ∈ p.simComps ++ p.model.active})
    (e : landmarks x = landmarks y) : x = y :=
  hd x y (landmarks y) ((inFamily_iff h x).2 hx) ((inFamily_iff h y).2 hy)
    ((hasLandmarks_iff _ _).2 e) ((hasLandmarks_iff _ _).2 rfl)

/-- The pseudo-inverse exists, whatever the indices. -/
theorem exists_moorePenrose (l : Nat) :
    ∃ pinv : (k : Nat) → Matrix (Fin k) (Fin l × Fin 2) ℝ → Matrix (Fin l × Fin 2) (Fin k) ℝ,
      ∀ k V, MoorePenrose V (pinv k V) := by
  have h : ∀ k (V : Matrix (Fin k) (Fin l × Fin 2) ℝ), ∃ P, MoorePenrose V P := by
    intro k V
    obtain ⟨P, hP⟩ := exists_pinv (V.submatrix id finProdFinEquiv.symm)
    obtain ⟨Q, rfl⟩ : ∃ Q : Matrix (Fin l × Fin 2) (Fin k) ℝ, P = Q.submatrix finProdFinEquiv.symm id :=
      ⟨P.submatrix finProdFinEquiv id, by
        ext i j
        show P i j = P (finProdFinEquiv (finProdFinEquiv.symm i)) j
        rw [Equiv.apply_symm_apply]⟩
    obtain ⟨h1, h2, h3, h4⟩ := hP
    have e1 : ∀ {a b : Type} (A : Matrix a (Fin l × Fin 2) ℝ) (B : Matrix (Fin l × Fin 2) b ℝ),
        A.submatrix id finProdFinEquiv.symm * B.submatrix finProdFinEquiv.symm id = A * B := by
      intro a b A B
      have := submatrix_mul_equiv A B (id : a → a) finProdFinEquiv.symm (id : b → b)
      rw [this]; rfl
    rw [e1] at h1 h3
    have e2 : ∀ (A : Matrix (Fin l × Fin 2) (Fin k) ℝ) (B : Matrix (Fin k) (Fin l × Fin 2) ℝ),
        A.submatrix finProdFinEquiv.symm id * B.submatrix id finProdFinEquiv.symm =
          (A * B).submatrix finProdFinEquiv.symm finProdFinEquiv.symm := by
      intro A B
      ext i j; simp [mul_apply]
    have inj : ∀ {A B : Matrix (Fin l × Fin 2) (Fin l × Fin 2) ℝ},
        A.submatrix (finProdFinEquiv (m := l) (n := 2)).symm finProdFinEquiv.symm =
          B.submatrix finProdFinEquiv.symm finProdFinEquiv.symm → A = B := by
      intro A B h
      ext i j
      have := congrFun (congrFun h (finProdFinEquiv i)) (finProdFinEquiv j)
      simpa using this
    have inj1 : ∀ {A B : Matrix (Fin k) (Fin l × Fin 2) ℝ},
        A.submatrix id (finProdFinEquiv (m := l) (n := 2)).symm =
          B.submatrix id finProdFinEquiv.symm → A = B := by
      intro A B h
      ext i j
      have := congrFun (congrFun h i) (finProdFinEquiv j)
      simpa using this
    have inj2 : ∀ {A B : Matrix (Fin l × Fin 2) (Fin k) ℝ},
        A.submatrix (finProdFinEquiv (m := l) (n := 2)).symm id =
          B.submatrix finProdFinEquiv.symm id → A = B := by
      intro A B h
      ext i j
      have := congrFun (congrFun h (finProdFinEquiv i)) j
      simpa using this
    refine ⟨Q, inj1 ?_, inj2 ?_, h3, inj ?_⟩
    · rw [← h1]; ext i j; simp [mul_apply]
    · rw [← h2, e2]; ext i j
      simp only [mul_apply, submatrix_apply, id]
      exact (Fintype.sum_equiv finProdFinEquiv.symm _ _ fun x => rfl).symm
    · rw [e2] at h4; rw [← h4, transpose_submatrix]
  choose f hf using h
  exact ⟨f, hf⟩

end Linear
end Menpofit
