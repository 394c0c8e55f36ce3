import Verif.Lemmas.Order
import Verif.Lemmas.OrderRegression
import Verif.Model.Builder
import Verif.Model.Alignment
import Verif.Model.Deformation
import Verif.Model.CorrelationFilter
import Verif.Model.Spectral
import Mathlib.LinearAlgebra.Matrix.Determinant.Basic
/-!
# C133: the order of the training images does not matter
-/

namespace Menpofit
open Spec Training

noncomputable section

/-! ### Training of models -/

section Models

variable {Im Sh F W SM AM G DM : Type} [DecidableEq F]

/-- **C133** (AAM and CLM, construction and increments, in one or several batches). -/
theorem C133_train_partial (o : ImageOps Im Sh F) (L : Learners Im Sh W SM AM) (hr : OrderFree o.reference)
    (hs : OrderFree L.shape.build) (hsi : ∀ m, OrderFree (L.shape.increment m)) (ha : OrderFree L.second.build)
    (hai : ∀ m, OrderFree (L.second.increment m)) (levels : List (Level F)) (increment : Bool) (st : St Sh SM AM)
    (batchSize : Option Nat) (images images' : List Im)
    (hb : List.Forall₂ List.Perm (batches images batchSize) (batches images' batchSize)) :
    Agree (train o L levels increment st images batchSize) (train o L levels increment st images' batchSize) :=
  fun v => ⟨trainLoop_perm hr hs hsi ha hai levels hb 0 increment st v,
    trainLoop_perm hr hs hsi ha hai levels (hb.flip.imp fun _ _ h => List.Perm.symm h) 0 increment st v⟩

/-- **C133** (AAM and CLM without batches). -/
theorem C133_construct (o : ImageOps Im Sh F) (L : Learners Im Sh W SM AM) (hr : OrderFree o.reference)
    (hs : OrderFree L.shape.build) (hsi : ∀ m, OrderFree (L.shape.increment m)) (ha : OrderFree L.second.build)
    (hai : ∀ m, OrderFree (L.second.increment m)) (levels : List (Level F)) (ref : Option Sh) :
    OrderFree fun images => construct o L levels ref images none :=
  fun images images' h => C133_train_partial o L hr hs hsi ha hai levels false _ none images images'
    (.cons h .nil)

/-- **C133** (ATM). -/
theorem C133_atm (o : ImageOps Im Sh F) (L : AtmOps Im Sh W SM) (hr : OrderFree o.reference)
    (hs : OrderFree L.shape.build) (hsi : ∀ m, OrderFree (L.shape.increment m)) (levels : List (Level F))
    (ref : Option Sh) (template : Im) :
    OrderFree fun shapes => atmConstruct o L levels ref template shapes none :=
  fun _ _ h v => ⟨atmTrainLoop_perm hr hs hsi levels (.cons h .nil) 0 false template _ v,
    atmTrainLoop_perm hr hs hsi levels (.cons h.symm .nil) 0 false template _ v⟩

/-- **C133** (APS). -/
theorem C133_aps (o : ImageOps Im Sh F) (L : ApsOps Im Sh W G SM DM AM) (hr : OrderFree o.reference)
    (hal : Follows L.align) (ht : OrderFree L.tree)
    (hs : OrderFree L.shape.build) (hsi : ∀ m, OrderFree (L.shape.increment m))
    (hd : ∀ g, OrderFree (L.deformation g).build) (hdi : ∀ g m, OrderFree ((L.deformation g).increment m))
    (ha : OrderFree L.second.build) (hai : ∀ m, OrderFree (L.second.increment m)) (levels : List (Level F))
    (ref : Option Sh) (graphs : List (Option G)) :
    OrderFree fun images => apsConstruct o L levels ref graphs images none :=
  fun _ _ h v => ⟨apsTrainLoop_perm hr hal ht hs hsi hd hdi ha hai levels (.cons h .nil) 0 false _ v,
    apsTrainLoop_perm hr hal ht hs hsi hd hdi ha hai levels (.cons h.symm .nil) 0 false _ v⟩

end Models

/-! ### The parts -/

section Parts

variable {n N : Nat}

/-- **C133**: the reference shape. -/
theorem C133_reference_shape (diagonal : Option ℝ) :
    OrderFree fun shapes : List (Error.Shape n 2) => Builder.computeReferenceShape shapes diagonal := by
  intro d d' h v
  have : Builder.computeReferenceShape d diagonal = Builder.computeReferenceShape d' diagonal := by
    unfold Builder.computeReferenceShape
    have e : Builder.meanShape d = Builder.meanShape d' := by
      unfold Builder.meanShape
      rw [h.length_eq]
      split
      · rfl
      · congr 1
        funext i j
        rw [(h.map fun s => s i j).sum_eq]
    rw [e]
  simp only [this]

theorem gpa_mean_perm {d d' : List (Gpa.CShape n)} (h : d.Perm d') : Gpa.mean d = Gpa.mean d' := by
  funext i
  unfold Gpa.mean
  rw [(h.map fun s => s i).sum_eq, h.length_eq]

/-- **C133**: the aligned training shapes are the same, each belonging to its own shape. -/
theorem C133_aligned (d d' : List (Gpa.CShape n)) (h : d.Perm d') :
    (d.zip (Gpa.alignShapes d)).Perm (d'.zip (Gpa.alignShapes d')) := by
  have key : ∀ (r : ℝ) (k : Nat) (c c' : List (Gpa.CShape n)), c.Perm c' → ∀ t, ∃ f : Gpa.CShape n → Gpa.CShape n,
      Gpa.procrustes r c k t = c.map f ∧ Gpa.procrustes r c' k t = c'.map f := by
    intro r k c c' hc
    induction k with
    | zero => exact fun t => ⟨_, rfl, rfl⟩
    | succ k ih =>
      intro t
      unfold Gpa.procrustes
      simp only [gpa_mean_perm (hc.map (Gpa.alignTo t))]
      split
      · exact ⟨_, rfl, rfl⟩
      · exact ih _
  unfold Gpa.alignShapes
  have hc := h.map Gpa.centred
  simp only [gpa_mean_perm hc]
  obtain ⟨f, h1, h2⟩ := key (Gpa.size (Gpa.mean (d'.map Gpa.centred))) 100 _ _ hc (Gpa.mean (d'.map Gpa.centred))
  rw [h1, h2, List.map_map, List.map_map]
  have e : ∀ l : List (Gpa.CShape n), l.zip (l.map (f ∘ Gpa.centred)) = l.map fun s => (s, f (Gpa.centred s)) := by
    intro l
    induction l with
    | nil => rfl
    | cons a l ih => simp [ih]
  rw [e, e]
  exact h.map _

/-- **C133**: the shape model, for a principal component analysis that does not depend on the order of
its rows. -/
theorem C133_shape_model {M : Type} (pca : List (Gpa.CShape n) → Except PyErr M) (hp : OrderFree pca) :
    OrderFree fun d => pca (Gpa.alignShapes d) := by
  intro d d' h
  have e := C133_aligned d d' h
  have e' := e.map Prod.snd
  have l : ∀ d : List (Gpa.CShape n), d.length = (Gpa.alignShapes d).length := by
    intro d
    have : ∀ (r : ℝ) (c : List (Gpa.CShape n)) (k : Nat) t, (Gpa.procrustes r c k t).length = c.length := by
      intro r c k
      induction k with
      | zero => intro t; simp [Gpa.procrustes]
      | succ k ih =>
        intro t
        unfold Gpa.procrustes
        dsimp only
        split
        · simp
        · exact ih _
    unfold Gpa.alignShapes
    simp only [this, List.length_map]
  rw [List.map_snd_zip (l d).ge, List.map_snd_zip (l d').ge] at e'
  exact hp _ _ e'

/-- What depends only on the number, the sum and the second moments of the data does not depend on
the order. -/
theorem C133_moments {M X : Type} (g : Nat → (X → ℝ) → (X → X → ℝ) → Except PyErr M) :
    OrderFree fun d : List (X → ℝ) => g d.length (fun x => (d.map fun v => v x).sum)
      fun x y => (d.map fun v => v x * v y).sum := by
  intro d d' h v
  have e1 : (fun x => (d.map fun v => v x).sum) = fun x => (d'.map fun v => v x).sum :=
    funext fun x => (h.map fun v => v x).sum_eq
  have e2 : (fun x y => (d.map fun v : X → ℝ => v x * v y).sum) = fun x y => (d'.map fun v => v x * v y).sum :=
    funext fun x => funext fun y => (h.map fun v => v x * v y).sum_eq
  simp only [h.length_eq, e1, e2]

open MI in
theorem mst_mean_perm (σ : Equiv.Perm (Fin N)) (x : Fin N → ℝ) : Mst.mean (fun k => x (σ k)) = Mst.mean x := by
  unfold Mst.mean
  rw [Equiv.sum_comp σ x]

open MI in
theorem mst_cov_perm (σ : Equiv.Perm (Fin N)) (x y : Fin N → ℝ) :
    Mst.cov (fun k => x (σ k)) (fun k => y (σ k)) = Mst.cov x y := by
  unfold Mst.cov
  rw [mst_mean_perm, mst_mean_perm, Equiv.sum_comp σ fun k => (x k - Mst.mean x) * (y k - Mst.mean y)]

open MI in
/-- **C133**: the weights of the default deformation tree of an APS. -/
theorem C133_tree (shapes : Fin N → Pts n 2) (σ : Equiv.Perm (Fin N)) :
    Mst.weights (fun k => shapes (σ k)) = Mst.weights shapes := by
  have he : ∀ i j, Mst.edge (fun k => shapes (σ k)) i j = Mst.edge shapes i j := by
    intro i j
    have hd : ∀ d, Mst.diff (fun k => shapes (σ k)) i j d = fun k => Mst.diff shapes i j d (σ k) := fun _ => rfl
    unfold Mst.edge
    simp only [hd, mst_cov_perm, mst_mean_perm]
    rw [Equiv.sum_comp σ fun k => -Real.log (Mst.pdf (Mst.diff shapes i j 0 k) (Mst.diff shapes i j 1 k)
      (Mst.mean (Mst.diff shapes i j 0)) (Mst.mean (Mst.diff shapes i j 1))
      (Mst.cov (Mst.diff shapes i j 0) (Mst.diff shapes i j 0)) (Mst.cov (Mst.diff shapes i j 0) (Mst.diff shapes i j 1))
      (Mst.cov (Mst.diff shapes i j 1) (Mst.diff shapes i j 1)))]
  have hl : ∀ ps W, Mst.weightsLoop (fun k => shapes (σ k)) ps W = Mst.weightsLoop shapes ps W := by
    intro ps
    induction ps with
    | nil => exact fun _ => rfl
    | cons p ps ih =>
      intro W
      unfold Mst.weightsLoop
      rw [he]
      cases Mst.edge shapes p.1 p.2 with
      | error e => rfl
      | ok w => exact ih _
  unfold Mst.weights
  rw [hl]

open MI in
/-- **C133**: the deformation model of an APS. -/
theorem C133_deformation (shapes : Fin N → Pts n 2) (σ : Equiv.Perm (Fin N)) (edges : List (Fin n × Fin n)) :
    Deform.build (fun k => shapes (σ k)) edges = Deform.build shapes edges := by
  have hc : ∀ e, Deform.edgeCov (fun k => shapes (σ k)) e = Deform.edgeCov shapes e := by
    intro e
    unfold Deform.edgeCov
    ext d d'
    exact mst_cov_perm σ (Mst.diff shapes e.1 e.2 d) (Mst.diff shapes e.1 e.2 d')
  have hm : Deform.meanVector (fun k => shapes (σ k)) = Deform.meanVector shapes := by
    funext r
    exact mst_mean_perm σ fun k => shapes k (finProdFinEquiv.symm r)
  unfold Deform.build
  simp only [hc, hm]

end Parts

/-! ### Correlation filters -/

section Filters
open Cf

variable {Fl : Type} {k D : Nat}

theorem mosseSums_perm {X X' : List (Spectrum k D)} (h : X.Perm X') (y : Fin D → ℂ) :
    mosseSums X y = mosseSums X' y := by
  unfold mosseSums
  refine h.foldl_eq' (fun a _ b _ s => ?_) _
  ext c j
  · simp only [add_right_comm]
  · simp only [add_right_comm]

theorem mccfSums_perm {X X' : List (Spectrum k D)} (h : X.Perm X') (y : Fin D → ℂ) :
    mccfSums X y = mccfSums X' y := by
  unfold mccfSums
  refine h.foldl_eq' (fun a _ b _ s => ?_) _
  simp only [add_right_comm]

/-- **C133**: correlation filters, trained and incremented. -/
theorem C133_filters (X X' : List (Spectrum k D)) (h : X.Perm X') (y : Fin D → ℂ) (l f n : ℝ) :
    (∀ back : Spectrum k D → Fl, mosse back X y l = mosse back X' y l ∧
      ∀ A B, imosse back A B n X y l f = imosse back A B n X' y l f) ∧
    ∀ back : (Ix k D → ℂ) → Fl, mccf back X y l = mccf back X' y l ∧
      ∀ A B, imccf back A B n X y l f = imccf back A B n X' y l f := by
  refine ⟨fun back => ⟨?_, fun A B => ?_⟩, fun back => ⟨?_, fun A B => ?_⟩⟩
  · unfold mosse; rw [mosseSums_perm h]
  · unfold imosse; rw [mosseSums_perm h, h.length_eq]
  · unfold mccf; rw [mccfSums_perm h]
  · unfold imccf; rw [mccfSums_perm h, h.length_eq]

/-- **C133**: the experts of a CLM, if every shape has the same number of points. -/
theorem C133_experts_partial (back : (Ix k D → ℂ) → Fl) (y : Fin D → ℂ) (l : ℝ) (p : Nat)
    (ex ex' : List (List (Spectrum k D))) (h : ex.Perm ex') (hp : ∀ e ∈ ex, e.length = p) :
    Agree (trainEnsemble back y l ex) (trainEnsemble back y l ex') ∧
      ∀ st, Agree (incrementEnsemble back y l st ex) (incrementEnsemble back y l st ex') := by
  have hp' : ∀ e ∈ ex', e.length = p := fun e he => hp e (h.mem_iff.mpr he)
  have one : ∀ (ex ex' : List (List (Spectrum k D))), ex.Perm ex' → (∀ e ∈ ex, e.length = p) → (∀ e ∈ ex', e.length = p) →
      (∀ v, trainEnsemble back y l ex = .ok v → trainEnsemble back y l ex' = .ok v) ∧
      ∀ st v, incrementEnsemble back y l st ex = .ok v → incrementEnsemble back y l st ex' = .ok v := by
    intro ex ex' h hp hp'
    match ex, ex', h, hp, hp' with
    | [], [], _, _, _ => exact ⟨fun _ h => h, fun _ _ h => h⟩
    | [], e' :: es', h, _, _ => exact absurd h.length_eq (by simp)
    | e :: es, [], h, _, _ => exact absurd h.length_eq (by simp)
    | e :: es, e' :: es', h, hp, hp' =>
      constructor
      · intro v hv
        unfold trainEnsemble at hv ⊢
        simp only at hv ⊢
        rw [hp' e' (by simp), ← hp e (by simp), ← h.length_eq]
        refine bind_mono (fun xs h1 => ⟨xs, mapM_mono (fun i x hx => bind_mono (fun ps h2 => ?_) hx) h1,
          fun _ hb => hb⟩) hv
        obtain ⟨ps', h3, h4⟩ := mapM_perm h h2
        exact ⟨ps', h3, fun b hb => by rwa [((C133_filters (Fl := Fl) ps ps' h4 y l 1 1).2 back).1] at hb⟩
      · intro st v hv
        unfold incrementEnsemble at hv ⊢
        simp only at hv ⊢
        rw [hp' e' (by simp), ← hp e (by simp), ← h.length_eq]
        refine bind_mono (fun xs h1 => ⟨xs, mapM_mono (fun i x hx => bind_mono (fun ps h2 => ?_) hx) h1,
          fun _ hb => hb⟩) hv
        obtain ⟨ps', h3, h4⟩ := mapM_perm h h2
        refine ⟨ps', h3, fun b hb => ?_⟩
        cases ho : st.experts[i]? with
        | none => rw [ho] at hb; cases hb
        | some old =>
          simp only [ho] at hb ⊢
          rwa [((C133_filters (Fl := Fl) ps ps' h4 y l 1 _).2 back).2] at hb
  exact ⟨fun v => ⟨(one _ _ h hp hp').1 v, (one _ _ h.symm hp' hp).1 v⟩,
    fun st v => ⟨(one _ _ h hp hp').2 st v, (one _ _ h.symm hp' hp).2 st v⟩⟩

end Filters

/-! ### Regression -/

section Regression
open Reg GN Matrix

variable {K : Type} [Field K] [DecidableEq K] {n m d k q : Nat}

/-- **C133**: regularised linear regression and its inverse form: the order of the samples does not matter,
for training, for increments and for what is predicted. -/
theorem C133_regression (σ : Fin m ≃ Fin n) (bias : Bool) (X : Matrix (Fin n) (Fin d) K)
    (Y : Matrix (Fin n) (Fin q) K) :
    (∀ st : Irl K (width bias d) q, Reg.train bias st (X.submatrix σ id) (Y.submatrix σ id) = Reg.train bias st X Y) ∧
    (∀ st : Irl K (width bias d) q,
      Reg.increment bias st (X.submatrix σ id) (Y.submatrix σ id) = Reg.increment bias st X Y) ∧
    ∀ st : Iirl K d q, trainIirl st (X.submatrix σ id) (Y.submatrix σ id) = trainIirl st X Y := by
  refine ⟨fun st => ?_, fun st => ?_, fun st => ?_⟩
  · unfold Reg.train
    rw [addBias_perm, trainCore_perm]
  · unfold Reg.increment
    rw [addBias_perm, incrementCore_perm]
  · unfold trainIirl
    rw [trainCore_perm]

/-- **C133**: orthogonal Procrustes regression without whitening. -/
theorem C133_procrustes (svd : SvdFn) (pca : PcaFn) (σ : Fin m ≃ Fin n) (bias : Bool)
    (st : Opp (width bias d) q) (hw : st.whiten = false) (X : Matrix (Fin n) (Fin d) ℝ)
    (Y : Matrix (Fin n) (Fin q) ℝ) :
    trainOpp svd pca bias st (X.submatrix σ id) (Y.submatrix σ id) = trainOpp svd pca bias st X Y := by
  unfold trainOpp trainOppCore
  simp only [hw, Bool.false_eq_true, if_false, addBias_perm, tdot_perm]

end Regression

end

end Menpofit
