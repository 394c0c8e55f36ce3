import Verif.Model.SdmReport
import Verif.Lemmas.Sdm
import Verif.Lemmas.SharedWitness
import Verif.Lemmas.Stats
/-!
# C135: the errors printed while supervised descent algorithms are trained
-/

namespace Menpofit
open Sdm Spec SdmReport Stats

theorem perShape_index {A B : Type} : ∀ (as : List A) (bss : List (List B)) (c : Nat), (∀ bs ∈ bss, bs.length = c) →
    as.length = bss.length → ∀ i, i < (perShape (fun a _ => a) as bss).length →
    (perShape (fun a (_ : B) => a) as bss)[i]? = as[i / c]?
  | [], _, _, _, _, i, h => by simp [perShape] at h
  | _ :: _, [], _, _, he, _, _ => by simp at he
  | a :: as, bs :: bss, c, hc, he, i, h => by
    have hb := hc bs (by simp)
    simp only [perShape] at h ⊢
    rcases Nat.lt_or_ge i c with hi | hi
    · rw [List.getElem?_append_left (by simpa [hb] using hi), Nat.div_eq_of_lt hi]
      simp [hb, hi]
    · rw [List.getElem?_append_right (by simpa [hb] using hi)]
      have hc0 : 0 < c := by
        rcases Nat.eq_zero_or_pos c with h0 | h0
        · exfalso
          have hlen := perShape_length (fun a (_ : B) => a) as bss (by simpa using he)
          have hz : (bss.map List.length).sum = 0 := by
            have : ∀ l ∈ bss, l.length = 0 := fun l hl => (hc l (by simp [hl])).trans h0
            clear he h hc hlen
            induction bss with
            | nil => rfl
            | cons x xs ih => simp [this x (by simp), ih (fun l hl => this l (by simp [hl]))]
          simp only [List.length_append, List.length_map, hlen, hz, hb, h0] at h
          omega
        · exact h0
      have e1 : i / c = (i - c) / c + 1 := by
        rw [← Nat.add_div_right _ hc0, Nat.sub_add_cancel hi]
      rw [e1, List.getElem?_cons_succ]
      simp only [List.length_map, hb]
      refine perShape_index as bss c (fun l hl => hc l (by simp [hl])) (by simpa using he) _ ?_
      simp only [List.length_append, List.length_map, hb] at h
      omega

theorem mapM_as_id {α β : Type} (f : α → Except PyErr β) (l : List α) : l.mapM f = (l.map f).mapM id := by
  induction l with
  | nil => rfl
  | cons a l ih => simp only [List.mapM_cons, List.map_cons, id, ih]

/-- What is printed for a stage, when the error of two increments is the error of the shapes they lead to. -/
theorem printed_eq {V W S Row I : Type} [AddCommGroup W] {co : Coord V W} {feat : I → V → Row} {ims : List I}
    {gts : List V} {s : Stage V W Row} (h : Consistent co.proj co.inst feat ims gts s) (he : gts.length = s.before.length)
    {c : Nat} (hc : ∀ ss ∈ s.before, ss.length = c) (err : S → S → V → Except PyErr ℝ) (inst : W → Except PyErr S)
    (true' : V → V → Except PyErr ℝ)
    (key : ∀ g b e, (do let s1 ← inst (co.proj g - co.proj b); let s2 ← inst e; err s1 s2 g) =
      true' g (co.inst (co.proj b + e))) :
    printErrors err inst gts c s.delta s.predicted = (perShape true' gts s.after).mapM id := by
  have hG := perShape_length (fun g (_ : V) => g) gts s.before he
  have hB := flatten_length_eq s.before
  have hA : s.after.flatten.length = s.before.flatten.length := by
    rw [flatten_length_eq, flatten_length_eq, h.counts]
  have hP : s.before.flatten.length ≤ s.predicted.length := by
    have := congrArg List.length h.moved
    simp only [List.length_zipWith] at this
    omega
  have hD : s.delta.length = s.before.flatten.length := by
    rw [h.targets, perShape_length _ _ _ he, hB]
  unfold printErrors
  rw [mapM_as_id]
  congr 1
  rw [perShape_zipWith true', perShape_const (fun g => g) gts s.before s.after h.counts]
  apply List.ext_getElem
  · simp [hG, hA, hD, hB]
    omega
  · intro i h1 h2
    have hi : i < s.before.flatten.length := by
      simp only [List.length_map, List.length_zipIdx, List.length_zip] at h1
      omega
    have hiG : i < (perShape (fun g (_ : V) => g) gts s.before).length := by omega
    have e1 := perShape_index gts s.before c hc he i hiG
    rw [List.getElem?_eq_getElem hiG] at e1
    simp only [List.getElem_map, List.getElem_zipIdx, List.getElem_zip, List.getElem_zipWith, Nat.zero_add, ← e1]
    have e2 : s.delta[i]'(by omega) =
        co.proj ((perShape (fun g (_ : V) => g) gts s.before)[i]'hiG) - co.proj (s.before.flatten[i]'hi) := by
      have := h.targets
      rw [perShape_zipWith] at this
      simp only [this, List.getElem_zipWith]
    have e3 : s.after.flatten[i]'(by omega) = co.inst (co.proj (s.before.flatten[i]'hi) + s.predicted[i]'(by omega)) := by
      simp only [h.moved, List.getElem_zipWith]
    rw [e2, e3]
    exact key _ _ _

/-- The error is a function of the difference of two shapes, whichever its sign. -/
def ByDifference {n d : Nat} (e : Error.Shape n d → Error.Shape n d → ℝ) : Prop :=
  ∀ a b a' b', a - b = a' - b' ∨ a - b = b' - a' → e a b = e a' b'

theorem euclidean_byDifference {n d : Nat} : ByDifference (Error.euclideanError (n := n) (d := d)) := by
  intro a b a' b' h
  unfold Error.euclideanError
  congr 1
  refine Finset.sum_congr rfl fun i _ => congrArg _ (Finset.sum_congr rfl fun j _ => ?_)
  rcases h with h | h
  · have : a i j - b i j = a' i j - b' i j := congrFun (congrFun h i) j
    rw [this]
  · have : a i j - b i j = b' i j - a' i j := congrFun (congrFun h i) j
    rw [this]; ring

theorem rms_byDifference {n d : Nat} : ByDifference (Error.rootMeanSquareError (n := n) (d := d)) := by
  intro a b a' b' h
  unfold Error.rootMeanSquareError
  congr 2
  refine Finset.sum_congr rfl fun i _ => Finset.sum_congr rfl fun j _ => ?_
  rcases h with h | h
  · have : a i j - b i j = a' i j - b' i j := congrFun (congrFun h i) j
    rw [this]
  · have : a i j - b i j = b' i j - a' i j := congrFun (congrFun h i) j
    rw [this]; ring

section
variable {n d : Nat} {R Row I : Type}

/-- **C135**, verbose training of the non-parametric algorithms with the Euclidean or the root mean square error: what
is printed for a stage are the mean, the standard deviation and the median of the errors that its new shapes have from
the ground truth of their images. -/
theorem C135_printed (e : Error.Shape n d → Error.Shape n d → ℝ)
    (he : e = Error.euclideanError ∨ e = Error.rootMeanSquareError)
    (ops : RegOps Row (Error.Shape n d) R) (feat : I → Error.Shape n d → Row) (junk : Nat → Error.Shape n d)
    (m : Nat) (increment : Bool) (regs : List R) (ims : List I) (gts : List (Error.Shape n d))
    (cur : List (List (Error.Shape n d))) (h1 : ims.length = cur.length) (h2 : gts.length = cur.length) (c : Nat)
    (hc : ∀ ss ∈ cur, ss.length = c) (r)
    (h : Sdm.train ops (plain (Error.Shape n d)) feat junk m increment regs ims gts cur = .ok r) :
    ∀ s ∈ r.2.2, printInfo (asCalled e) (fun v => .ok v) gts c s.delta s.predicted =
      ((perShape (fun g t => Error.bbNormalisedError e t g none "avg_edge_length") gts s.after).mapM id).map
        fun errors => (npMean errors, npStd errors, npMedian errors) := by
  have hb : ByDifference e := by
    rcases he with rfl | rfl
    · exact euclidean_byDifference
    · exact rms_byDifference
  unfold Sdm.train at h
  split at h
  · cases h
  obtain ⟨dl, hd, h⟩ := bind_ok h
  have e0 := computeDelta_ok hd h2 hc
  subst e0
  obtain ⟨-, k2, k3⟩ := stages_ok (fun w => rfl) m 0 _ _ _ r h h1 h2 rfl rfl
  have hcount : ∀ (l : List (Stage (Error.Shape n d) (Error.Shape n d) Row)) (cur fin : List (List (Error.Shape n d))),
      (∀ s ∈ l, s.after.map List.length = s.before.map List.length) →
      l.map Stage.before ++ [fin] = cur :: l.map Stage.after →
      ∀ s ∈ l, s.before.map List.length = cur.map List.length := by
    intro l
    induction l with
    | nil => intro _ _ _ _ s hs; cases hs
    | cons x xs ih =>
      intro cur fin hx hl s hs
      simp only [List.map_cons, List.cons_append, List.cons.injEq] at hl
      rcases List.mem_cons.mp hs with rfl | hs
      · rw [hl.1]
      · rw [ih x.after fin (fun s hs => hx s (by simp [hs])) hl.2 s hs, hx x (by simp), hl.1]
  intro s hs
  have hl := hcount _ _ _ (fun s hs => (k2 s hs).counts) k3 s hs
  have hlen : s.before.length = cur.length := by simpa using congrArg List.length hl
  have hc' : ∀ ss ∈ s.before, ss.length = c := by
    intro ss hss
    have : ss.length ∈ s.before.map List.length := List.mem_map_of_mem hss
    rw [hl] at this
    obtain ⟨t, ht, e⟩ := List.mem_map.mp this
    rw [← e, hc t ht]
  unfold printInfo
  rw [printed_eq (k2 s hs) (by omega) hc' (asCalled e) (fun v => .ok v)
    (fun g t => Error.bbNormalisedError e t g none "avg_edge_length")]
  · cases (perShape (fun g t => Error.bbNormalisedError e t g none "avg_edge_length") gts s.after).mapM id <;> rfl
  · intro g b x
    show asCalled e (g - b) x g = Error.bbNormalisedError e (b + x) g none "avg_edge_length"
    have : e (g - b) x = e (b + x) g := hb _ _ _ _ (Or.inr (sub_sub g b x))
    simp only [asCalled, Error.bbNormalisedError, Option.getD, this]

/-- **C135**, verbose training of the parametric algorithms, if the instances of the shape model depend on the
parameters affinely (a model without a global transform): the errors printed for a stage are those of its new shapes
from the shapes that the model has for the ground truth.  `OrthoPDM`, the default, is not such a model, see
`C135_printed_parametric_violated`. -/
theorem C135_printed_parametric_partial (e : Error.Shape n d → Error.Shape n d → ℝ)
    (he : e = Error.euclideanError ∨ e = Error.rootMeanSquareError) {W : Type} [AddCommGroup W]
    (co : Coord (Error.Shape n d) W) (haff : ∀ a b t, co.inst (a + t) - co.inst (b + t) = co.inst a - co.inst b)
    (feat : I → Error.Shape n d → Row) (ims : List I) (gts : List (Error.Shape n d))
    (s : Stage (Error.Shape n d) W Row) (hs : Consistent co.proj co.inst feat ims gts s)
    (h2 : gts.length = s.before.length) (c : Nat) (hc : ∀ ss ∈ s.before, ss.length = c) :
    printErrors (asCalled e) (fun v => .ok (co.inst v)) gts c s.delta s.predicted =
      (perShape (fun g t => Error.bbNormalisedError e t (co.inst (co.proj g)) (some g) "avg_edge_length")
        gts s.after).mapM id := by
  have hb : ByDifference e := by
    rcases he with rfl | rfl
    · exact euclidean_byDifference
    · exact rms_byDifference
  refine printed_eq hs h2 hc _ _ _ ?_
  intro g b x
  show asCalled e (co.inst (co.proj g - co.proj b)) (co.inst x) g = _
  have : e (co.inst (co.proj g - co.proj b)) (co.inst x) = e (co.inst (co.proj b + x)) (co.inst (co.proj g)) := by
    apply hb
    right
    rw [← haff (co.proj g - co.proj b) x (co.proj b), sub_add_cancel, add_comm x]
  simp only [asCalled, Error.bbNormalisedError, Option.getD, this]

end

/-! ### The default shape model -/

open MI Shared Linear

theorem x_from {k : ℝ} (hk : k ≠ 0) (w : ℝ) : oFromVector (xAt 1 0) [2 * (k - 1), 0, 0, 0, w, 0] = .ok (xAt k w) := by
  have hcomb : MI.cross + combine [2 * (k - 1), 0, 0, 0] crossSim = k • MI.cross := by
    simp only [crossSim, similarityComponents, List.map_cons, List.map_nil, combine_cons,
      combine_nil_left]
    module
  have h1 : instanceOf MI.cross crossSim [2 * (k - 1), 0, 0, 0] = .ok (k • MI.cross) := by
    rw [instanceOf_ok]
    exact ⟨by simp [crossSim, similarityComponents], hcomb.symm⟩
  have h2 : xModel.inst [w, 0] = .ok (MI.cross + combine [w, 0] [squeeze, shear]) := by
    rw [Pca.inst, instanceOf_ok]
    exact ⟨le_refl 2, rfl⟩
  simp only [oFromVector, oUpdateGlobalWeights, xAt, List.take, List.drop, h1, bind, Except.bind, oTargetOf, h2,
    Except.map, x_procrustes hk, x_combine, x_sim]

/-- The points of a shape model, as an array. -/
def ptRows {n : Nat} (p : Pts n 2) : Error.Shape n 2 := fun i j => p (i, j)

theorem euclidean_smul {n d : Nat} (k : ℝ) (hk : 0 ≤ k) (a b : Error.Shape n d) :
    Error.euclideanError (k • a) (k • b) = k * Error.euclideanError a b := by
  unfold Error.euclideanError
  rw [mul_div_assoc', Finset.mul_sum]
  congr 1
  refine Finset.sum_congr rfl fun i _ => ?_
  rw [← Real.sqrt_sq hk, ← Real.sqrt_mul (sq_nonneg k), Real.sqrt_sq hk]
  congr 1
  rw [Finset.mul_sum]
  refine Finset.sum_congr rfl fun j _ => ?_
  simp only [Pi.smul_apply, smul_eq_mul]; ring

/-- What is printed by default for a parametric algorithm is not the error of the training shapes: a face of the model
at scale `k`, one unit of its first component away from the ground truth, and a stage that predicts no movement.  Its
error is `k` times the one that is printed, whatever `k > 0` is: the instances of parameter differences are taken at
the scale of the model, not at that of the face. -/
theorem C135_printed_parametric_violated (k : ℝ) (hk : 0 < k) :
    newOPdm crossOrtho xModel = .ok (xAt 1 0) ∧
    oFromVector (xAt 1 0) [2 * (k - 1), 0, 0, 0, 1, 0] = .ok (xAt k 1) ∧
    oFromVector (xAt 1 0) [2 * (k - 1), 0, 0, 0, 0, 0] = .ok (xAt k 0) ∧
    ∃ x : ℝ, 0 < x ∧
      printErrors (asCalled Error.euclideanError) (fun v => (oFromVector (xAt 1 0) v).map fun p => ptRows p.target)
        [ptRows (xAt k 1).target] 1 [[0, 0, 0, 0, 1, 0]] [[0, 0, 0, 0, 0, 0]] = .ok [x] ∧
      Error.bbNormalisedError Error.euclideanError (ptRows (xAt k 0).target) (ptRows (xAt k 1).target) none
        "avg_edge_length" = .ok (k * x) := by
  refine ⟨x_new, x_from hk.ne' 1, x_from hk.ne' 0, ?_⟩
  have f1 : oFromVector (xAt 1 0) [0, 0, 0, 0, 1, 0] = .ok (xAt 1 1) := x_fromVector 1
  have f0 : oFromVector (xAt 1 0) [0, 0, 0, 0, 0, 0] = .ok (xAt 1 0) := x_fromVector 0
  have r1 : ∀ w, ptRows (xAt k w).target = k • ptRows (xAt 1 w).target := by
    intro w; funext i j; simp [ptRows, xAt]; ring
  obtain ⟨v, hv0, hv⟩ : ∃ v : ℝ, 0 < v ∧ Error.bbAvgEdgeLength (ptRows (xAt k 1).target) = .ok v := by
    have hx : ∀ j, 0 < Error.extent (ptRows (xAt k 1).target) j := by
      intro j
      have hge : ∀ a b, ptRows (xAt k 1).target a j - ptRows (xAt k 1).target b j ≤
          Error.extent (ptRows (xAt k 1).target) j := by
        intro a b
        exact sub_le_sub (npMax_ge (List.mem_ofFn.mpr ⟨a, rfl⟩)) (npMin_le (List.mem_ofFn.mpr ⟨b, rfl⟩))
      fin_cases j
      · refine lt_of_lt_of_le ?_ (hge 0 2)
        simp [ptRows, xAt]; nlinarith
      · refine lt_of_lt_of_le ?_ (hge 1 3)
        simp [ptRows, xAt]; nlinarith
    refine ⟨1 / 2 * (Error.extent (ptRows (xAt k 1).target) 0 + Error.extent (ptRows (xAt k 1).target) 1),
      by have := hx 0; have := hx 1; linarith, ?_⟩
    simp [Error.bbAvgEdgeLength, Error.bbSides, bind, Except.bind, pure, Except.pure]
  have hpos : 0 < Error.euclideanError (ptRows (xAt 1 1).target) (ptRows (xAt 1 0).target) := by
    unfold Error.euclideanError
    refine div_pos ?_ (by norm_num)
    refine lt_of_lt_of_le (Real.sqrt_pos.mpr ?_) (Finset.single_le_sum
      (f := fun i => Real.sqrt (∑ j, (ptRows (xAt 1 1).target i j - ptRows (xAt 1 0).target i j) ^ 2))
      (fun i _ => Real.sqrt_nonneg _) (Finset.mem_univ (0 : Fin 4)))
    simp [ptRows, xAt, Fin.sum_univ_two]
  refine ⟨Error.euclideanError (ptRows (xAt 1 1).target) (ptRows (xAt 1 0).target) / v, div_pos hpos hv0, ?_, ?_⟩
  · simp [printErrors, f1, f0, asCalled, Error.bbNormalisedError, Error.bbNormType, hv, Except.map, bind, Except.bind,
      pure, Except.pure]
  · simp only [Error.bbNormalisedError, Error.bbNormType, if_true, Option.getD, hv, bind, Except.bind, pure, Except.pure]
    rw [euclidean_byDifference (ptRows (xAt k 0).target) _ (ptRows (xAt k 1).target) (ptRows (xAt k 0).target)
      (Or.inr rfl), r1 1, r1 0, euclidean_smul k hk.le, mul_div_assoc]

/-! ### The hypotheses are met -/

/-- Training on one image with one shape, with regressors that always predict the movement `u`. -/
example (g s u : Error.Shape 5 2) : ∃ st,
    Sdm.train (⟨fun _ _ => .ok (), fun _ _ _ => .ok (), fun _ xs => xs.map fun _ => u⟩ :
      RegOps Unit (Error.Shape 5 2) Unit) (plain _) (fun (_ : Unit) _ => ()) (fun _ => 0) 1 false [] [()] [g] [[s]] =
      .ok ([()], [[s + u]], [st]) := by
  simp [Sdm.train, computeDelta, deltaRows, stages, featureRows, updateAll, updateShapes, plain, bind, Except.bind,
    pure, Except.pure]

/-- A model without a global transform, and one stage of its training. -/
example (m u : Error.Shape 5 2) (proj : Error.Shape 5 2 → ℝ) (hp : ∀ w : ℝ, proj (m + w • u) = w)
    (g s : Error.Shape 5 2) (x : ℝ) :
    (∀ a b t : ℝ, (m + (a + t) • u) - (m + (b + t) • u) = (m + a • u) - (m + b • u)) ∧
    Consistent proj (fun w => m + w • u) (fun (_ : Unit) _ => ()) [()] [g]
      ⟨[[s]], [()], [proj g - proj s], [x], [[m + (proj s + x) • u]]⟩ := by
  refine ⟨fun a b t => by module, ⟨rfl, rfl, ?_, rfl, rfl⟩⟩
  simp [hp]

end Menpofit
