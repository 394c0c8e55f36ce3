import Verif.Lemmas.Coarser
/-!
# Properties: finer scales only add to a fit (C148)
-/

namespace Menpofit
open MI Warp Fitter Plane Spec Result Coarser

variable {S P' F R V K : Type}

/-- **C148**.  If a fitter with `n` scales fits a picture, then the fitter with its first (coarsest) `m` scales
and their numbers of iterations fits it too, leaves the same landmarks on it, prepares the same pictures and
transforms for these scales, and its results are the first `m` ones. -/
theorem C148_fit [DecidableEq F] (ext : Ext S P' F) (final : R → S) (features : List F) (scales : List Rat)
    (algs : List (Algorithm S P' R)) (image : Img S P') (init : S) (iters : List Rat) (gt : Option S)
    (hf : features.length = scales.length) (hi : iters.length = scales.length) (m : Nat) (hm : 1 ≤ m)
    (hmn : m ≤ scales.length) (lm : String → Option S) (p : Prepared S P') (rs : List R)
    (h : Fitter.fitFromShape ext final features scales algs image init (.seq iters) gt = (lm, .ok (p, rs))) :
    ∃ p', Fitter.fitFromShape ext final (features.take m) (scales.take m) (algs.take m) image init
        (.seq (iters.take m)) gt = (lm, .ok (p', rs.take m)) ∧
      p'.images = p.images.take m ∧ p'.initialShapes = p.initialShapes.take m ∧
      p'.gtShapes = p.gtShapes.map (List.take m) ∧ p'.affine = p.affine.take m ∧ p'.scale = p.scale.take m := by
  refine ⟨cut m p, ?_, rfl, rfl, rfl, rfl, rfl⟩
  unfold Fitter.fitFromShape at h ⊢
  rcases hp : prepareImage ext features scales image init gt with ⟨lm', q⟩
  rw [hp] at h
  cases q with
  | error e => cases h
  | ok q =>
    rw [prepare_take ext features scales image init gt m (by omega) hmn q lm' hp]
    simp only [bind, Except.bind] at h ⊢
    have hc : Checks.checkMaxIters (.seq iters) scales.length = .ok (iters.map Checks.truncToInt) := by
      unfold Checks.checkMaxIters
      simp only
      rw [if_neg (by omega), if_neg (by omega)]
    have hl : (iters.take m).length = (scales.take m).length := by simp [hi]
    have hc' : Checks.checkMaxIters (.seq (iters.take m)) (scales.take m).length =
        .ok ((iters.map Checks.truncToInt).take m) := by
      unfold Checks.checkMaxIters
      simp only
      rw [if_neg (by omega), if_neg (by omega), List.map_take]
    rw [hc] at h
    rw [hc']
    simp only at h ⊢
    cases hs : q.initialShapes with
    | nil => rw [hs] at h; cases h
    | cons s0 ss =>
      have hs' : (cut m q).initialShapes = s0 :: ss.take (m - 1) := by
        unfold cut
        obtain ⟨k, rfl⟩ : ∃ k, m = k + 1 := ⟨m - 1, by omega⟩
        simp [hs]
      rw [hs] at h
      rw [hs']
      simp only at h ⊢
      cases hr : fitLoop final s0 (mkLevels features scales q.images q.affine q.scale q.gtShapes
          (iters.map Checks.truncToInt) algs) with
      | error e => rw [hr] at h; cases h
      | ok rs' =>
        rw [hr] at h
        cases h
        have := fitLoop_cut final m _ s0 _ hr
        rw [← mkLevels_take] at this
        have e : fitLoop final s0 (mkLevels (features.take m) (scales.take m) (cut m p).images (cut m p).affine
            (cut m p).scale (cut m p).gtShapes ((iters.map Checks.truncToInt).take m) (algs.take m)) =
            .ok (rs.take m) := this
        rw [e]
        rfl

/-- **C148** for the results of fits in the plane: the result of the fitter with all scales continues that of
the fitter with its first `m` scales. -/
theorem C148_result {N : Nat} {C : Type} [DecidableEq F] (fe : Features F C) (reference : Pts N 2)
    (parametric : Bool) (features : List F) (scales : List Rat)
    (algs : List (Algorithm (Pts N 2) (P 2 → C) (Res (Pts N 2) V K))) (im : Pic N C) (init : Pts N 2)
    (iters : List Rat) (gt : Option (Pts N 2)) (hf : features.length = scales.length)
    (hi : iters.length = scales.length) (m : Nat) (hm : 1 ≤ m) (hmn : m ≤ scales.length)
    (r r' : Res (Pts N 2) V K)
    (h : Plane.fitFromShape fe reference parametric features scales algs im init (.seq iters) gt = .ok r)
    (h' : Plane.fitFromShape fe reference parametric (features.take m) (scales.take m) (algs.take m) im init
      (.seq (iters.take m)) gt = .ok r') :
    Continues r' r ∧ ∀ ps ps', r.params = some ps → r'.params = some ps' → ps' <+: ps := by
  unfold Plane.fitFromShape at h h'
  rcases hx : Fitter.fitFromShape (Plane.ext fe reference) (fun r : Res (Pts N 2) V K => r.final) features scales
    algs im init (.seq iters) gt with ⟨lm, x⟩
  cases x with
  | error e => rw [hx] at h; cases h
  | ok x =>
    obtain ⟨p, rs⟩ := x
    obtain ⟨p', hx', -, -, -, ha, ht⟩ := C148_fit _ _ features scales algs im init iters gt hf hi m hm hmn lm p rs hx
    rw [hx] at h
    rw [hx'] at h'
    simp only [bind, Except.bind, ha, ht, List.map_take] at h h'
    cases parametric with
    | false =>
      simp only [Bool.false_eq_true, if_false] at h h'
      refine ⟨multi_take m hm rs _ _ _ _ gt r r' h h', ?_⟩
      intro ps ps' hps _
      have : r.params = none := multi_params rs _ _ _ gt r h
      rw [this] at hps
      cases hps
    | true =>
      simp only [if_true, multiParam, bind, Except.bind] at h h'
      obtain ⟨A, hA⟩ : ∃ A, A = p.affine.map fun (a : Equiv.Perm (Pts N 2)) => (⇑a : Pts N 2 → Pts N 2) := ⟨_, rfl⟩
      obtain ⟨T, hT⟩ : ∃ T, T = p.scale.map fun (a : Equiv.Perm (Pts N 2)) => (⇑a : Pts N 2 → Pts N 2) := ⟨_, rfl⟩
      rw [← hA, ← hT] at h h'
      cases h1 : multiNonParam rs scales.length A T gt with
      | error e => rw [h1] at h; cases h
      | ok q =>
        cases h2 : multiNonParam (rs.take m) (scales.take m).length (A.take m) (T.take m) gt with
        | error e => rw [h2] at h'; cases h'
        | ok q' =>
          rw [h1] at h
          rw [h2] at h'
          have hq := multi_take m hm rs _ _ _ _ gt q q' h1 h2
          simp only at h h'
          cases h3 : concatOpt (rs.map (·.params)) with
          | error e => rw [h3] at h; cases h
          | ok ps =>
            cases h4 : concatOpt ((rs.take m).map (·.params)) with
            | error e => rw [h4] at h'; cases h'
            | ok ps' =>
              rw [h3] at h
              rw [h4] at h'
              cases h
              cases h'
              refine ⟨hq, ?_⟩
              rintro _ _ ⟨⟩ ⟨⟩
              exact concatOpt_take m _ _ _ h3 (by rw [← List.map_take]; exact h4)

/-! ### Concrete cases -/

/-- A fitter of two scales on shapes that are numbers: every algorithm adds one. -/
def plusOne : Algorithm Rat Unit Rat := fun _ s _ _ => .ok (s + 1)

/-- Numbers as shapes: features and alignments do nothing, rescaling halves. -/
def halving : Ext Rat Unit Unit where
  rescaleToRef := .ok
  feature _ i := .ok i
  align _ _ := .ok 1
  rescale i _ := .ok (⟨fun g => (i.lm g).map (· / 2), i.px⟩, (Equiv.mulRight₀ (2 : Rat) (by norm_num)))

/-- The hypotheses of `C148_fit` are met by a fit with two scales. -/
example : ∃ lm p rs, Fitter.fitFromShape halving id [(), ()] [1 / 2, 1] [plusOne, plusOne] ⟨fun _ => none, ()⟩ 4
    (.seq [3, 5]) none = (lm, .ok (p, rs)) ∧ rs.length = 2 := by
  obtain ⟨y, hy, hq⟩ := ok_of_eval (Fitter.fitFromShape halving id [(), ()] [1 / 2, 1] [plusOne, plusOne]
    ⟨fun _ => none, ()⟩ 4 (.seq [3, 5]) none).2 (fun y => y.2.length == 2) (by decide +kernel)
  exact ⟨_, y.1, y.2, Prod.ext rfl hy, by simpa using hq⟩

end Menpofit
