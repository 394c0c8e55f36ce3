import Verif.Model.Fitter
import Verif.Spec.Fitter
import Mathlib.Tactic.Ring
import Mathlib.Tactic.Linarith
/-!
# Helper lemmas for the multi-scale fitter
-/

namespace Menpofit
open Fitter

variable {S P F R : Type}

/-- How one scale of the preparation is produced from the feature image. -/
def scaleStep (ext : Ext S P F) (fi : Img S P) (sc : Rat) :
    Except PyErr (Img S P × Equiv.Perm S) :=
  if sc ≠ 1 then ext.rescale fi sc else .ok (fi, 1)

/-- `a` is the alignment of the landmarks of the feature image with `init`. -/
def AlignsWith (ext : Ext S P F) (fi : Img S P) (init : S) (a : Equiv.Perm S) : Prop :=
  ∃ src, fi.lm "__initial_shape" = some src ∧ ext.align src init = .ok a

/-- What the preparation loop guarantees after processing `done`. -/
structure PrepInv (ext : Ext S P F) (tmp : Img S P) (init : S)
    (done : List (F × Rat)) (acc : Prep S P) : Prop where
  li : acc.images.length = done.length
  la : acc.affine.length = done.length
  ls : acc.scale.length = done.length
  each : ∀ j f sc, done[j]? = some (f, sc) → ∃ fi im a t,
    acc.images[j]? = some im ∧ acc.affine[j]? = some a ∧ acc.scale[j]? = some t ∧
    ext.feature f tmp = .ok fi ∧ scaleStep ext fi sc = .ok (im, t) ∧
    ((j = 0 ∨ ∃ f' sc', done[j - 1]? = some (f', sc') ∧ f ≠ f') ∧ AlignsWith ext fi init a ∨
     (1 ≤ j ∧ ∃ sc', done[j - 1]? = some (f, sc')) ∧ acc.affine[0]? = some a)

/-- A computation that evaluates to a value with a decidable property. -/
theorem ok_of_eval {ε α : Type} (x : Except ε α) (Q : α → Bool)
    (h : (match x with | .ok p => Q p | .error _ => false) = true) :
    ∃ p, x = .ok p ∧ Q p = true := by
  cases x with
  | error e => simp at h
  | ok p => exact ⟨p, rfl, h⟩

theorem getLm_ok {im : Img S P} {g : String} {s : S} (h : getLm im g = .ok s) :
    im.lm g = some s := by
  unfold getLm at h; split at h
  · next h' => injection h with h; rw [h', h]
  · cases h

theorem prepInv_snoc (ext : Ext S P F) (tmp : Img S P) (init : S)
    (done : List (F × Rat)) (acc : Prep S P) (f : F) (sc : Rat) (fi im : Img S P)
    (a t : Equiv.Perm S) (h : PrepInv ext tmp init done acc)
    (hf : ext.feature f tmp = .ok fi) (hs : scaleStep ext fi sc = .ok (im, t))
    (ha : (done = [] ∨ ∃ f' sc', done.getLast? = some (f', sc') ∧ f ≠ f') ∧
            AlignsWith ext fi init a ∨
          (∃ sc', done.getLast? = some (f, sc')) ∧ acc.affine[0]? = some a) :
    PrepInv ext tmp init (done ++ [(f, sc)])
      ⟨acc.images ++ [im], acc.affine ++ [a], acc.scale ++ [t]⟩ := by
  refine ⟨by simp [h.li], by simp [h.la], by simp [h.ls], ?_⟩
  intro j g sc0 hj
  by_cases hlt : j < done.length
  · rw [List.getElem?_append_left hlt] at hj
    obtain ⟨fi', im', a', t', h1, h2, h3, h4, h5, h6⟩ := h.each j g sc0 hj
    have hprev : (done ++ [(f, sc)])[j - 1]? = done[j - 1]? :=
      List.getElem?_append_left (by omega)
    refine ⟨fi', im', a', t', ?_, ?_, ?_, h4, h5, ?_⟩
    · rw [List.getElem?_append_left (by rw [h.li]; exact hlt)]; exact h1
    · rw [List.getElem?_append_left (by rw [h.la]; exact hlt)]; exact h2
    · rw [List.getElem?_append_left (by rw [h.ls]; exact hlt)]; exact h3
    · rw [hprev]
      rcases h6 with h6 | ⟨h6, h7⟩
      · exact Or.inl h6
      · refine Or.inr ⟨h6, ?_⟩
        rw [List.getElem?_append_left (by rw [h.la]; omega)]; exact h7
  · have hj' : j = done.length := by
      have := List.getElem?_eq_some_iff.mp hj
      obtain ⟨hh, _⟩ := this
      simp at hh; omega
    subst hj'
    simp at hj
    obtain ⟨rfl, rfl⟩ := hj
    have e0 : (done ++ [(f, sc)])[done.length - 1]? =
        if done = [] then some (f, sc) else done.getLast? := by
      by_cases hd : done = []
      · subst hd; simp
      · have := List.length_pos_iff.mpr hd
        rw [List.getElem?_append_left (by omega), List.getLast?_eq_getElem?, if_neg hd]
    refine ⟨fi, im, a, t, ?_, ?_, ?_, hf, hs, ?_⟩
    · rw [← h.li]; simp
    · rw [← h.la]; simp
    · rw [← h.ls]; simp
    · rcases ha with ⟨h1, h2⟩ | ⟨⟨sc', h1⟩, h2⟩
      · refine Or.inl ⟨?_, h2⟩
        rcases h1 with rfl | ⟨f', sc', h1, h3⟩
        · exact Or.inl rfl
        · refine Or.inr ⟨f', sc', ?_, h3⟩
          have hd : done ≠ [] := by rintro rfl; simp at h1
          rw [e0, if_neg hd]; exact h1
      · have hd : done ≠ [] := by rintro rfl; simp at h1
        have := List.length_pos_iff.mpr hd
        refine Or.inr ⟨⟨by omega, sc', ?_⟩, ?_⟩
        · rw [e0, if_neg hd]; exact h1
        · rw [List.getElem?_append_left (by rw [h.la]; omega)]; exact h2

theorem prepLoop_inv [DecidableEq F] (ext : Ext S P F) (tmp : Img S P) (init : S) :
    ∀ (rest done : List (F × Rat)) (prev : Option (F × Img S P)) (acc p : Prep S P),
    PrepInv ext tmp init done acc →
    (prev = none ∧ done = [] ∨ ∃ f sc fi, prev = some (f, fi) ∧
      done.getLast? = some (f, sc) ∧ ext.feature f tmp = .ok fi) →
    prepLoop ext tmp init prev acc rest = .ok p →
    PrepInv ext tmp init (done ++ rest) p := by
  intro rest
  induction rest with
  | nil =>
    intro done prev acc p hinv _ h
    rw [prepLoop] at h; injection h with h; subst h; simpa using hinv
  | cons x rest ih =>
    intro done prev acc p hinv hprev h
    obtain ⟨f, sc⟩ := x
    have happ : done ++ (f, sc) :: rest = (done ++ [(f, sc)]) ++ rest := by simp
    rw [happ]
    -- the step computing the feature image afresh
    have fresh : ∀ (k : Img S P × Equiv.Perm S → Except PyErr (Prep S P)),
        ((do let fi' ← ext.feature f tmp
             let src ← getLm fi' "__initial_shape"
             let a ← ext.align src init
             return (fi', a) : Except PyErr (Img S P × Equiv.Perm S)) >>= k) = .ok p →
        ∃ fi' a, ext.feature f tmp = .ok fi' ∧ AlignsWith ext fi' init a ∧ k (fi', a) = .ok p := by
      intro k hk
      cases h1 : ext.feature f tmp with
      | error e => simp [h1, bind, Except.bind] at hk
      | ok fi' =>
        cases h2 : getLm fi' "__initial_shape" with
        | error e => simp [h1, h2, bind, Except.bind] at hk
        | ok src =>
          cases h3 : ext.align src init with
          | error e => simp [h1, h2, h3, bind, Except.bind] at hk
          | ok a =>
            simp [h1, h2, h3, bind, Except.bind, pure, Except.pure] at hk
            exact ⟨fi', a, rfl, ⟨src, getLm_ok h2, h3⟩, hk⟩
    -- after the step
    have after : ∀ (fi : Img S P) (a : Equiv.Perm S), ext.feature f tmp = .ok fi →
        ((done = [] ∨ ∃ f' sc', done.getLast? = some (f', sc') ∧ f ≠ f') ∧
            AlignsWith ext fi init a ∨
          (∃ sc', done.getLast? = some (f, sc')) ∧ acc.affine[0]? = some a) →
        ((if sc ≠ 1 then ext.rescale fi sc else .ok (fi, 1) :
            Except PyErr (Img S P × Equiv.Perm S)) >>= fun sc' =>
          prepLoop ext tmp init (some (f, fi))
            ⟨acc.images ++ [sc'.1], acc.affine ++ [a], acc.scale ++ [sc'.2]⟩ rest) = .ok p →
        PrepInv ext tmp init (done ++ [(f, sc)] ++ rest) p := by
      intro fi a hf ha hk
      cases h1 : scaleStep ext fi sc with
      | error e => unfold scaleStep at h1; rw [h1] at hk; simp [bind, Except.bind] at hk
      | ok q =>
        have h1' := h1
        unfold scaleStep at h1; rw [h1] at hk
        simp only [bind, Except.bind] at hk
        refine ih (done ++ [(f, sc)]) _ _ p
          (prepInv_snoc ext tmp init done acc f sc fi q.1 a q.2 hinv hf h1' ha) ?_ hk
        exact Or.inr ⟨f, sc, fi, rfl, by simp, hf⟩
    rcases hprev with ⟨rfl, rfl⟩ | ⟨f', sc', fi, rfl, hlast, hfi⟩
    · simp only [prepLoop] at h
      obtain ⟨fi', a, h1, h2, h3⟩ := fresh _ h
      exact after fi' a h1 (Or.inl ⟨Or.inl rfl, h2⟩) h3
    · by_cases hff : f ≠ f'
      · simp only [prepLoop, if_pos hff] at h
        obtain ⟨fi', a, h1, h2, h3⟩ := fresh _ h
        exact after fi' a h1 (Or.inl ⟨Or.inr ⟨f', sc', hlast, hff⟩, h2⟩) h3
      · have hff' : f = f' := not_not.mp hff
        subst hff'
        cases hacc : acc.affine with
        | nil =>
          have : done = [] := by
            have := hinv.la; rw [hacc] at this; simpa using this.symm
          rw [this] at hlast; simp at hlast
        | cons a0 as =>
          simp only [prepLoop, ne_eq, not_true, if_false, hacc, bind, Except.bind, pure, Except.pure] at h
          refine after fi a0 hfi (Or.inr ⟨⟨sc', hlast⟩, by rw [hacc]; rfl⟩) ?_
          simp only [hacc, bind, Except.bind]
          exact h

theorem prepLoop_spec [DecidableEq F] (ext : Ext S P F) (tmp : Img S P) (init : S) (fs : List (F × Rat))
    (p : Prep S P) (h : prepLoop ext tmp init none ⟨[], [], []⟩ fs = .ok p) :
    PrepInv ext tmp init fs p := by
  have h0 : PrepInv ext tmp init [] (⟨[], [], []⟩ : Prep S P) :=
    ⟨rfl, rfl, rfl, by intro j f sc h; simp at h⟩
  simpa using prepLoop_inv ext tmp init fs [] none _ p h0 (Or.inl ⟨rfl, rfl⟩) h

theorem mapM_getLm (g : String) : ∀ (l : List (Img S P)) (r : List S),
    (l.mapM fun i => getLm i g) = (.ok r : Except PyErr (List S)) →
    r.length = l.length ∧ ∀ (j : Nat) (im : Img S P), l[j]? = some im → ∃ s, r[j]? = some s ∧ im.lm g = some s := by
  intro l
  induction l with
  | nil => intro r h; simp [pure, Except.pure] at h; subst h; simp
  | cons x l ih =>
    intro r h
    rw [List.mapM_cons] at h
    cases h1 : getLm x g with
    | error e => simp [h1, bind, Except.bind] at h
    | ok s =>
      cases h2 : (l.mapM fun i => getLm i g : Except PyErr (List S)) with
      | error e => simp [h1, h2, bind, Except.bind] at h
      | ok rs =>
        simp [h1, h2, bind, Except.bind, pure, Except.pure] at h
        subst h
        obtain ⟨hl, he⟩ := ih rs h2
        refine ⟨by simp [hl], ?_⟩
        intro j im hj
        cases j with
        | zero => simp at hj; subst hj; exact ⟨s, by simp, getLm_ok h1⟩
        | succ k => simpa using he k im (by simpa using hj)

theorem prepBody_spec [DecidableEq F] (ext : Ext S P F) (features : List F) (scales : List Rat)
    (image : Img S P) (init : S) (gt : Option S) (p : Prepared S P)
    (h : prepBody ext features scales image init gt = .ok p) :
    ∃ tmp, ext.rescaleToRef image = .ok tmp ∧
      PrepInv ext tmp init (features.zip scales) ⟨p.images, p.affine, p.scale⟩ ∧
      p.initialShapes.length = p.images.length ∧
      (∀ (j : Nat) (im : Img S P), p.images[j]? = some im →
        ∃ s, p.initialShapes[j]? = some s ∧ im.lm "__initial_shape" = some s) ∧
      (gt = none → p.gtShapes = none) ∧
      (gt ≠ none → ∃ l, p.gtShapes = some l ∧ l.length = p.images.length) := by
  unfold prepBody at h
  cases h1 : ext.rescaleToRef image with
  | error e => simp [h1, bind, Except.bind] at h
  | ok tmp =>
    cases h2 : prepLoop ext tmp init none ⟨[], [], []⟩ (features.zip scales) with
    | error e => simp [h1, h2, bind, Except.bind] at h
    | ok q =>
      cases h3 : (q.images.mapM fun i => getLm i "__initial_shape" : Except PyErr (List S)) with
      | error e => simp [h1, h2, h3, bind, Except.bind] at h
      | ok inits =>
        have hspec := prepLoop_spec ext tmp init _ q h2
        have hm := mapM_getLm "__initial_shape" q.images inits h3
        cases gt with
        | none =>
          simp [h1, h2, h3, bind, Except.bind, pure, Except.pure] at h
          subst h
          exact ⟨tmp, rfl, hspec, hm.1, hm.2, fun _ => rfl, fun h => absurd rfl h⟩
        | some g =>
          cases h4 : (q.images.mapM fun i => getLm i "__gt_shape" : Except PyErr (List S)) with
          | error e => simp [h1, h2, h3, h4, bind, Except.bind] at h
          | ok gts =>
            have hg := mapM_getLm "__gt_shape" q.images gts h4
            simp [h1, h2, h3, h4, bind, Except.bind, pure, Except.pure] at h
            subst h
            exact ⟨tmp, rfl, hspec, hm.1, hm.2, (fun h => by cases h), fun _ => ⟨gts, rfl, hg.1⟩⟩

end Menpofit

namespace Menpofit
open Fitter Spec
variable {S P F R : Type}

theorem fitLoop_trace [DecidableEq F] (final : R → S) : ∀ (levels : List (Level S P F R)) (s0 : S)
    (rs : List R), fitLoop final s0 levels = .ok rs →
    rs.length = levels.length ∧ ∃ starts : Nat → S, starts 0 = s0 ∧
      ∀ (i : Nat) (l : Level S P F R), levels[i]? = some l → ∃ r, rs[i]? = some r ∧
        l.alg l.image (starts i) l.gt l.iters = .ok r ∧
        ∀ l', levels[i + 1]? = some l' → starts (i + 1) = carry l l' (final r) := by
  intro levels
  induction levels with
  | nil =>
    intro s0 rs h
    rw [fitLoop] at h; injection h with h; subst h
    exact ⟨rfl, fun _ => s0, rfl, by intro i l h; simp at h⟩
  | cons l rest ih =>
    intro s0 rs h
    cases hr : l.alg l.image s0 l.gt l.iters with
    | error e => simp [fitLoop, hr, bind, Except.bind] at h
    | ok r =>
      cases rest with
      | nil =>
        simp [fitLoop, hr, bind, Except.bind, pure, Except.pure] at h
        subst h
        refine ⟨rfl, fun _ => s0, rfl, ?_⟩
        intro i l2 hl
        cases i with
        | zero => simp at hl; subst hl; exact ⟨r, by simp, hr, by intro l' h; simp at h⟩
        | succ k => simp at hl
      | cons l1 rest =>
        cases hk : fitLoop final (carry l l1 (final r)) (l1 :: rest) with
        | error e => rw [fitLoop] at h; simp [hr, hk, bind, Except.bind] at h
        | ok rs' =>
          rw [fitLoop] at h
          simp [hr, hk, bind, Except.bind, pure, Except.pure] at h
          subst h
          obtain ⟨h1, st, h2, h3⟩ := ih _ rs' hk
          refine ⟨by simp [h1], fun i => match i with | 0 => s0 | k + 1 => st k, rfl, ?_⟩
          intro i l2 hl
          cases i with
          | zero =>
            simp at hl; subst hl
            refine ⟨r, by simp, hr, ?_⟩
            intro l' h'; simp at h'; subst h'; exact h2
          | succ k =>
            obtain ⟨r2, h4, h5, h6⟩ := h3 k l2 (by simpa using hl)
            exact ⟨r2, by simpa using h4, h5, fun l' h' => h6 l' (by simpa using h')⟩

/-- The first algorithm that raises determines the outcome. -/
theorem fitLoop_error [DecidableEq F] (final : R → S) : ∀ (levels : List (Level S P F R)) (s0 : S)
    (e : PyErr), fitLoop final s0 levels = .error e →
    ∃ (i : Nat) (l : Level S P F R) (s : S), levels[i]? = some l ∧
      l.alg l.image s l.gt l.iters = .error e := by
  intro levels
  induction levels with
  | nil => intro s0 e h; rw [fitLoop] at h; cases h
  | cons l rest ih =>
    intro s0 e h
    cases hr : l.alg l.image s0 l.gt l.iters with
    | error e' =>
      have : e' = e := by simpa [fitLoop, hr, bind, Except.bind] using h
      subst this
      exact ⟨0, l, s0, rfl, hr⟩
    | ok r =>
      cases rest with
      | nil => simp [fitLoop, hr, bind, Except.bind, pure, Except.pure] at h
      | cons l1 rest =>
        cases hk : fitLoop final (carry l l1 (final r)) (l1 :: rest) with
        | ok rs' => rw [fitLoop] at h; simp [hr, hk, bind, Except.bind, pure, Except.pure] at h
        | error e' =>
          have : e' = e := by rw [fitLoop] at h; simpa [hr, hk, bind, Except.bind] using h
          subst this
          obtain ⟨i, l2, s, h1, h2⟩ := ih _ _ hk
          exact ⟨i + 1, l2, s, by simpa using h1, h2⟩

theorem mkLevels_get (features : List F) (scales : List Rat) (images : List (Img S P))
    (affine scale : List (Equiv.Perm S)) (gts : Option (List S)) (iters : List Int)
    (algs : List (Algorithm S P R)) (n : Nat) (h1 : features.length = n) (h2 : scales.length = n)
    (h3 : images.length = n) (h4 : affine.length = n) (h5 : scale.length = n)
    (h6 : ∀ l, gts = some l → l.length = n) (h7 : iters.length = n) (h8 : algs.length = n) :
    (mkLevels features scales images affine scale gts iters algs).length = n ∧
    ∀ i, (hi : i < n) →
      (mkLevels features scales images affine scale gts iters algs)[i]? = some
        ⟨features[i], scales[i], images[i], affine[i], scale[i], gtOf gts i, iters[i], algs[i]⟩ := by
  unfold mkLevels
  cases gts with
  | none =>
    refine ⟨by simp [*], ?_⟩
    intro i hi
    simp [List.zip, *, gtOf]
  | some l =>
    have hl := h6 l rfl
    refine ⟨by simp [*], ?_⟩
    intro i hi
    simp [List.zip, *, gtOf]

theorem checkMaxIters_length (m : Checks.MaxIters) (n : Nat) (l : List Int)
    (h : Checks.checkMaxIters m n = .ok l) : l.length = n := by
  unfold Checks.checkMaxIters at h
  split at h
  · injection h with h; subst h; simp [Checks.rep]
  · cases h
  · split at h
    · injection h with h; subst h; simp [Checks.rep]
    · split at h
      · cases h
      · next h' => injection h with h; subst h; simpa using h'

theorem fitFromShape_ok [DecidableEq F] (ext : Ext S P F) (final : R → S) (features : List F)
    (scales : List Rat) (algs : List (Algorithm S P R)) (image : Img S P) (init : S)
    (maxIters : Checks.MaxIters) (gt : Option S) (p : Prepared S P) (rs : List R)
    (h : (fitFromShape ext final features scales algs image init maxIters gt).2 = .ok (p, rs)) :
    (prepareImage ext features scales image init gt).2 = .ok p ∧
    ∃ iters s0, Checks.checkMaxIters maxIters scales.length = .ok iters ∧
      p.initialShapes[0]? = some s0 ∧
      fitLoop final s0
        (mkLevels features scales p.images p.affine p.scale p.gtShapes iters algs) = .ok rs := by
  unfold fitFromShape at h
  cases h1 : prepareImage ext features scales image init gt with
  | mk lm q =>
    cases q with
    | error e => simp [h1, bind, Except.bind] at h
    | ok q =>
      cases h2 : Checks.checkMaxIters maxIters scales.length with
      | error e => simp [h1, h2, bind, Except.bind] at h
      | ok iters =>
        cases h3 : q.initialShapes with
        | nil => simp [h1, h2, h3, bind, Except.bind] at h
        | cons s0 ss =>
          cases h4 : fitLoop final s0
              (mkLevels features scales q.images q.affine q.scale q.gtShapes iters algs) with
          | error e => simp [h1, h2, h3, h4, bind, Except.bind] at h
          | ok rs' =>
            simp [h1, h2, h3, h4, bind, Except.bind, pure, Except.pure] at h
            obtain ⟨rfl, rfl⟩ := h
            exact ⟨rfl, iters, s0, rfl, by simp [h3], h4⟩

theorem prepareImage_ok [DecidableEq F] (ext : Ext S P F) (features : List F) (scales : List Rat)
    (image : Img S P) (init : S) (gt : Option S) (p : Prepared S P)
    (h : (prepareImage ext features scales image init gt).2 = .ok p) :
    ∃ image', prepBody ext features scales image' init gt = .ok p := by
  unfold prepareImage at h
  simp only at h
  split at h
  · cases h
  · next r hr => injection h with h; subst h; exact ⟨_, hr⟩

end Menpofit
