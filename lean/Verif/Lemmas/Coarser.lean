import Verif.Model.Plane
import Verif.Spec.Coarser
import Verif.Lemmas.Fitter
/-!
# Helper lemmas: leaving out the finest scales
-/

namespace Menpofit
namespace Coarser
open Fitter Result Spec

variable {S P F R V K : Type}

theorem prepLoop_cons [DecidableEq F] (ext : Ext S P F) (tmp : Img S P) (init : S) (prev : Option (F × Img S P))
    (acc : Prep S P) (f : F) (sc : Rat) :
    ∃ x : Except PyErr ((Img S P × Equiv.Perm S) × (Img S P × Equiv.Perm S)), ∀ rest,
      prepLoop ext tmp init prev acc ((f, sc) :: rest) = x.bind fun y =>
        prepLoop ext tmp init (some (f, y.1.1))
          ⟨acc.images ++ [y.2.1], acc.affine ++ [y.1.2], acc.scale ++ [y.2.2]⟩ rest := by
  obtain ⟨imgs, aff, scs⟩ := acc
  have tail : ∀ (st : Except PyErr (Img S P × Equiv.Perm S)) (rest : List (F × Rat)),
      (st.bind fun step => (if sc ≠ 1 then ext.rescale step.1 sc else .ok (step.1, 1) :
          Except PyErr (Img S P × Equiv.Perm S)).bind fun s => prepLoop ext tmp init (some (f, step.1))
            ⟨imgs ++ [s.1], aff ++ [step.2], scs ++ [s.2]⟩ rest) =
      (st.bind fun step => (if sc ≠ 1 then ext.rescale step.1 sc else .ok (step.1, 1) :
        Except PyErr (Img S P × Equiv.Perm S)).bind fun s => .ok (step, s)).bind fun y =>
          prepLoop ext tmp init (some (f, y.1.1))
            ⟨imgs ++ [y.2.1], aff ++ [y.1.2], scs ++ [y.2.2]⟩ rest := by
    intro st rest
    cases st with
    | error e => rfl
    | ok step =>
      simp only [Except.bind]
      generalize (if sc ≠ 1 then ext.rescale step.1 sc else .ok (step.1, 1) :
        Except PyErr (Img S P × Equiv.Perm S)) = s
      cases s <;> rfl
  cases prev with
  | none => exact ⟨_, fun rest => tail _ rest⟩
  | some q =>
    obtain ⟨f', fi⟩ := q
    by_cases hf : f ≠ f'
    · refine ⟨_, fun rest => Eq.trans ?_ (tail ((ext.feature f tmp).bind fun fi' =>
        (getLm fi' "__initial_shape").bind fun src => (ext.align src init).bind fun a => .ok (fi', a)) rest)⟩
      conv_lhs => unfold prepLoop
      simp only [if_pos hf]
      rfl
    · cases aff with
      | nil =>
        refine ⟨_, fun rest => Eq.trans ?_ (tail (.error .indexError) rest)⟩
        conv_lhs => unfold prepLoop
        simp only [if_neg hf]
        rfl
      | cons a0 as =>
        refine ⟨_, fun rest => Eq.trans ?_ (tail (.ok (fi, a0)) rest)⟩
        conv_lhs => unfold prepLoop
        simp only [if_neg hf]
        rfl

theorem zip_take {α β : Type} (m : Nat) (a : List α) (b : List β) : (a.take m).zip (b.take m) = (a.zip b).take m := by
  simp only [List.zip, List.take_zipWith]

theorem prepLoop_length [DecidableEq F] (ext : Ext S P F) (tmp : Img S P) (init : S) :
    ∀ (l : List (F × Rat)) (prev : Option (F × Img S P)) (acc p : Prep S P),
      prepLoop ext tmp init prev acc l = .ok p →
      (acc.images <+: p.images ∧ acc.affine <+: p.affine ∧ acc.scale <+: p.scale) ∧
      p.images.length = acc.images.length + l.length ∧ p.affine.length = acc.affine.length + l.length ∧
      p.scale.length = acc.scale.length + l.length := by
  intro l
  induction l with
  | nil =>
    intro prev acc p h
    cases h
    simp
  | cons fs l ih =>
    intro prev acc p h
    obtain ⟨f, sc⟩ := fs
    obtain ⟨x, hx⟩ := prepLoop_cons ext tmp init prev acc f sc
    rw [hx] at h
    cases x with
    | error e => cases h
    | ok y =>
      obtain ⟨⟨h1, h2, h3⟩, h4, h5, h6⟩ := ih _ _ _ h
      simp only [List.length_append, List.length_cons, List.length_nil] at h4 h5 h6 ⊢
      exact ⟨⟨(List.prefix_append _ _).trans h1, (List.prefix_append _ _).trans h2, (List.prefix_append _ _).trans h3⟩,
        by omega, by omega, by omega⟩

theorem prepLoop_take [DecidableEq F] (ext : Ext S P F) (tmp : Img S P) (init : S) (l' : List (F × Rat)) :
    ∀ (l : List (F × Rat)) (prev : Option (F × Img S P)) (acc p : Prep S P),
      prepLoop ext tmp init prev acc (l ++ l') = .ok p →
      ∃ q, prepLoop ext tmp init prev acc l = .ok q ∧
        q.images <+: p.images ∧ q.affine <+: p.affine ∧ q.scale <+: p.scale := by
  intro l
  induction l with
  | nil =>
    intro prev acc p h
    exact ⟨acc, rfl, (prepLoop_length ext tmp init l' prev acc p h).1⟩
  | cons fs l ih =>
    intro prev acc p h
    obtain ⟨f, sc⟩ := fs
    obtain ⟨x, hx⟩ := prepLoop_cons ext tmp init prev acc f sc
    rw [List.cons_append, hx] at h
    rw [hx]
    cases x with
    | error e => cases h
    | ok y => exact ih _ _ _ h

theorem mapM_take {α β : Type} (f : α → Except PyErr β) (m : Nat) : ∀ (l : List α) (r : List β),
    l.mapM f = .ok r → (l.take m).mapM f = .ok (r.take m) := by
  induction m with
  | zero => intro l r _; rfl
  | succ m ih =>
    intro l r h
    cases l with
    | nil => cases h; rfl
    | cons x l =>
      rw [List.mapM_cons] at h
      rw [List.take_succ_cons, List.mapM_cons]
      cases hx : f x with
      | error e => rw [hx] at h; cases h
      | ok y =>
        rw [hx] at h
        cases hl : l.mapM f with
        | error e => rw [hl] at h; cases h
        | ok ys =>
          rw [hl] at h
          cases h
          rw [ih l ys hl]
          rfl

/-- What preparing an image for the first `m` scales gives. -/
def cut (m : Nat) (p : Prepared S P) : Prepared S P :=
  ⟨p.images.take m, p.initialShapes.take m, p.gtShapes.map (List.take m), p.affine.take m, p.scale.take m⟩

theorem eq_take {α : Type} {a b : List α} {m : Nat} (h : a <+: b) (hl : a.length = m) : a = b.take m := by
  rw [← hl]
  exact List.prefix_iff_eq_take.mp h

theorem prepBody_take [DecidableEq F] (ext : Ext S P F) (features : List F) (scales : List Rat) (image : Img S P)
    (init : S) (gt : Option S) (m : Nat) (hf : m ≤ features.length) (hs : m ≤ scales.length) (p : Prepared S P)
    (h : prepBody ext features scales image init gt = .ok p) :
    prepBody ext (features.take m) (scales.take m) image init gt = .ok (cut m p) := by
  unfold prepBody at h ⊢
  cases ht : ext.rescaleToRef image with
  | error e => rw [ht] at h; cases h
  | ok tmp =>
    rw [ht] at h
    simp only [bind, Except.bind] at h ⊢
    cases hp : prepLoop ext tmp init none ⟨[], [], []⟩ (features.zip scales) with
    | error e => rw [hp] at h; cases h
    | ok q =>
      rw [hp] at h
      have hsplit : features.zip scales =
          (features.take m).zip (scales.take m) ++ (features.zip scales).drop m := by
        rw [zip_take, List.take_append_drop]
      have hp' := hp
      rw [hsplit] at hp'
      obtain ⟨q', hq', h1, h2, h3⟩ := prepLoop_take ext tmp init _ _ _ _ _ hp'
      obtain ⟨-, l1, l2, l3⟩ := prepLoop_length ext tmp init _ _ _ _ hq'
      have hm : ((features.take m).zip (scales.take m)).length = m := by
        simp [Nat.min_eq_left hf, Nat.min_eq_left hs]
      simp only [List.length_nil, Nat.zero_add, hm] at l1 l2 l3
      rw [hq']
      simp only at h ⊢
      have e1 := eq_take h1 l1
      have e2 := eq_take h2 l2
      have e3 := eq_take h3 l3
      rw [e1, e2, e3]
      cases hi : q.images.mapM fun i => getLm i "__initial_shape" with
      | error e => rw [hi] at h; cases h
      | ok inits =>
        rw [hi] at h
        rw [mapM_take _ m _ _ hi]
        simp only at h ⊢
        cases gt with
        | none => cases h; rfl
        | some g =>
          simp only at h ⊢
          cases hg : q.images.mapM fun i => getLm i "__gt_shape" with
          | error e => rw [hg] at h; cases h
          | ok gts =>
            rw [hg] at h
            rw [mapM_take _ m _ _ hg]
            cases h
            rfl

theorem prepare_take [DecidableEq F] (ext : Ext S P F) (features : List F) (scales : List Rat) (image : Img S P)
    (init : S) (gt : Option S) (m : Nat) (hf : m ≤ features.length) (hs : m ≤ scales.length) (p : Prepared S P)
    (lm : String → Option S)
    (h : prepareImage ext features scales image init gt = (lm, .ok p)) :
    prepareImage ext (features.take m) (scales.take m) image init gt = (lm, .ok (cut m p)) := by
  unfold prepareImage at h ⊢
  simp only at h ⊢
  split at h
  · cases h
  · rename_i r hr
    rw [prepBody_take ext features scales _ init gt m hf hs r hr]
    cases h
    rfl

theorem fitLoop_take [DecidableEq F] (final : R → S) (l' : List (Level S P F R)) :
    ∀ (l : List (Level S P F R)) (s : S) (rs : List R), fitLoop final s (l ++ l') = .ok rs →
      fitLoop final s l = .ok (rs.take l.length) := by
  intro l
  induction l with
  | nil => intro s rs _; simp [fitLoop]
  | cons x l ih =>
    intro s rs h
    rw [List.cons_append] at h
    unfold fitLoop at h ⊢
    cases hr : x.alg x.image s x.gt x.iters with
    | error e => rw [hr] at h; cases h
    | ok r =>
      rw [hr] at h
      simp only [bind, Except.bind] at h ⊢
      cases l with
      | nil =>
        simp only [List.nil_append] at h ⊢
        split at h
        · cases h
        · cases h
          rfl
      | cons x' l =>
        simp only [List.cons_append] at h ⊢
        cases hrs : fitLoop final (carry x x' (final r)) (x' :: (l ++ l')) with
        | error e => rw [hrs] at h; cases h
        | ok rs' =>
          rw [hrs] at h
          cases h
          rw [ih _ rs' (by rw [List.cons_append]; exact hrs)]
          rfl

theorem mkLevels_take (features : List F) (scales : List Rat) (images : List (Img S P))
    (affine scale : List (Equiv.Perm S)) (gts : Option (List S)) (iters : List Int)
    (algs : List (Algorithm S P R)) (m : Nat) :
    mkLevels (features.take m) (scales.take m) (images.take m) (affine.take m) (scale.take m)
      (gts.map (List.take m)) (iters.take m) (algs.take m) =
      (mkLevels features scales images affine scale gts iters algs).take m := by
  unfold mkLevels
  cases gts with
  | none =>
    have e : (List.replicate (scales.take m).length none : List (Option S)) =
        (List.replicate scales.length none).take m := by simp [List.take_replicate]
    simp only [Option.map_none, e, zip_take, List.map_take]
  | some l => simp only [Option.map_some, List.map_take, zip_take]

theorem fitLoop_length [DecidableEq F] (final : R → S) : ∀ (l : List (Level S P F R)) (s : S) (rs : List R),
    fitLoop final s l = .ok rs → rs.length = l.length := by
  intro l
  induction l with
  | nil => intro s rs h; cases h; rfl
  | cons x l ih =>
    intro s rs h
    unfold fitLoop at h
    cases hr : x.alg x.image s x.gt x.iters with
    | error e => rw [hr] at h; cases h
    | ok r =>
      rw [hr] at h
      simp only [bind, Except.bind] at h
      cases l with
      | nil => cases h; rfl
      | cons x' l =>
        simp only at h
        cases hrs : fitLoop final (carry x x' (final r)) (x' :: l) with
        | error e => rw [hrs] at h; cases h
        | ok rs' =>
          rw [hrs] at h
          cases h
          simp [ih _ _ hrs]

theorem fitLoop_cut [DecidableEq F] (final : R → S) (m : Nat) (l : List (Level S P F R)) (s : S) (rs : List R)
    (h : fitLoop final s l = .ok rs) : fitLoop final s (l.take m) = .ok (rs.take m) := by
  have hl := fitLoop_length final l s rs h
  rw [fitLoop_take final (l.drop m) (l.take m) s rs (by rw [List.take_append_drop]; exact h), List.length_take]
  by_cases hm : m ≤ l.length
  · rw [Nat.min_eq_left hm]
  · rw [Nat.min_eq_right (by omega), List.take_of_length_le (by omega), List.take_of_length_le (by omega)]

/-! ### Results -/

theorem concatShapes_take (m : Nat) : ∀ (rs : List (Res S V K)) (as ts : List (S → S)) (x y : List S),
    concatShapes rs as ts = .ok x → concatShapes (rs.take m) (as.take m) (ts.take m) = .ok y → y <+: x := by
  induction m with
  | zero =>
    intro rs as ts x y _ h
    cases h
    exact List.nil_prefix
  | succ m ih =>
    intro rs as ts x y hx hy
    cases rs with
    | nil => cases hx; cases hy; exact List.nil_prefix
    | cons r rs =>
      cases as with
      | nil => cases hx
      | cons a as =>
        cases ts with
        | nil => cases hx
        | cons t ts =>
          simp only [List.take_succ_cons, concatShapes, bind, Except.bind] at hx hy
          cases h1 : concatShapes rs as ts with
          | error e => rw [h1] at hx; cases hx
          | ok x' =>
            cases h2 : concatShapes (rs.take m) (as.take m) (ts.take m) with
            | error e => rw [h2] at hy; cases hy
            | ok y' =>
              rw [h1] at hx
              rw [h2] at hy
              cases hx
              cases hy
              exact (List.prefix_append_right_inj _).mpr (ih rs as ts x' y' h1 h2)

theorem concatOpt_take {α : Type} (m : Nat) : ∀ (l : List (Option (List α))) (x y : List α),
    concatOpt l = .ok x → concatOpt (l.take m) = .ok y → y <+: x := by
  induction m with
  | zero => intro l x y _ h; cases h; exact List.nil_prefix
  | succ m ih =>
    intro l x y hx hy
    cases l with
    | nil => cases hx; cases hy; exact List.nil_prefix
    | cons o l =>
      cases o with
      | none => cases hx
      | some o =>
        simp only [List.take_succ_cons, concatOpt, bind, Except.bind] at hx hy
        cases h1 : concatOpt l with
        | error e => rw [h1] at hx; cases hx
        | ok x' =>
          cases h2 : concatOpt (l.take m) with
          | error e => rw [h2] at hy; cases hy
          | ok y' =>
            rw [h1] at hx
            rw [h2] at hy
            cases hx
            cases hy
            exact (List.prefix_append_right_inj _).mpr (ih l x' y' h1 h2)

theorem multi_take (m : Nat) (hm : 1 ≤ m) (rs : List (Res S V K)) (n n' : Nat) (as ts : List (S → S)) (gt : Option S)
    (r r' : Res S V K) (h : multiNonParam rs n as ts gt = .ok r)
    (h' : multiNonParam (rs.take m) n' (as.take m) (ts.take m) gt = .ok r') : Continues r' r := by
  obtain ⟨m, rfl⟩ : ∃ k, m = k + 1 := ⟨m - 1, by omega⟩
  unfold multiNonParam at h h'
  split at h
  · cases h
  split at h'
  · cases h'
  cases rs with
  | nil => cases h
  | cons r0 rs =>
    have ht : (r0 :: rs).take (m + 1) = r0 :: rs.take m := List.take_succ_cons
    rw [ht] at h'
    simp only [bind, Except.bind] at h h'
    have hfi : firstInitial r0.initial (as.take (m + 1)) (ts.take (m + 1)) = firstInitial r0.initial as ts := by
      unfold firstInitial
      cases r0.initial with
      | none => rfl
      | some s => cases as <;> cases ts <;> rfl
    rw [hfi] at h'
    cases hi : firstInitial r0.initial as ts with
    | error e => rw [hi] at h; cases h
    | ok i =>
      rw [hi] at h h'
      simp only at h h'
      cases hs : concatShapes (r0 :: rs) as ts with
      | error e => rw [hs] at h; cases h
      | ok x =>
        cases hs' : concatShapes (r0 :: rs.take m) (as.take (m + 1)) (ts.take (m + 1)) with
        | error e => rw [hs'] at h'; cases h'
        | ok y =>
          rw [hs] at h
          rw [hs'] at h'
          have hxy := concatShapes_take (m + 1) _ _ _ x y hs (by rw [ht]; exact hs')
          simp only [nonParam] at h h'
          cases hx : x.getLast? with
          | none => rw [hx] at h; cases h
          | some fx =>
            cases hy : y.getLast? with
            | none => rw [hy] at h'; cases h'
            | some fy =>
              rw [hx] at h
              rw [hy] at h'
              simp only at h h'
              cases hc : concatCosts r0.costs ((r0 :: rs).map (·.costs)) with
              | error e => rw [hc] at h; cases h
              | ok c =>
                cases hc' : concatCosts r0.costs ((r0 :: rs.take m).map (·.costs)) with
                | error e => rw [hc'] at h'; cases h'
                | ok c' =>
                  rw [hc] at h
                  rw [hc'] at h'
                  cases h
                  cases h'
                  refine ⟨rfl, rfl, (List.prefix_append_right_inj _).mpr hxy, ?_, ?_, ?_⟩
                  · simp only [List.map_cons]
                    exact List.cons_prefix_cons.mpr ⟨rfl, by rw [List.map_take]; exact List.take_prefix _ _⟩
                  · cases h0 : r0.costs with
                    | none => rw [h0] at hc hc'; cases hc; cases hc'; rfl
                    | some z =>
                      rw [h0] at hc hc'
                      simp only [concatCosts] at hc hc'
                      cases h1 : concatOpt ((r0 :: rs).map (·.costs)) <;> rw [h1] at hc <;> cases hc
                      cases h2 : concatOpt ((r0 :: rs.take m).map (·.costs)) <;> rw [h2] at hc' <;> cases hc'
                      rfl
                  · intro d d' hd hd'
                    simp only at hd hd'
                    subst hd hd'
                    cases h0 : r0.costs with
                    | none => rw [h0] at hc; cases hc
                    | some z =>
                      rw [h0] at hc hc'
                      simp only [concatCosts] at hc hc'
                      cases h1 : concatOpt ((r0 :: rs).map (·.costs)) <;> rw [h1] at hc <;> cases hc
                      cases h2 : concatOpt ((r0 :: rs.take m).map (·.costs)) <;> rw [h2] at hc' <;> cases hc'
                      refine concatOpt_take (m + 1) _ _ _ h1 ?_
                      rw [← List.map_take, ht]
                      exact h2

theorem multi_params (rs : List (Res S V K)) (n : Nat) (as ts : List (S → S)) (gt : Option S) (r : Res S V K)
    (h : multiNonParam rs n as ts gt = .ok r) : r.params = none := by
  unfold multiNonParam at h
  split at h
  · cases h
  cases rs with
  | nil => cases h
  | cons r0 rs =>
    simp only [bind, Except.bind] at h
    cases hi : firstInitial r0.initial as ts with
    | error e => rw [hi] at h; cases h
    | ok i =>
      rw [hi] at h
      simp only at h
      cases hs : concatShapes (r0 :: rs) as ts with
      | error e => rw [hs] at h; cases h
      | ok x =>
        rw [hs] at h
        simp only [nonParam] at h
        cases hx : x.getLast? with
        | none => rw [hx] at h; cases h
        | some fx =>
          rw [hx] at h
          simp only at h
          cases hc : concatCosts r0.costs ((r0 :: rs).map (·.costs)) with
          | error e => rw [hc] at h; cases h
          | ok c =>
            rw [hc] at h
            cases h
            rfl

end Coarser
end Menpofit
