import Verif.Lemmas.Plane
import Verif.Lemmas.Optim
import Verif.Spec.Bystander
/-!
# Lemmas: what asking for errors and costs may change
-/

namespace Menpofit
namespace Bystander
open MI Warp Fitter Plane Spec Result

variable {S P F V K : Type}

/-- Related images, with the ground truth attached if `h`, `h'`. -/
def Rel (h h' : Prop) (im im' : Img S P) : Prop :=
  SameUpToTruth im im' ∧ (h → (im.lm "__gt_shape").isSome) ∧ (h' → (im'.lm "__gt_shape").isSome)

/-- The operations do not care about the group of the ground truth. -/
structure Careless (ext : Ext S P F) (h h' : Prop) : Prop where
  toRef : ∀ im im', Rel h h' im im' → BothReturn (Rel h h') (ext.rescaleToRef im) (ext.rescaleToRef im')
  feature : ∀ f im im', Rel h h' im im' → BothReturn (Rel h h') (ext.feature f im) (ext.feature f im')
  rescale : ∀ im im' c, Rel h h' im im' →
    BothReturn (fun x x' => Rel h h' x.1 x'.1 ∧ x'.2 = x.2) (ext.rescale im c) (ext.rescale im' c)

/-- What the loop over the scales has built, twice. -/
structure PrepRel (h h' : Prop) (p p' : Prep S P) : Prop where
  images : List.Forall₂ (Rel h h') p.images p'.images
  affine : p'.affine = p.affine
  scale : p'.scale = p.scale

theorem getLm_rel {h h' : Prop} {im im' : Img S P} (r : Rel h h' im im') {g : String} (hg : g ≠ "__gt_shape") :
    getLm im' g = getLm im g := by
  unfold getLm
  rw [r.1.landmarks g hg]

theorem both_eq {α : Type} {x x' : Except PyErr α} (h : x' = x) : BothReturn (fun a b => b = a) x x' := by
  subst h
  cases x' <;> rfl

theorem both_mono {α β : Type} {R Q : α → β → Prop} {x : Except PyErr α} {y : Except PyErr β}
    (h : BothReturn R x y) (hm : ∀ a b, R a b → Q a b) : BothReturn Q x y := by
  cases x <;> cases y <;> first | exact h | exact hm _ _ h

theorem prep_rel [DecidableEq F] {ext : Ext S P F} {h h' : Prop} (hc : Careless ext h h') {tmp tmp' : Img S P}
    (ht : Rel h h' tmp tmp') (init : S) : ∀ (L : List (F × Rat)) (prev prev' : Option (F × Img S P))
    (acc acc' : Prep S P),
    (∀ x, prev = some x → ∃ x', prev' = some x' ∧ x'.1 = x.1 ∧ Rel h h' x.2 x'.2) →
    (prev = none → prev' = none) → PrepRel h h' acc acc' →
    BothReturn (PrepRel h h') (prepLoop ext tmp init prev acc L) (prepLoop ext tmp' init prev' acc' L) := by
  intro L
  have hfresh : ∀ f, BothReturn (fun (x x' : Img S P × Equiv.Perm S) => Rel h h' x.1 x'.1 ∧ x'.2 = x.2)
      (do let fi' ← ext.feature f tmp
          let src ← getLm fi' "__initial_shape"
          let a ← ext.align src init
          return (fi', a))
      (do let fi' ← ext.feature f tmp'
          let src ← getLm fi' "__initial_shape"
          let a ← ext.align src init
          return (fi', a)) := by
    intro f
    refine both_bind (hc.feature f _ _ ht) fun fi fi' hfi => ?_
    refine both_bind (both_eq (getLm_rel hfi (by decide))) ?_
    rintro _ s rfl
    refine both_bind (both_eq rfl) ?_
    rintro _ a rfl
    exact ⟨hfi, rfl⟩
  induction L with
  | nil => intro prev prev' acc acc' _ _ ha; exact ha
  | cons x L ih =>
    obtain ⟨f, sc⟩ := x
    intro prev prev' acc acc' hp hn ha
    unfold prepLoop
    refine both_bind (R := fun (x x' : Img S P × Equiv.Perm S) => Rel h h' x.1 x'.1 ∧ x'.2 = x.2) ?_ ?_
    · cases prev with
      | none => rw [hn rfl]; exact hfresh f
      | some y =>
        obtain ⟨y', hy', e, hr⟩ := hp y rfl
        rw [hy']
        obtain ⟨f1, fi⟩ := y
        obtain ⟨f1', fi'⟩ := y'
        simp only at e hr ⊢
        subst e
        by_cases hf : f ≠ f1'
        · rw [if_pos hf, if_pos hf]; exact hfresh f
        · rw [if_neg hf, if_neg hf, ha.affine]
          cases acc.affine with
          | nil => rfl
          | cons a0 _ => exact ⟨hr, rfl⟩
    · rintro ⟨fi, a⟩ ⟨fi', a'⟩ ⟨hfi, e⟩
      simp only at hfi e
      subst e
      refine both_bind (R := fun (x x' : Img S P × Equiv.Perm S) => Rel h h' x.1 x'.1 ∧ x'.2 = x.2) ?_ ?_
      · by_cases h1 : sc ≠ 1
        · rw [if_pos h1, if_pos h1]; exact hc.rescale _ _ _ hfi
        · rw [if_neg h1, if_neg h1]; exact ⟨hfi, rfl⟩
      · rintro ⟨i, t⟩ ⟨i', t'⟩ ⟨hi, e⟩
        simp only at hi e
        subst e
        refine ih _ _ _ _ ?_ ?_ ?_
        · rintro y hy
          injection hy with hy
          subst hy
          exact ⟨_, rfl, rfl, hfi⟩
        · intro hy; cases hy
        · refine ⟨List.rel_append ha.images (List.Forall₂.cons hi .nil), ?_, ?_⟩
          · simp [ha.affine]
          · simp [ha.scale]

theorem inits_rel {h h' : Prop} : ∀ {l l' : List (Img S P)}, List.Forall₂ (Rel h h') l l' →
    (l'.mapM fun i => getLm i "__initial_shape") = l.mapM fun i => getLm i "__initial_shape" := by
  intro l l' H
  induction H with
  | nil => rfl
  | cons hr _ ih => rw [List.mapM_cons, List.mapM_cons, ih, getLm_rel hr (by decide)]

theorem gts_ok : ∀ (l : List (Img S P)), (∀ i ∈ l, (i.lm "__gt_shape").isSome) →
    ∃ x, (l.mapM fun i => getLm i "__gt_shape") = .ok x ∧ x.length = l.length := by
  intro l
  induction l with
  | nil => intro _; exact ⟨[], rfl, rfl⟩
  | cons i l ih =>
    intro h
    obtain ⟨x, hx, hl⟩ := ih fun j hj => h j (by simp [hj])
    obtain ⟨g, hg⟩ := Option.isSome_iff_exists.mp (h i (by simp))
    refine ⟨g :: x, ?_, by simp [hl]⟩
    rw [List.mapM_cons, hx]
    simp [getLm, hg, bind, Except.bind, pure, Except.pure]

/-- The prepared images, twice. -/
structure PreparedRel (h h' : Prop) (p p' : Prepared S P) : Prop where
  images : List.Forall₂ (Rel h h') p.images p'.images
  initials : p'.initialShapes = p.initialShapes
  affine : p'.affine = p.affine
  scale : p'.scale = p.scale
  gts : ∀ g, p.gtShapes = some g → g.length = p.images.length
  gts' : ∀ g, p'.gtShapes = some g → g.length = p'.images.length

theorem forall_left {α β : Type} {R : α → β → Prop} {Q : α → Prop} (hq : ∀ a b, R a b → Q a) :
    ∀ {l : List α} {l' : List β}, List.Forall₂ R l l' → ∀ a ∈ l, Q a := by
  intro l l' H
  induction H with
  | nil => simp
  | cons h _ ih => intro a ha; rcases List.mem_cons.mp ha with rfl | ha; exacts [hq _ _ h, ih a ha]

theorem forall_right {α β : Type} {R : α → β → Prop} {Q : β → Prop} (hq : ∀ a b, R a b → Q b) :
    ∀ {l : List α} {l' : List β}, List.Forall₂ R l l' → ∀ a ∈ l', Q a := by
  intro l l' H
  induction H with
  | nil => simp
  | cons h _ ih => intro a ha; rcases List.mem_cons.mp ha with rfl | ha; exacts [hq _ _ h, ih a ha]

theorem body_rel [DecidableEq F] {ext : Ext S P F} {gt gt' : Option S}
    (hc : Careless ext (gt.isSome = true) (gt'.isSome = true)) {im im' : Img S P}
    (hi : Rel (gt.isSome = true) (gt'.isSome = true) im im') (features : List F) (scales : List Rat) (init : S) :
    BothReturn (PreparedRel (gt.isSome = true) (gt'.isSome = true)) (prepBody ext features scales im init gt)
      (prepBody ext features scales im' init gt') := by
  unfold prepBody
  refine both_bind (hc.toRef _ _ hi) fun tmp tmp' ht => ?_
  refine both_bind (prep_rel hc ht init _ none none _ _ (by simp) (by simp) ⟨.nil, rfl, rfl⟩) fun p p' hp => ?_
  refine both_bind (both_eq (inits_rel hp.images)) ?_
  rintro _ s rfl
  refine both_bind (R := fun (y y' : Option (List S)) => (∀ g, y = some g → g.length = p.images.length) ∧
    ∀ g, y' = some g → g.length = p'.images.length) ?_ fun y y' hy =>
      ⟨hp.images, rfl, hp.affine, hp.scale, hy.1, hy.2⟩
  have hl : gt.isSome = true → _ := fun hg => gts_ok p.images
    (forall_left (fun a b (hr : Rel _ _ a b) => hr.2.1 hg) hp.images)
  have hl' : gt'.isSome = true → _ := fun hg => gts_ok p'.images
    (forall_right (fun a b (hr : Rel _ _ a b) => hr.2.2 hg) hp.images)
  cases gt with
  | none =>
    cases gt' with
    | none => exact ⟨by simp, by simp⟩
    | some g' =>
      obtain ⟨x', hx', he'⟩ := hl' rfl
      simp only [hx']
      exact ⟨by simp, by rintro _ ⟨⟩; exact he'⟩
  | some g =>
    obtain ⟨x, hx, he⟩ := hl rfl
    cases gt' with
    | none =>
      simp only [hx]
      exact ⟨by rintro _ ⟨⟩; exact he, by simp⟩
    | some g' =>
      obtain ⟨x', hx', he'⟩ := hl' rfl
      simp only [hx, hx']
      exact ⟨by rintro _ ⟨⟩; exact he, by rintro _ ⟨⟩; exact he'⟩

theorem attach_rel (im : Img S P) (init : S) (gt gt' : Option S) :
    Rel (gt.isSome = true) (gt'.isSome = true)
      ⟨match gt with
        | some g => attach (attach im.lm "__initial_shape" init) "__gt_shape" g
        | none => attach im.lm "__initial_shape" init, im.px⟩
      ⟨match gt' with
        | some g => attach (attach im.lm "__initial_shape" init) "__gt_shape" g
        | none => attach im.lm "__initial_shape" init, im.px⟩ := by
  refine ⟨⟨rfl, fun g hg => ?_⟩, fun h => ?_, fun h => ?_⟩
  · cases gt <;> cases gt' <;> simp [attach, hg]
  · cases gt with
    | none => cases h
    | some g => simp [attach]
  · cases gt' with
    | none => cases h
    | some g => simp [attach]

theorem prepare_rel [DecidableEq F] {ext : Ext S P F} {gt gt' : Option S}
    (hc : Careless ext (gt.isSome = true) (gt'.isSome = true)) (im : Img S P) (features : List F)
    (scales : List Rat) (init : S) :
    BothReturn (PreparedRel (gt.isSome = true) (gt'.isSome = true))
      (prepareImage ext features scales im init gt).2 (prepareImage ext features scales im init gt').2 := by
  have := body_rel hc (attach_rel im init gt gt') features scales init
  unfold prepareImage
  simp only
  revert this
  generalize prepBody ext features scales ⟨_, im.px⟩ init gt = a
  generalize prepBody ext features scales ⟨_, im.px⟩ init gt' = b
  intro this
  cases a <;> cases b <;> exact this

/-- The data of one scale, twice. -/
structure LevelRel (c c' : Bool) (l l' : Level S P F (Res S V K)) : Prop where
  feature : l'.feature = l.feature
  sc : l'.sc = l.sc
  image : SameUpToTruth l.image l'.image
  affine : l'.affine = l.affine
  scale : l'.scale = l.scale
  iters : l'.iters = l.iters
  alg : SameAlgorithm c c' l.alg l'.alg

theorem levels_rel {h h' : Prop} {c c' : Bool} {A A' : List (Img S P)} (H : List.Forall₂ (Rel h h') A A') :
    ∀ (features : List F) (scales : List Rat) (affine scale : List (Equiv.Perm S)) (G G' : List (Option S))
    (iters : List Int) (algs algs' : List (Algorithm S P (Res S V K))),
    List.Forall₂ (SameAlgorithm c c') algs algs' → min scales.length A.length ≤ G.length →
    min scales.length A.length ≤ G'.length →
    List.Forall₂ (LevelRel c c')
      ((features.zip (scales.zip (A.zip (affine.zip (scale.zip (G.zip (iters.zip algs))))))).map
        fun ⟨f, s, i, a, t, g, n, al⟩ => (⟨f, s, i, a, t, g, n, al⟩ : Level S P F (Res S V K)))
      ((features.zip (scales.zip (A'.zip (affine.zip (scale.zip (G'.zip (iters.zip algs'))))))).map
        fun ⟨f, s, i, a, t, g, n, al⟩ => (⟨f, s, i, a, t, g, n, al⟩ : Level S P F (Res S V K))) := by
  induction H with
  | nil => intros; simp
  | @cons i i' A A' hr _ ih =>
    intro features scales affine scale G G' iters algs algs' ha hG hG'
    rcases features with _ | ⟨f, features⟩
    · simp
    rcases scales with _ | ⟨s, scales⟩
    · simp
    rcases affine with _ | ⟨a, affine⟩
    · simp
    rcases scale with _ | ⟨t, scale⟩
    · simp
    rcases G with _ | ⟨g, G⟩
    · simp at hG
    rcases G' with _ | ⟨g', G'⟩
    · simp at hG'
    rcases iters with _ | ⟨n, iters⟩
    · simp
    rcases ha with _ | ⟨hal, ha⟩
    · simp
    simp only [List.zip_cons_cons, List.map_cons]
    refine List.Forall₂.cons ⟨rfl, rfl, hr.1, rfl, rfl, rfl, hal⟩ (ih _ _ _ _ _ _ _ _ _ ha ?_ ?_)
    · simp at hG; omega
    · simp at hG'; omega

/-- The results of one scale, twice. -/
def ResRel (c c' : Bool) (r r' : Res S V K) : Prop :=
  SameJourney r r' ∧ r.costs.isSome = c ∧ r'.costs.isSome = c'

theorem loop_rel [DecidableEq F] {c c' : Bool} {L L' : List (Level S P F (Res S V K))}
    (H : List.Forall₂ (LevelRel c c') L L') : ∀ s : S,
    BothReturn (List.Forall₂ (ResRel c c')) (fitLoop (fun r : Res S V K => r.final) s L)
      (fitLoop (fun r : Res S V K => r.final) s L') := by
  induction H with
  | nil => intro s; exact List.Forall₂.nil
  | @cons l l' L L' hl hL ih =>
    intro s
    unfold fitLoop
    rw [hl.iters]
    refine both_bind (hl.alg _ _ hl.image s l.gt l'.gt l.iters) fun r r' hr => ?_
    refine both_bind (R := List.Forall₂ (ResRel c c')) ?_ fun rs rs' hrs => List.Forall₂.cons hr hrs
    cases hL with
    | nil => exact List.Forall₂.nil
    | @cons m m' M M' hm hM =>
      have e : carry l' m' r'.final = carry l m r.final := by
        unfold carry
        rw [hl.feature, hm.feature, hl.scale, hl.affine, hm.affine, hm.scale, hl.sc, hm.sc, hr.1.final]
      simp only
      rw [e]
      exact ih _

theorem fitter_rel [DecidableEq F] {ext : Ext S P F} {gt gt' : Option S}
    (hc : Careless ext (gt.isSome = true) (gt'.isSome = true)) (im : Img S P) (features : List F)
    (scales : List Rat) (init : S) {c c' : Bool} {algs algs' : List (Algorithm S P (Res S V K))}
    (ha : List.Forall₂ (SameAlgorithm c c') algs algs') (mi : Checks.MaxIters) :
    BothReturn (fun x x' => PreparedRel (gt.isSome = true) (gt'.isSome = true) x.1 x'.1 ∧
        List.Forall₂ (ResRel c c') x.2 x'.2)
      (Fitter.fitFromShape ext (fun r => r.final) features scales algs im init mi gt).2
      (Fitter.fitFromShape ext (fun r => r.final) features scales algs' im init mi gt').2 := by
  unfold Fitter.fitFromShape
  simp only
  refine both_bind (prepare_rel hc im features scales init) fun p p' hp => ?_
  refine both_bind (both_eq rfl) ?_
  rintro _ iters rfl
  rw [hp.initials]
  refine both_bind (both_eq rfl) ?_
  rintro _ s0 rfl
  refine both_bind (loop_rel (c := c) (c' := c') ?_ s0) fun rs rs' hr => ⟨hp, hr⟩
  unfold mkLevels
  simp only
  rw [hp.affine, hp.scale]
  refine levels_rel hp.images _ _ _ _ _ _ _ _ _ ha ?_ ?_
  · cases hg : p.gtShapes with
    | none => simp
    | some g => simp [hp.gts g hg]
  · have hl := hp.images.length_eq
    cases hg : p'.gtShapes with
    | none => simp
    | some g => simp [hp.gts' g hg, hl]

/-! ### Results -/

theorem concatShapes_rel {c c' : Bool} {rs rs' : List (Res S V K)} (H : List.Forall₂ (ResRel c c') rs rs') :
    ∀ a t : List (S → S), concatShapes rs' a t = concatShapes rs a t := by
  induction H with
  | nil => intro a t; rfl
  | cons hr _ ih =>
    intro a t
    cases a with
    | nil => rfl
    | cons a as =>
      cases t with
      | nil => rfl
      | cons t ts => unfold concatShapes; rw [ih, hr.1.initial, hr.1.shapes]

theorem concatOpt_some {α : Type} : ∀ l : List (Option (List α)), (∀ x ∈ l, x.isSome) → ∃ y, concatOpt l = .ok y := by
  intro l
  induction l with
  | nil => intro _; exact ⟨[], rfl⟩
  | cons x l ih =>
    intro h
    obtain ⟨y, hy⟩ := ih fun z hz => h z (by simp [hz])
    obtain ⟨w, hw⟩ := Option.isSome_iff_exists.mp (h x (by simp))
    subst hw
    exact ⟨w ++ y, by simp [concatOpt, hy, bind, Except.bind, pure, Except.pure]⟩

theorem concatCosts_ok {α : Type} {c : Bool} {f : Option (List α)} {l : List (Option (List α))}
    (hf : f.isSome = c) (hl : ∀ x ∈ l, x.isSome = c) : ∃ y, concatCosts f l = .ok y ∧ y.isSome = c := by
  cases c with
  | false =>
    cases f with
    | none => exact ⟨none, rfl, rfl⟩
    | some _ => cases hf
  | true =>
    obtain ⟨w, rfl⟩ := Option.isSome_iff_exists.mp hf
    obtain ⟨y, hy⟩ := concatOpt_some l hl
    exact ⟨some y, by simp [concatCosts, hy, Except.map], rfl⟩

theorem nonParam_rel (shapes : List S) (initial gt gt' : Option S) (costs : Option (List K)) :
    BothReturn (fun r r' => SameJourney r r' ∧ r.gt = gt ∧ r'.gt = gt')
      (nonParam shapes initial gt costs : Except PyErr (Res S V K)) (nonParam shapes initial gt' costs) := by
  unfold nonParam
  cases shapes.getLast? with
  | none => rfl
  | some f => exact ⟨⟨rfl, rfl, rfl, rfl, rfl, rfl, rfl⟩, rfl, rfl⟩

theorem multi_rel {c c' : Bool} {rs rs' : List (Res S V K)} (H : List.Forall₂ (ResRel c c') rs rs') (n : Nat)
    (a t : List (S → S)) (gt gt' : Option S) :
    BothReturn (fun r r' => SameJourney r r' ∧ (r.gt = gt ∧ r'.gt = gt') ∧ r.costs.isSome = c ∧ r'.costs.isSome = c')
      (multiNonParam rs n a t gt) (multiNonParam rs' n a t gt') := by
  unfold multiNonParam
  rw [← H.length_eq]
  by_cases hn : rs.length ≠ n
  · rw [if_pos hn, if_pos hn]; rfl
  rw [if_neg hn, if_neg hn]
  have hcs := concatShapes_rel H a t
  have hleft : ∀ x ∈ rs.map (·.costs), x.isSome = c := by
    intro x hx
    obtain ⟨r, hr, rfl⟩ := List.mem_map.mp hx
    exact forall_left (Q := fun r : Res S V K => r.costs.isSome = c) (fun _ _ h => h.2.1) H r hr
  have hright : ∀ x ∈ rs'.map (·.costs), x.isSome = c' := by
    intro x hx
    obtain ⟨r, hr, rfl⟩ := List.mem_map.mp hx
    exact forall_right (Q := fun r : Res S V K => r.costs.isSome = c') (fun _ _ h => h.2.2) H r hr
  have hper : rs'.map (·.nIters) = rs.map (·.nIters) := by
    clear hcs hleft hright hn
    induction H with
    | nil => rfl
    | cons h _ ih => simp [ih, h.1.nIters]
  cases H with
  | nil => rfl
  | @cons r0 r0' rs rs' hr H =>
    simp only
    rw [hr.1.initial, hcs]
    refine both_bind (both_eq rfl) ?_
    rintro _ i rfl
    refine both_bind (both_eq rfl) ?_
    rintro _ shapes rfl
    refine both_bind (nonParam_rel shapes i gt gt' none) fun r r' hrr => ?_
    obtain ⟨y, hy, hyc⟩ := concatCosts_ok hr.2.1 hleft
    obtain ⟨y', hy', hyc'⟩ := concatCosts_ok hr.2.2 hright
    rw [hy, hy', hper]
    exact ⟨⟨hrr.1.final, hrr.1.initial, hrr.1.shapes, hrr.1.nIters, hrr.1.params, rfl, rfl⟩, hrr.2, hyc, hyc'⟩

theorem multiParam_rel {c c' : Bool} {rs rs' : List (Res S V K)} (H : List.Forall₂ (ResRel c c') rs rs') (n : Nat)
    (a t : List (S → S)) (gt gt' : Option S) :
    BothReturn (fun r r' => SameJourney r r' ∧ (r.gt = gt ∧ r'.gt = gt') ∧ r.costs.isSome = c ∧ r'.costs.isSome = c')
      (multiParam rs n a t gt) (multiParam rs' n a t gt') := by
  unfold multiParam
  refine both_bind (multi_rel H n a t gt gt') fun r r' hr => ?_
  have hp : rs'.map (·.params) = rs.map (·.params) := by
    clear hr
    induction H with
    | nil => rfl
    | cons h _ ih => simp [ih, h.1.params]
  rw [hp]
  refine both_bind (both_eq rfl) ?_
  rintro _ ps rfl
  exact ⟨⟨hr.1.final, hr.1.initial, hr.1.shapes, by simp [hr.1.nIters], rfl, hr.1.perScale, hr.1.nScales⟩, hr.2⟩

/-! ### Pictures of the plane -/

variable {N : Nat} {C : Type}

theorem plane_careless (fe : Features F C) (reference : Pts N 2) (h h' : Prop) :
    Careless (Plane.ext fe reference) h h' := by
  have hmap : ∀ (im im' : Pic N C) (T : Pts N 2 → Pts N 2) (px px' : P 2 → C), px' = px → Rel h h' im im' →
      Rel h h' (⟨fun g => (im.lm g).map T, px⟩ : Pic N C) ⟨fun g => (im'.lm g).map T, px'⟩ := by
    intro im im' T px px' hp hr
    refine ⟨⟨hp, fun g hg => ?_⟩, fun x => ?_, fun x => ?_⟩
    · simp only; rw [hr.1.landmarks g hg]
    · simpa using hr.2.1 x
    · simpa using hr.2.2 x
  refine ⟨fun im im' hr => ?_, fun f im im' hr => ?_, fun im im' c hr => ?_⟩
  · simp only [Plane.ext]
    refine both_bind (both_eq (getLm_rel hr (by decide))) ?_
    rintro _ s rfl
    by_cases hk : 0 < Plane.norm reference / Plane.norm s
    · rw [if_pos hk, if_pos hk]
      exact hmap im im' _ _ _ (by rw [hr.1.pixels]) hr
    · rw [if_neg hk, if_neg hk]; rfl
  · simp only [Plane.ext]
    rw [hr.1.pixels]
    refine both_bind (both_eq rfl) ?_
    rintro _ px rfl
    exact hmap im im' _ _ _ rfl hr
  · simp only [Plane.ext]
    by_cases hk : 0 < (c : ℝ)
    · rw [dif_pos hk, dif_pos hk]
      exact ⟨hmap im im' _ _ _ (by rw [hr.1.pixels]) hr, rfl⟩
    · rw [dif_neg hk, dif_neg hk]; rfl

/-! ### The loop of the optimisers -/

variable {σ E : Type} [LinearOrder E]

theorem optim_rel (m : Optim.Machine σ S V K E) (lk : Bool) (maxIters : Int) (tol : E) : ∀ (n : Nat) (k : Int)
    (eps : Option E) (s : σ) (tr tr' : Optim.Trace S V K), (maxIters - k).toNat = n → SameTrace tr tr' →
    (Optim.loop m lk maxIters tol k eps s tr').1 = (Optim.loop m lk maxIters tol k eps s tr).1 ∧
    BothReturn (fun x x' => SameTrace x x' ∧ x.costs.isSome = tr.costs.isSome ∧ x'.costs.isSome = tr'.costs.isSome)
      (Optim.loop m lk maxIters tol k eps s tr).2 (Optim.loop m lk maxIters tol k eps s tr').2 := by
  intro n
  induction n with
  | zero =>
    intro k eps s tr tr' hn h
    rw [loop_unfold m lk maxIters tol k eps s tr, loop_unfold m lk maxIters tol k eps s tr', if_neg (by omega),
      if_neg (by omega)]
    exact ⟨rfl, h, rfl, rfl⟩
  | succ n ih =>
    intro k eps s tr tr' hn h
    rw [loop_unfold m lk maxIters tol k eps s tr, loop_unfold m lk maxIters tol k eps s tr']
    by_cases hc : k < maxIters ∧ Optim.goOn tol eps
    · rw [if_pos hc, if_pos hc]
      rcases m.step s with ⟨s', e | x⟩
      · exact ⟨rfl, rfl⟩
      · have := ih (k + 1) (some x) s' ⟨tr.shapes ++ [m.shape s'], tr.params ++ [m.params s'],
            tr.costs.map (· ++ [if lk then m.cost s else m.cost s'])⟩
          ⟨tr'.shapes ++ [m.shape s'], tr'.params ++ [m.params s'],
            tr'.costs.map (· ++ [if lk then m.cost s else m.cost s'])⟩ (by omega)
          ⟨by simp [h.shapes], by simp [h.params]⟩
        simpa using this
    · rw [if_neg hc, if_neg hc]
      exact ⟨rfl, h, rfl, rfl⟩

end Bystander
end Menpofit
