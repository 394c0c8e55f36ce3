import Verif.Lemmas.Plane
import Verif.Spec.Resolution
/-!
# Lemmas: results of whole fits of pictures of the plane
-/

namespace Menpofit
namespace Plane
open MI Warp Fitter Matrix Spec Result

variable {N : Nat} {C F V K : Type} {fe : Features F C} {m m' k : ℝ} {t : Fin 2 → ℝ}

theorem zip_again {α β γ δ : Type} (g : α → γ) (h : α × β → δ) : ∀ (L : List α) (Z : List β),
    (L.map g).zip ((L.zip Z).map h) = (L.zip Z).map fun x => (g x.1, h x) := by
  intro L
  induction L with
  | nil => intro Z; simp
  | cons a L ih =>
    intro Z
    cases Z with
    | nil => simp
    | cons b Z => simp [ih]

theorem fst_zip_prefix {α β : Type} : ∀ (L : List α) (Z : List β), ∃ R, L = (L.zip Z).map Prod.fst ++ R := by
  intro L
  induction L with
  | nil => intro Z; exact ⟨[], by simp⟩
  | cons a L ih =>
    intro Z
    cases Z with
    | nil => exact ⟨a :: L, by simp⟩
    | cons b Z =>
      obtain ⟨R, h⟩ := ih Z
      refine ⟨R, ?_⟩
      simp only [List.zip_cons_cons, List.map_cons, List.cons_append]
      rw [← h]

theorem zip_thrice {α β γ : Type} : ∀ (A : List α) (B : List β) (D : List γ),
    A.zip (B.zip D) = ((A.zip B).zip D).map fun x => (x.1.1, x.1.2, x.2) := by
  intro A
  induction A with
  | nil => intro B D; simp
  | cons a A ih =>
    intro B D
    cases B with
    | nil => simp
    | cons b B =>
      cases D with
      | nil => simp
      | cons d D => simp [ih]

/-- The ground truths of the scales as the loop indexes them. -/
def gtList {S : Type} (scales : List Rat) : Option (List S) → List (Option S)
  | some l => l.map some
  | none => List.replicate scales.length none

theorem mkLevels_eq {S P R X : Type} (ff : X → F × Rat) (im : X → Img S P) (a s : X → Equiv.Perm S) (L : List X)
    {features : List F} {scales : List Rat} (hfs : L.map ff = features.zip scales) (gts : Option (List S))
    (iters : List Int) (algs : List (Algorithm S P R)) :
    mkLevels features scales (L.map im) (L.map a) (L.map s) gts iters algs =
      (L.zip ((gtList scales gts).zip (iters.zip algs))).map
        fun x => ⟨(ff x.1).1, (ff x.1).2, im x.1, a x.1, s x.1, x.2.1, x.2.2.1, x.2.2.2⟩ := by
  unfold mkLevels
  cases gts <;>
    (simp only
     rw [zip_thrice, ← hfs, List.zip_map_left (f := s)]
     rw [zip_again, zip_again, zip_again, List.map_map, List.map_map]
     rfl)

theorem gt_zip {X Y : Type} (mv : X → Y → Y) : ∀ (L : List X) (v : List Y) {Z : Type} (z : List Z),
    L.zip (((List.zipWith mv L v).map some).zip z) =
      (L.zip ((v.map some).zip z)).map fun x => (x.1, x.2.1.map (mv x.1), x.2.2) := by
  intro L
  induction L with
  | nil => intro v Z z; simp
  | cons l L ih =>
    intro v Z z
    cases v with
    | nil => simp
    | cons y v =>
      cases z with
      | nil => simp
      | cons w z => simp only [List.zipWith_cons_cons, List.map_cons, List.zip_cons_cons, ih, Option.map_some]

theorem gt_none {X Y : Type} (mv : X → Y → Y) : ∀ (L : List X) (n : Nat) {Z : Type} (z : List Z),
    L.zip ((List.replicate n (none : Option Y)).zip z) =
      (L.zip ((List.replicate n none).zip z)).map fun x => (x.1, x.2.1.map (mv x.1), x.2.2) := by
  intro L
  induction L with
  | nil => intro n Z z; simp
  | cons l L ih =>
    intro n Z z
    cases n with
    | zero => simp
    | succ n =>
      cases z with
      | nil => simp
      | cons w z =>
        simp only [List.replicate_succ, List.zip_cons_cons, List.map_cons, Option.map_none]
        rw [← ih n z]

/-! ### Results -/

theorem nonParam_sim (T : Pts N 2 → Pts N 2) (shapes : List (Pts N 2)) (initial gt : Option (Pts N 2))
    (costs : Option (List K)) :
    BothReturn (SameFitUnder T) (nonParam shapes initial gt costs : Except PyErr (Res (Pts N 2) V K))
      (nonParam (shapes.map T) (initial.map T) (gt.map T) costs) := by
  unfold nonParam
  rw [List.getLast?_map]
  cases shapes.getLast? with
  | none => rfl
  | some f =>
    refine ⟨rfl, rfl, rfl, ?_, ?_, rfl, rfl, rfl, rfl⟩
    · cases initial <;> simp
    · simp

theorem param_sim (T : Pts N 2 → Pts N 2) (shapes : List (Pts N 2)) (ps ps' : List V)
    (hp : ps'.length = ps.length) (initial gt : Option (Pts N 2)) (costs : Option (List K)) :
    BothReturn (SameFitUnder T) (param shapes ps initial gt costs : Except PyErr (Res (Pts N 2) V K))
      (param (shapes.map T) ps' (initial.map T) (gt.map T) costs) := by
  unfold param
  refine both_bind (nonParam_sim T shapes initial gt costs) ?_
  intro r r' h
  exact ⟨h.final, h.initial, h.gt, h.shapes, by simp [h.nIters], h.costs, h.perScale, h.nScales, by simp [hp]⟩

abbrev Trip (N : Nat) (C F V K : Type) := Lev N C F × Res (Pts N 2) V K × Res (Pts N 2) V K

theorem rescale_sim (hm : m = k * m') {l : Lev N C F} (hl : LevOk fe m m' t l) (xs : List (Pts N 2)) :
    rescale (xs.map (movedShape (lvec fe m' t l))) l.a' l.s = (rescale xs l.a l.s).map (zoomedShape k t) := by
  unfold rescale
  rw [List.map_map, List.map_map]
  apply List.map_congr_left
  intro y _
  exact toImage_sim hm hl y

theorem concat_sim (hm : m = k * m') : ∀ (W : List (Trip N C F V K)) (R : List (Lev N C F)),
    (∀ w ∈ W, LevOk fe m m' t w.1) → (∀ w ∈ W, SameFitUnder (movedShape (lvec fe m' t w.1)) w.2.1 w.2.2) →
    BothReturn (fun x x' => x' = x.map (zoomedShape k t))
      (concatShapes (W.map (·.2.1)) (((W.map (·.1)) ++ R).map fun l => (l.a : Pts N 2 → Pts N 2))
        (((W.map (·.1)) ++ R).map fun l => (l.s : Pts N 2 → Pts N 2)))
      (concatShapes (W.map (·.2.2)) (((W.map (·.1)) ++ R).map fun l => (l.a' : Pts N 2 → Pts N 2))
        (((W.map (·.1)) ++ R).map fun l => (l.s : Pts N 2 → Pts N 2))) := by
  intro W
  induction W with
  | nil => intro R _ _; simp [concatShapes, BothReturn]
  | cons w W ih =>
    intro R hL hW
    simp only [List.map_cons, List.cons_append, concatShapes]
    refine both_bind (ih R (fun x hx => hL x (by simp [hx])) fun x hx => hW x (by simp [hx])) ?_
    rintro x x' rfl
    have h := hW w (by simp)
    have hl := hL w (by simp)
    simp only [pure, Except.pure, BothReturn, h.initial, Option.isNone_map, h.shapes, ← List.map_tail,
      rescale_sim hm hl, List.map_append]
    split <;> rfl

theorem multiNon_sim (hm : m = k * m') (W : List (Trip N C F V K)) (R : List (Lev N C F)) (n : Nat)
    (gt : Option (Pts N 2))
    (hL : ∀ w ∈ W, LevOk fe m m' t w.1)
    (hW : ∀ w ∈ W, SameFitUnder (movedShape (lvec fe m' t w.1)) w.2.1 w.2.2) :
    BothReturn (SameFitUnder (zoomedShape k t))
      (multiNonParam (W.map (·.2.1)) n (((W.map (·.1)) ++ R).map fun l => (l.a : Pts N 2 → Pts N 2))
        (((W.map (·.1)) ++ R).map fun l => (l.s : Pts N 2 → Pts N 2)) gt)
      (multiNonParam (W.map (·.2.2)) n (((W.map (·.1)) ++ R).map fun l => (l.a' : Pts N 2 → Pts N 2))
        (((W.map (·.1)) ++ R).map fun l => (l.s : Pts N 2 → Pts N 2)) (gt.map (zoomedShape k t))) := by
  unfold multiNonParam
  simp only [List.length_map]
  by_cases hn : W.length ≠ n
  · rw [if_pos hn, if_pos hn]; rfl
  · rw [if_neg hn, if_neg hn]
    have hcosts : (W.map (·.2.2)).map (·.costs) = (W.map (·.2.1)).map (·.costs) := by
      rw [List.map_map, List.map_map]
      exact List.map_congr_left fun w hw => (hW w hw).costs
    have hiters : (W.map (·.2.2)).map (·.nIters) = (W.map (·.2.1)).map (·.nIters) := by
      rw [List.map_map, List.map_map]
      exact List.map_congr_left fun w hw => (hW w hw).nIters
    have hcon := concat_sim hm W R hL hW
    cases W with
    | nil => rfl
    | cons w W =>
      have h := hW w (by simp)
      have hl := hL w (by simp)
      simp only [List.map_cons, List.cons_append] at hcosts hiters hcon ⊢
      refine both_bind (R := fun x x' => x' = x.map (zoomedShape k t)) ?_ ?_
      · rw [h.initial]
        cases w.2.1.initial with
        | none => rfl
        | some s =>
          simp only [firstInitial, Option.map_some, BothReturn]
          rw [toImage_sim hm hl]
      · rintro i i' rfl
        refine both_bind hcon ?_
        rintro x x' rfl
        refine both_bind (nonParam_sim (V := V) (K := K) (zoomedShape k t) x i gt none) ?_
        intro r r' hr
        rw [hcosts, h.costs, hiters]
        refine both_bind (both_refl (R := Eq) (fun _ => rfl) _) ?_
        rintro c c' rfl
        exact ⟨hr.final, hr.initial, hr.gt, hr.shapes, hr.nIters, rfl, rfl, rfl, hr.params⟩

theorem concatOpt_sim : ∀ (A B : List (Option (List V))), B.map (Option.map List.length) = A.map (Option.map List.length) →
    BothReturn (fun x x' => x'.length = x.length) (concatOpt A) (concatOpt B) := by
  intro A
  induction A with
  | nil => intro B h; simp at h; subst h; exact rfl
  | cons a A ih =>
    intro B h
    cases B with
    | nil => simp at h
    | cons b B =>
      simp only [List.map_cons, List.cons.injEq] at h
      cases a with
      | none =>
        cases b with
        | some b => simp at h
        | none => rfl
      | some a =>
        cases b with
        | none => simp at h
        | some b =>
          simp only [concatOpt]
          refine both_bind (ih B h.2) ?_
          intro x x' hx
          simp only [pure, Except.pure, BothReturn, List.length_append, hx]
          simp at h
          omega

theorem multiParam_sim (hm : m = k * m') (W : List (Trip N C F V K)) (R : List (Lev N C F)) (n : Nat)
    (gt : Option (Pts N 2))
    (hL : ∀ w ∈ W, LevOk fe m m' t w.1)
    (hW : ∀ w ∈ W, SameFitUnder (movedShape (lvec fe m' t w.1)) w.2.1 w.2.2) :
    BothReturn (SameFitUnder (zoomedShape k t))
      (multiParam (W.map (·.2.1)) n (((W.map (·.1)) ++ R).map fun l => (l.a : Pts N 2 → Pts N 2))
        (((W.map (·.1)) ++ R).map fun l => (l.s : Pts N 2 → Pts N 2)) gt)
      (multiParam (W.map (·.2.2)) n (((W.map (·.1)) ++ R).map fun l => (l.a' : Pts N 2 → Pts N 2))
        (((W.map (·.1)) ++ R).map fun l => (l.s : Pts N 2 → Pts N 2)) (gt.map (zoomedShape k t))) := by
  unfold multiParam
  refine both_bind (multiNon_sim hm W R n gt hL hW) ?_
  intro r r' hr
  have hc := concatOpt_sim ((W.map (·.2.1)).map (·.params)) ((W.map (·.2.2)).map (·.params)) (by
    simp only [List.map_map]
    exact List.map_congr_left fun w hw => (hW w hw).params)
  refine both_bind (R := fun x x' => x'.length = x.length) ?_ ?_
  · cases h1 : concatOpt ((W.map (·.2.1)).map (·.params)) with
    | error e =>
      cases h2 : concatOpt ((W.map (·.2.2)).map (·.params)) with
      | error e' => rfl
      | ok y => rw [h1, h2] at hc; exact hc.elim
    | ok x =>
      cases h2 : concatOpt ((W.map (·.2.2)).map (·.params)) with
      | error e' => rw [h1, h2] at hc; exact hc.elim
      | ok y => rw [h1, h2] at hc; exact hc
  · intro x x' hx
    exact ⟨hr.final, hr.initial, hr.gt, hr.shapes, by simp [hr.nIters], hr.costs, hr.perScale, hr.nScales, by simp [hx]⟩

/-! ### The whole fit -/

theorem prepare_body {S P : Type} [DecidableEq F] (ext : Ext S P F) (features : List F) (scales : List Rat)
    (i : Img S P) (s : S) (g : Option S) : (prepareImage ext features scales i s g).2 =
      prepBody ext features scales (carrying i s g) s g := by
  cases g with
  | none =>
    have e : (⟨attach i.lm "__initial_shape" s, i.px⟩ : Img S P) = carrying i s none := by
      simp only [carrying, Img.mk.injEq, and_true]
      funext x
      simp [attach]
    simp only [prepareImage]
    rw [e]
    cases prepBody ext features scales (carrying i s none) s none <;> rfl
  | some g =>
    have e : (⟨attach (attach i.lm "__initial_shape" s) "__gt_shape" g, i.px⟩ : Img S P) =
        carrying i s (some g) := by
      simp only [carrying, Img.mk.injEq, and_true]
      funext x
      simp [attach]
    simp only [prepareImage]
    rw [e]
    cases prepBody ext features scales (carrying i s (some g)) s (some g) <;> rfl

theorem carrying_zoomed {im im' : Pic N C} (h : ZoomedImage k t im im') (init : Pts N 2) (gt : Option (Pts N 2)) :
    ZoomedImage k t (carrying im init gt) (carrying im' (zoomedShape k t init) (gt.map (zoomedShape k t))) := by
  refine ⟨h.pixels, fun g => ?_⟩
  simp only [carrying, Option.isSome_map, h.landmarks]
  split
  · rfl
  · split
    · rfl
    · rfl

theorem fit_sim [DecidableEq F] (hk : 0 < k) (hf : FeaturesFollow fe.op fe.step)
    (hs : ∀ f, fe.step f ≠ 0) (reference : Pts N 2) (parametric : Bool) {features : List F}
    (hr : RepeatsOnlyFirst features) (scales : List Rat)
    (algs : List (Algorithm (Pts N 2) (P 2 → C) (Res (Pts N 2) V K))) (ha : ∀ a ∈ algs, FollowsFace a)
    {im im' : Pic N C} (hz : ZoomedImage k t im im') (init : Pts N 2) (maxIters : Checks.MaxIters)
    (gt : Option (Pts N 2)) :
    BothReturn (SameFitUnder (zoomedShape k t))
      (fitFromShape fe reference parametric features scales algs im init maxIters gt)
      (fitFromShape fe reference parametric features scales algs im' (zoomedShape k t init) maxIters
        (gt.map (zoomedShape k t))) := by
  unfold fitFromShape
  refine both_bind (R := fun r r' => ∃ (m m' : ℝ) (W : List (Trip N C F V K)) (R : List (Lev N C F)), m = k * m' ∧
    (∀ w ∈ W, LevOk fe m m' t w.1) ∧ (∀ w ∈ W, SameFitUnder (movedShape (lvec fe m' t w.1)) w.2.1 w.2.2) ∧
    r.2 = W.map (·.2.1) ∧ r'.2 = W.map (·.2.2) ∧
    r.1.affine = (W.map (·.1) ++ R).map (·.a) ∧ r.1.scale = (W.map (·.1) ++ R).map (·.s) ∧
    r'.1.affine = (W.map (·.1) ++ R).map (·.a') ∧ r'.1.scale = (W.map (·.1) ++ R).map (·.s)) ?_ ?_
  · unfold Fitter.fitFromShape
    simp only [prepare_body]
    refine both_bind (prepBody_sim hk hf hs reference init hr scales (carrying_zoomed hz init gt) ?_ gt
      (gt.map (zoomedShape k t)) (by simp)) ?_
    · simp [carrying]
    · rintro p p' ⟨m, m', L, hm, hm0, hL, hfs, i1, i2, i3, i4, i5, i6, ⟨hin, hin'⟩, hgt⟩
      refine both_bind (both_refl (R := Eq) (fun _ => rfl) _) ?_
      rintro iters iters' rfl
      refine both_bind (R := fun s s' => ∃ l L', L = l :: L' ∧ s' = movedShape (lvec fe m' t l) s) ?_ ?_
      · rw [hin']
        cases L with
        | nil =>
          have : p.initialShapes = [] := List.length_eq_zero_iff.1 (by simpa using hin)
          rw [this]; rfl
        | cons l L' =>
          cases hp : p.initialShapes with
          | nil => rw [hp] at hin; simp at hin
          | cons s ss => exact ⟨l, L', rfl, rfl⟩
      · rintro s s' ⟨l, L', hl, rfl⟩
        -- the levels of the two fits
        obtain ⟨G, hG⟩ : ∃ G : List (Option (Pts N 2)), G = gtList scales p.gtShapes := ⟨_, rfl⟩
        have hQ : mkLevels features scales p.images p.affine p.scale p.gtShapes iters algs =
            ((L.zip (G.zip (iters.zip algs))).map fun x => (⟨x.1, x.2.1, x.2.2.1, x.2.2.2⟩ : Lvl N C F V K)).map
              Lvl.here := by
          rw [i1, i2, i3, mkLevels_eq (fun l => (l.f, l.sc)) _ _ _ L hfs, List.map_map, hG]
          rfl
        have hQ' : mkLevels features scales p'.images p'.affine p'.scale p'.gtShapes iters algs =
            ((L.zip (G.zip (iters.zip algs))).map fun x => (⟨x.1, x.2.1, x.2.2.1, x.2.2.2⟩ : Lvl N C F V K)).map
              (Lvl.there fe m' t) := by
          rw [i4, i5, i6, mkLevels_eq (fun l => (l.f, l.sc)) _ _ _ L hfs, List.map_map]
          have hzip : L.zip ((gtList scales p'.gtShapes).zip (iters.zip algs)) =
              (L.zip (G.zip (iters.zip algs))).map fun x => (x.1, x.2.1.map (movedShape (lvec fe m' t x.1)), x.2.2) := by
            rcases hgt with ⟨-, g1, g2⟩ | ⟨v, -, g1, g2⟩
            · rw [hG, g1, g2]
              exact gt_none (fun l => movedShape (lvec fe m' t l)) L _ _
            · rw [hG, g1, g2]
              exact gt_zip (fun l => movedShape (lvec fe m' t l)) L v _
          rw [hzip, List.map_map]
          rfl
        rw [hQ, hQ']
        obtain ⟨Q, hQd⟩ : ∃ Q, Q = (L.zip (G.zip (iters.zip algs))).map fun x =>
            (⟨x.1, x.2.1, x.2.2.1, x.2.2.2⟩ : Lvl N C F V K) := ⟨_, rfl⟩
        rw [← hQd]
        have hpre : ∃ R, L = Q.map (·.lev) ++ R := by
          have : Q.map (·.lev) = (L.zip (G.zip (iters.zip algs))).map Prod.fst := by
            rw [hQd, List.map_map]; rfl
          rw [this]
          exact fst_zip_prefix _ _
        have hmem : ∀ q ∈ Q, q.lev ∈ L ∧ q.alg ∈ algs := by
          intro q hq
          rw [hQd] at hq
          obtain ⟨⟨a, b, c, d⟩, hx, rfl⟩ := List.mem_map.1 hq
          have h1 := List.of_mem_zip hx
          exact ⟨h1.1, (List.of_mem_zip (List.of_mem_zip h1.2).2).2⟩
        obtain ⟨R, hR⟩ := hpre
        have sim := fitLoop_sim (fe := fe) (t := t) hm Q s (fun q hq => hL _ (hmem q hq).1)
          (fun q hq => ha _ (hmem q hq).2)
        have hstart : Q = [] ∨ startOf fe m' t Q s = movedShape (lvec fe m' t l) s := by
          cases Q with
          | nil => left; rfl
          | cons q Q =>
            right
            rw [hl] at hR
            simp only [List.map_cons, List.cons_append, List.cons.injEq] at hR
            rw [hR.1]; rfl
        have fin : ∀ rs rs', (∃ W : List (Trip N C F V K),
            W.map (·.1) = Q.map (·.lev) ∧ rs = W.map (·.2.1) ∧ rs' = W.map (·.2.2) ∧
            ∀ w ∈ W, SameFitUnder (movedShape (lvec fe m' t w.1)) w.2.1 w.2.2) →
            ∃ (m m' : ℝ) (W : List (Trip N C F V K)) (R : List (Lev N C F)), m = k * m' ∧
            (∀ w ∈ W, LevOk fe m m' t w.1) ∧
            (∀ w ∈ W, SameFitUnder (movedShape (lvec fe m' t w.1)) w.2.1 w.2.2) ∧
            rs = W.map (·.2.1) ∧ rs' = W.map (·.2.2) ∧
            p.affine = (W.map (·.1) ++ R).map (·.a) ∧ p.scale = (W.map (·.1) ++ R).map (·.s) ∧
            p'.affine = (W.map (·.1) ++ R).map (·.a') ∧ p'.scale = (W.map (·.1) ++ R).map (·.s) := by
          rintro rs rs' ⟨W, h1, h2, h3, h4⟩
          refine ⟨m, m', W, R, hm, ?_, h4, h2, h3, ?_, ?_, ?_, ?_⟩
          · intro w hw
            apply hL
            rw [hR, ← h1]
            exact List.mem_append_left _ (List.mem_map_of_mem hw)
          · rw [h1, ← hR, i2]
          · rw [h1, ← hR, i3]
          · rw [h1, ← hR, i5]
          · rw [h1, ← hR, i6]
        rcases hstart with hQe | hQe
        · rw [hQe]
          simp only [List.map_nil, fitLoop, bind, Except.bind, pure, Except.pure, BothReturn]
          exact fin [] [] ⟨[], by rw [hQe]; rfl, rfl, rfl, by simp⟩
        · rw [hQe] at sim
          refine both_bind sim ?_
          intro rs rs' h
          exact fin rs rs' h
  · rintro ⟨p, rs⟩ ⟨p', rs'⟩ ⟨m, m', W, R, hm, hL, hW, e1, e2, e3, e4, e5, e6⟩
    simp only at e1 e2 e3 e4 e5 e6
    simp only [e1, e2, e3, e4, e5, e6, List.map_map]
    cases parametric with
    | true => exact multiParam_sim hm W R scales.length gt hL hW
    | false => exact multiNon_sim hm W R scales.length gt hL hW

/-! ### Bounding boxes -/

theorem align_bb_sim (hk : 0 < k) (t : Fin 2 → ℝ) (reference : Pts N 2) (bb : Pts 4 2) :
    BothReturn (fun s s' => s' = zoomedShape k t s) (Noise.alignShapeWithBoundingBox reference bb)
      (Noise.alignShapeWithBoundingBox reference (zoomedShape k t bb)) := by
  unfold Noise.alignShapeWithBoundingBox
  refine both_bind (both_refl (R := Eq) (fun _ => rfl) _) ?_
  rintro sb sb' rfl
  have hc : centred (zoomedShape k t bb) = k • centred bb := by
    funext ij
    simp only [centred, centroid, zoomedShape, Finset.sum_add_distrib, ← Finset.mul_sum, Finset.sum_const,
      Finset.card_univ, Fintype.card_fin, nsmul_eq_mul, Pi.smul_apply, smul_eq_mul]
    field_simp
    ring
  have hcen : ∀ j, centroid (zoomedShape k t bb) j = k * centroid bb j + t j := by
    intro j
    simp only [centroid, zoomedShape, Finset.sum_add_distrib, ← Finset.mul_sum, Finset.sum_const,
      Finset.card_univ, Fintype.card_fin, nsmul_eq_mul]
    field_simp
  have hsim : procrustes sb (zoomedShape k t bb) = ⟨k * (procrustes sb bb).a, k * (procrustes sb bb).b,
      k * (procrustes sb bb).tx + t 0, k * (procrustes sb bb).ty + t 1⟩ := by
    have h1 : ∀ x y : ℝ, Real.sqrt ((k * x) ^ 2 + (k * y) ^ 2) = k * Real.sqrt (x ^ 2 + y ^ 2) := by
      intro x y
      rw [show (k * x) ^ 2 + (k * y) ^ 2 = k * k * (x ^ 2 + y ^ 2) by ring, Real.sqrt_mul (by positivity),
        Real.sqrt_mul_self hk.le]
    have h2 : ∀ x : ℝ, Real.sqrt (k * (k * x)) = k * Real.sqrt x := by
      intro x
      rw [← mul_assoc, Real.sqrt_mul (by positivity), Real.sqrt_mul_self hk.le]
    simp only [procrustes, hc, hcen, smul_dotProduct, dotProduct_smul, smul_eq_mul, h1, h2,
      mul_div_mul_left _ _ hk.ne', Sim.mk.injEq]
    refine ⟨by ring, by ring, by ring, by ring⟩
  simp only [pure, Except.pure, BothReturn, Noise.alignSim, if_true]
  rw [hsim]
  funext ⟨i, j⟩
  match j with
  | 0 => simp [Sim.apply, zoomedShape]; ring
  | 1 => simp [Sim.apply, zoomedShape]; ring

/-! ### Examples used beside the theorems -/

theorem fresh_ok (fe : Features F C) (reference init : Pts N 2) {m : ℝ} (hm : m ≠ 0)
    (hg : gram init ≠ 0) {tmp : Pic N C} (hi : tmp.lm "__initial_shape" = some (m • init)) (f : F)
    (hs : fe.step f ≠ 0) {q : P 2 → C} (hq : fe.op f tmp.px = .ok q) :
    ∃ (fi : Pic N C) (a : Equiv.Perm (Pts N 2)),
      (ext fe reference).feature f tmp = .ok fi ∧
      getLm fi "__initial_shape" = .ok (zoomedShape (fe.step f * m) (fe.off f) init) ∧
      fi.lm "__initial_shape" = some (zoomedShape (fe.step f * m) (fe.off f) init) ∧
      (ext fe reference).align (zoomedShape (fe.step f * m) (fe.off f) init) init = .ok a ∧
      ∀ y, a.symm y = zoomedShape (fe.step f * m) (fe.off f) y := by
  rcases align_zoom fe reference (mul_ne_zero hs hm) (fe.off f) init with ⟨g, -⟩ | ⟨-, a, ha, hy⟩
  · exact (hg g).elim
  · have e1 : (fun ij : Fin N × Fin 2 => fe.step f * (m • init) ij + fe.off f ij.2) =
        zoomedShape (fe.step f * m) (fe.off f) init := by
      funext ij
      simp only [zoomedShape, Pi.smul_apply, smul_eq_mul]
      ring
    refine ⟨⟨fun g => (tmp.lm g).map fun s ij => fe.step f * s ij + fe.off f ij.2, q⟩, a, ?_, ?_, ?_, ha, hy⟩
    · show (do let px ← fe.op f tmp.px; _ : Except PyErr _) = _
      rw [hq]
      rfl
    · simp only [getLm, hi, Option.map_some, e1]
    · simp only [hi, Option.map_some, e1]

/-- Features that only downsample: not at all, or to half the size. -/
noncomputable def halving (C : Type) : Features Bool C :=
  ⟨fun f px => .ok fun x => px ((if f then (1 / 2 : ℝ) else 1)⁻¹ • (x - WithLp.toLp 2 0)),
    fun f => if f then 1 / 2 else 1, fun _ => 0⟩

/-- Three points that are not on a line. -/
def corner3 : Pts 3 2 := fun ij => if ij.1 = 1 ∧ ij.2 = 0 ∨ ij.1 = 2 ∧ ij.2 = 1 then 1 else 0

theorem corner3_gram : (hPoints corner3 * (hPoints corner3).transpose).det ≠ 0 := by
  simp [Matrix.det_fin_three, hPoints, corner3]

theorem corner3_norm : 0 < Plane.norm corner3 := by
  unfold Plane.norm
  apply Real.sqrt_pos.2
  simp only [dotProduct, Fintype.sum_prod_type, Fin.sum_univ_three, Fin.sum_univ_two, centred, centroid, corner3]
  norm_num [show ¬ ((2 : Fin 3) = 1) by decide, show ¬ ((0 : Fin 3) = 2) by decide,
    show ¬ ((1 : Fin 3) = 2) by decide]

end Plane
end Menpofit
