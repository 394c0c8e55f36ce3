import Verif.Spec.SdmState
import Verif.Lemmas.Sdm
/-!
# Lemmas about supervised descent algorithm objects
-/

namespace Menpofit
namespace SdmState
open Sdm Spec

set_option linter.unusedSectionVars false

variable {σ A V W Row Reg I : Type} [AddCommGroup W]

theorem deltaImage_eq {ops : ModelOps σ V W} {Inv : σ → Prop} {co : Coord V W}
    (h : Behaves ops Inv co) (c : W) : ∀ (vs : List V) (s : σ), Inv s →
    Inv (deltaImage ops c s vs).1 ∧
    (deltaImage ops c s vs).2 = vs.map fun v => (c - co.proj v, c)
  | [], s, hs => ⟨hs, rfl⟩
  | v :: vs, s, hs => by
    have k := deltaImage_eq h c vs (ops.setTarget s v) (h.keepSet s v hs)
    exact ⟨k.1, by simp only [deltaImage, List.map_cons, k.2, h.proj s v hs]⟩

theorem deltaLoop_eq {ops : ModelOps σ V W} {Inv : σ → Prop} {co : Coord V W}
    (h : Behaves ops Inv co) : ∀ (gts : List V) (cur : List (List V)) (s : σ), Inv s →
    Inv (deltaLoop ops s gts cur).1 ∧ (deltaLoop ops s gts cur).2 = deltaRows co gts cur
  | [], _, s, hs => ⟨by simpa [deltaLoop] using hs, by simp [deltaLoop, deltaRows]⟩
  | _ :: _, [], s, hs => ⟨by simpa [deltaLoop] using hs, by simp [deltaLoop, deltaRows]⟩
  | g :: gs, vs :: vss, s, hs => by
    have k := deltaImage_eq h (ops.asVector (ops.setTarget s g)) vs (ops.setTarget s g)
      (h.keepSet s g hs)
    have q := deltaLoop_eq h gs vss _ k.1
    refine ⟨q.1, ?_⟩
    simp only [deltaLoop, deltaRows, q.2]
    rw [k.2, h.proj s g hs]

theorem computeDeltaX_eq {cls : Cls σ A V W Row Reg I} {a : Alg σ A Reg} {gts : List V}
    {Inv : σ → Prop} {co : Coord V W} (h : DescribedBy cls a gts Inv co) (junk : Nat → W)
    (cur : List (List V)) :
    ∃ a', computeDeltaX cls junk a gts cur = (a', computeDelta co junk gts cur) ∧
      a'.regressors = a.regressors ∧ a'.appearanceModel = a.appearanceModel ∧
      HoldsModel cls a' Inv := by
  obtain ⟨coords, feat, reg, n⟩ := cls
  cases coords with
  | direct c =>
    simp only [DescribedBy] at h
    subst h
    exact ⟨a, rfl, rfl, rfl, trivial⟩
  | model ops build =>
    simp only [DescribedBy] at h
    obtain ⟨hb, hs⟩ := h
    obtain ⟨s, hi, e⟩ : ∃ s, Inv s ∧ getOrBuild a.shapeModel (build gts) = .ok s := by
      split at hs
      · exact ⟨_, hs, by simp_all [getOrBuild]⟩
      · obtain ⟨s, h1, h2⟩ := hs
        exact ⟨s, h2, by simp_all [getOrBuild]⟩
    simp only [computeDeltaX, HoldsModel]
    rw [e]
    have k := deltaLoop_eq hb gts cur s hi
    match gts, cur with
    | [], _ => exact ⟨_, rfl, rfl, rfl, s, rfl, hi⟩
    | _ :: _, [] => exact ⟨_, rfl, rfl, rfl, s, rfl, hi⟩
    | g :: gs, first :: rest =>
      simp only [computeDelta]
      rw [k.2]
      split
      · exact ⟨_, rfl, rfl, rfl, s, rfl, hi⟩
      · exact ⟨_, rfl, rfl, rfl, _, rfl, k.1⟩

/-- What the stages of a cascade keep: the regressors `regs`, the shape model and the features. -/
structure Keeps (cls : Cls σ A V W Row Reg I) (ims : List I) (gts : List V) (Inv : σ → Prop)
    (f : I → V → Row) (regs : List Reg) (a : Alg σ A Reg) : Prop where
  regs : a.regressors = regs
  holds : HoldsModel cls a Inv
  feats : FeaturesAre cls a ims gts Inv f

/-- An object whose appearance model, if it is used, is present. -/
def Seen (cls : Cls σ A V W Row Reg I) (a : Alg σ A Reg) : Prop :=
  match cls.feat with
  | .appearance _ _ _ => a.appearanceModel.isSome
  | _ => True

theorem testFeature_eq {cls : Cls σ A V W Row Reg I} {a : Alg σ A Reg} {ims : List I}
    {gts : List V} {Inv : σ → Prop} {f : I → V → Row} {regs : List Reg}
    (h : Keeps cls ims gts Inv f regs a) (hs : Seen cls a) (im : I) (v : V) :
    ∃ a', testFeature cls a im v = .ok (a', f im v) ∧ Keeps cls ims gts Inv f regs a' ∧
      Seen cls a' := by
  obtain ⟨coords, feat, reg, n⟩ := cls
  obtain ⟨h1, h2, h3⟩ := h
  cases feat with
  | patches patch =>
    simp only [FeaturesAre] at h3
    subst h3
    exact ⟨a, rfl, ⟨h1, h2, rfl⟩, hs⟩
  | appearance patch build param =>
    obtain ⟨regs', sh, app⟩ := a
    cases app with
    | none => simp [Seen] at hs
    | some m =>
      simp only [FeaturesAre] at h3
      obtain ⟨m', e, h3⟩ := h3
      subst e h3
      exact ⟨_, rfl, ⟨h1, h2, m, rfl, rfl⟩, hs⟩
  | warped set row =>
    simp only [FeaturesAre] at h3
    obtain ⟨⟨ops, build, e⟩, h3⟩ := h3
    subst e
    simp only [HoldsModel] at h2
    obtain ⟨s, h2, h4⟩ := h2
    obtain ⟨k1, k2⟩ := h3 s h4 im v
    refine ⟨{ a with shapeModel := some (set s v) }, ?_, ⟨h1, ⟨_, rfl, k1⟩, ⟨_, _, rfl⟩, h3⟩, trivial⟩
    simp [testFeature, h2, k2]

theorem rowsImage_eq {cls : Cls σ A V W Row Reg I} {ims : List I}
    {gts : List V} {Inv : σ → Prop} {f : I → V → Row} {regs : List Reg} (im : I) :
    ∀ (vs : List V) (a : Alg σ A Reg), Keeps cls ims gts Inv f regs a → Seen cls a →
    ∃ a', rowsImage cls im a vs = .ok (a', vs.map (f im)) ∧ Keeps cls ims gts Inv f regs a' ∧
      Seen cls a'
  | [], a, h, hs => ⟨a, rfl, h, hs⟩
  | v :: vs, a, h, hs => by
    obtain ⟨a1, e1, h1, s1⟩ := testFeature_eq h hs im v
    obtain ⟨a2, e2, h2, s2⟩ := rowsImage_eq im vs a1 h1 s1
    refine ⟨a2, ?_, h2, s2⟩
    simp [rowsImage, e1, e2, bind, Except.bind, pure, Except.pure]

theorem rowsLoop_eq {cls : Cls σ A V W Row Reg I} {all : List I}
    {gts : List V} {Inv : σ → Prop} {f : I → V → Row} {regs : List Reg} :
    ∀ (ims : List I) (cur : List (List V)) (a : Alg σ A Reg),
    Keeps cls all gts Inv f regs a → Seen cls a →
    ∃ a', rowsLoop cls a ims cur = .ok (a', perShape f ims cur) ∧
      Keeps cls all gts Inv f regs a' ∧ Seen cls a'
  | [], _, a, h, hs => ⟨a, by simp [rowsLoop, perShape], h, hs⟩
  | _ :: _, [], a, h, hs => ⟨a, by simp [rowsLoop, perShape], h, hs⟩
  | im :: ims, vs :: vss, a, h, hs => by
    obtain ⟨a1, e1, h1, s1⟩ := rowsImage_eq im vs a h hs
    obtain ⟨a2, e2, h2, s2⟩ := rowsLoop_eq ims vss a1 h1 s1
    refine ⟨a2, ?_, h2, s2⟩
    simp [rowsLoop, perShape, e1, e2, bind, Except.bind, pure, Except.pure]

theorem featureRows_full (f : I → V → Row) {c : Nat} (hc : 0 < c) : ∀ (ims : List I)
    (cur : List (List V)), ims.length = cur.length → (∀ ss ∈ cur, ss.length = c) →
    featureRows f ims cur = .ok (perShape f ims cur)
  | [], [], _, _ => rfl
  | [], _ :: _, h, _ => by simp at h
  | _ :: _, [], h, _ => by simp at h
  | im :: ims, vs :: vss, h, hl => by
    have e : vs.length ≠ 0 := by rw [hl vs (by simp)]; omega
    rw [featureRows, if_neg e, featureRows_full f hc ims vss (by simpa using h)
      (fun ss hs => hl ss (by simp [hs]))]
    rfl

theorem rowsOf_eq {cls : Cls σ A V W Row Reg I} {all : List I}
    {gts : List V} {Inv : σ → Prop} {f : I → V → Row} {regs : List Reg} {ims : List I}
    {cur : List (List V)} {a : Alg σ A Reg} (h : Keeps cls all gts Inv f regs a) (hs : Seen cls a)
    (hl : ims.length = cur.length) (hn : cur ≠ []) {c : Nat} (hc : ∀ ss ∈ cur, ss.length = c) :
    ∃ a', rowsOf cls a ims cur = (a', featureRows f ims cur) ∧
      Keeps cls all gts Inv f regs a' ∧ Seen cls a' := by
  obtain ⟨a', e, h1, h2⟩ := rowsLoop_eq ims cur a h hs
  refine ⟨a', ?_, h1, h2⟩
  have hlen := perShape_length f ims cur hl
  match ims, cur with
  | _, [] => exact absurd rfl hn
  | [], _ :: _ => simp at hl
  | im :: ims, vs :: vss =>
    simp only [rowsOf, e]
    by_cases hz : c = 0
    · subst hz
      have e0 : (perShape f (im :: ims) (vs :: vss)).length = 0 := by
        rw [hlen]
        apply List.sum_eq_zero
        intro n hn
        obtain ⟨l, hl, rfl⟩ := List.mem_map.1 hn
        exact hc l hl
      rw [if_pos e0, featureRows, if_pos (hc vs (by simp))]
    · rw [featureRows_full f (Nat.pos_of_ne_zero hz) _ _ hl hc, if_neg]
      rw [hlen, List.map_cons, List.sum_cons, hc vs (by simp)]
      omega

theorem trainingFeatures_eq {cls : Cls σ A V W Row Reg I}
    {gts : List V} {Inv : σ → Prop} {f : I → V → Row} {regs : List Reg} {ims : List I}
    {cur : List (List V)} {a : Alg σ A Reg} (h : Keeps cls ims gts Inv f regs a)
    (hl : ims.length = cur.length) (hn : cur ≠ []) {c : Nat} (hc : ∀ ss ∈ cur, ss.length = c) :
    ∃ a', trainingFeatures cls a ims gts cur = (a', featureRows f ims cur) ∧
      Keeps cls ims gts Inv f regs a' ∧ Seen cls a' := by
  obtain ⟨coords, feat, reg, n⟩ := cls
  cases feat with
  | patches patch =>
    have h3 := h.feats
    simp only [FeaturesAre] at h3
    subst h3
    exact ⟨a, rfl, h, trivial⟩
  | appearance patch build param =>
    obtain ⟨h1, h2, h3⟩ := h
    simp only [FeaturesAre] at h3
    obtain ⟨m, e, h3⟩ := h3
    subst h3
    have e' : getOrBuild a.appearanceModel
        (build ((gts.zip ims).map fun p => patch p.2 p.1)) = .ok m := by
      split at e <;> simp_all [getOrBuild]
    simp only [trainingFeatures]
    rw [e']
    exact rowsOf_eq ⟨h1, h2, m, rfl, rfl⟩ rfl hl hn hc
  | warped set row =>
    exact rowsOf_eq h trivial hl hn hc

theorem printLoop_ok {coords : Coords σ V W} {Inv : σ → Prop} {co : Coord V W}
    {err : V → V → V → Except PyErr Unit} {gts : List V} {nPert : Nat}
    (hco : match coords with
      | .direct _ => True
      | .model ops _ => Behaves ops Inv co) :
    ∀ (rows : List (W × W)) (j : Nat) (s s' : Option σ),
    printLoop coords err gts nPert j s rows = .ok s' →
    (match coords with
      | .direct _ => s' = s
      | .model _ _ => (∃ t, s = some t ∧ Inv t) → ∃ t, s' = some t ∧ Inv t)
  | [], j, s, s', h => by
    simp only [printLoop, Except.ok.injEq] at h
    subst h
    cases coords with
    | direct c => rfl
    | model ops b => exact fun k => k
  | (dx, edx) :: rows, j, s, s', h => by
    cases coords with
    | direct c =>
      simp only [printLoop] at h
      split at h
      · cases h
      · obtain ⟨u, -, h⟩ := bind_ok h
        exact printLoop_ok (Inv := Inv) (co := co) hco rows _ _ _ h
    | model ops b =>
      rintro ⟨t, rfl, ht⟩
      simp only [printLoop] at h
      split at h
      · cases h
      · obtain ⟨u, -, h⟩ := bind_ok h
        exact printLoop_ok hco rows _ _ _ h ⟨_, rfl, hco.keepVec _ _ (hco.keepVec _ _ ht)⟩

omit [AddCommGroup W] in
theorem printLoop_total {coords : Coords σ V W}
    {err : V → V → V → Except PyErr Unit} (herr : ∀ x y z, err x y z = .ok ()) {gts : List V}
    {nPert : Nat} : ∀ (rows : List (W × W)) (j : Nat) (s : Option σ),
    (match coords with
      | .direct _ => True
      | .model _ _ => s.isSome) →
    j + rows.length ≤ gts.length * nPert →
    ∃ s', printLoop coords err gts nPert j s rows = .ok s'
  | [], j, s, _, _ => ⟨s, rfl⟩
  | (dx, edx) :: rows, j, s, hs, hl => by
    have hj : j / nPert < gts.length := by
      have : j < gts.length * nPert := by simp only [List.length_cons] at hl; omega
      exact Nat.div_lt_of_lt_mul (by rwa [Nat.mul_comm])
    obtain ⟨g, hg⟩ : ∃ g, gts[j / nPert]? = some g := ⟨_, List.getElem?_eq_getElem hj⟩
    have hl' : j + 1 + rows.length ≤ gts.length * nPert := by
      simp only [List.length_cons] at hl; omega
    cases coords with
    | direct c =>
      obtain ⟨s', h⟩ := printLoop_total (coords := .direct c) herr rows (j + 1) s trivial hl'
      exact ⟨s', by simp [printLoop, hg, herr, h, bind, Except.bind]⟩
    | model ops b =>
      cases s with
      | none => simp at hs
      | some s =>
        obtain ⟨s', h⟩ := printLoop_total (coords := .model ops b) herr rows (j + 1)
          (some (ops.fromVector (ops.fromVector s dx) edx)) rfl hl'
        exact ⟨s', by simp [printLoop, hg, herr, h, bind, Except.bind]⟩

theorem updateImage_eq {ops : ModelOps σ V W} {Inv : σ → Prop} {co : Coord V W}
    (h : Behaves ops Inv co) (est gt : List W) : ∀ (vs : List V) (j : Nat) (s : σ), Inv s →
    (∀ e, updateShapes co est gt j vs = .error e → updateImage ops est gt j s vs = .error e) ∧
    (∀ r, updateShapes co est gt j vs = .ok r →
      ∃ s', updateImage ops est gt j s vs = .ok (s', r) ∧ Inv s')
  | [], j, s, hs => by
    refine ⟨fun e he => by simp [updateShapes] at he, fun r hr => ?_⟩
    simp only [updateShapes, Except.ok.injEq] at hr
    subst hr
    exact ⟨s, rfl, hs⟩
  | v :: vs, j, s, hs => by
    cases h1 : est[j]? with
    | none => simp [updateShapes, updateImage, h1]
    | some e =>
      cases h2 : gt[j]? with
      | none => simp [updateShapes, updateImage, h1, h2]
      | some g =>
        have hp := h.proj s v hs
        have hi := h.inst (ops.setTarget s v) (co.proj v + e) (h.keepSet _ _ hs)
        obtain ⟨k1, k2⟩ := updateImage_eq h est gt vs (j + 1)
          (ops.fromVector (ops.setTarget s v) (co.proj v + e))
          (h.keepVec _ _ (h.keepSet _ _ hs))
        cases hu : updateShapes co est gt (j + 1) vs with
        | error e' =>
          have := k1 e' hu
          simp [updateShapes, updateImage, h1, h2, hu, hp, this, bind, Except.bind]
        | ok r =>
          obtain ⟨s', e1, hs'⟩ := k2 r hu
          simp [updateShapes, updateImage, h1, h2, hu, hp, hi, e1, bind, Except.bind, pure,
            Except.pure, hs']

theorem updateLoop_eq {ops : ModelOps σ V W} {Inv : σ → Prop} {co : Coord V W}
    (h : Behaves ops Inv co) (est gt : List W) : ∀ (vss : List (List V)) (j : Nat) (s : σ), Inv s →
    (∀ e, updateAll co est gt j vss = .error e → updateLoop ops est gt j s vss = .error e) ∧
    (∀ r, updateAll co est gt j vss = .ok r →
      ∃ s', updateLoop ops est gt j s vss = .ok (s', r) ∧ Inv s')
  | [], j, s, hs => by
    refine ⟨fun e he => by simp [updateAll] at he, fun r hr => ?_⟩
    simp only [updateAll, Except.ok.injEq] at hr
    subst hr
    exact ⟨s, rfl, hs⟩
  | vs :: vss, j, s, hs => by
    obtain ⟨k1, k2⟩ := updateImage_eq h est gt vs j s hs
    cases hu : updateShapes co est gt j vs with
    | error e =>
      have := k1 e hu
      simp [updateAll, updateLoop, hu, this, bind, Except.bind]
    | ok r =>
      obtain ⟨s1, e1, hs1⟩ := k2 r hu
      obtain ⟨q1, q2⟩ := updateLoop_eq h est gt vss (j + vs.length) s1 hs1
      cases hq : updateAll co est gt (j + vs.length) vss with
      | error e =>
        have := q1 e hq
        simp [updateAll, updateLoop, hu, e1, hq, this, bind, Except.bind]
      | ok q =>
        obtain ⟨s2, e2, hs2⟩ := q2 q hq
        simp [updateAll, updateLoop, hu, e1, hq, e2, hs2, bind, Except.bind, pure, Except.pure]

/-- Shapes are described by `co`, once there is a shape model. -/
def Describes (cls : Cls σ A V W Row Reg I) (Inv : σ → Prop) (co : Coord V W) : Prop :=
  match cls.coords with
  | .direct c => c = co
  | .model ops _ => Behaves ops Inv co

theorem _root_.Menpofit.Spec.DescribedBy.describes {cls : Cls σ A V W Row Reg I} {a : Alg σ A Reg} {gts : List V}
    {Inv : σ → Prop} {co : Coord V W} (h : DescribedBy cls a gts Inv co) :
    Describes cls Inv co := by
  obtain ⟨coords, feat, reg, n⟩ := cls
  cases coords with
  | direct c => exact h
  | model ops b => exact h.1

/-- The features do not depend on the shape model of the object. -/
theorem featuresAre_congr {cls : Cls σ A V W Row Reg I} {a a' : Alg σ A Reg} {ims : List I}
    {gts : List V} {Inv : σ → Prop} {f : I → V → Row}
    (e : a'.appearanceModel = a.appearanceModel) (h : FeaturesAre cls a ims gts Inv f) :
    FeaturesAre cls a' ims gts Inv f := by
  unfold FeaturesAre at h ⊢
  rw [e]
  exact h

theorem printInfo_eq {cls : Cls σ A V W Row Reg I} {ims : List I} {gts : List V}
    {Inv : σ → Prop} {co : Coord V W} {f : I → V → Row} {regs : List Reg} {a : Alg σ A Reg}
    (hd : Describes cls Inv co) (h : Keeps cls ims gts Inv f regs a)
    {verbose : Option (V → V → V → Except PyErr Unit)}
    (hv : ∀ err, verbose = some err → ∀ x y z, err x y z = .ok ()) {nPert : Nat} {delta est : List W}
    (hl : delta.length ≤ gts.length * nPert) :
    ∃ a', printInfo cls verbose gts nPert delta est a = (a', .ok ()) ∧
      Keeps cls ims gts Inv f regs a' ∧ a'.appearanceModel = a.appearanceModel := by
  cases verbose with
  | none => exact ⟨a, rfl, h, rfl⟩
  | some err =>
    obtain ⟨h1, h2, h3⟩ := h
    obtain ⟨s', e⟩ := printLoop_total (coords := cls.coords) (hv err rfl) (gts := gts)
      (nPert := nPert) (delta.zip est) 0 a.shapeModel (by
        unfold HoldsModel at h2
        split
        · trivial
        · rename_i heq
          rw [heq] at h2
          obtain ⟨s, h2, -⟩ := h2
          simp [h2]) (by
        rw [List.length_zip]
        omega)
    refine ⟨{ a with shapeModel := s' }, by simp [printInfo, e], ⟨h1, ?_, featuresAre_congr rfl h3⟩,
      rfl⟩
    obtain ⟨coords, feat, reg, n⟩ := cls
    cases coords with
    | direct c => trivial
    | model ops b => exact printLoop_ok (Inv := Inv) (co := co) hd _ _ _ _ e h2

theorem updateEstimates_eq {cls : Cls σ A V W Row Reg I} {ims : List I} {gts : List V}
    {Inv : σ → Prop} {co : Coord V W} {f : I → V → Row} {regs : List Reg} {a : Alg σ A Reg}
    (hd : Describes cls Inv co) (h : Keeps cls ims gts Inv f regs a) (est gt : List W)
    (cur : List (List V)) :
    ∃ a', updateEstimates cls a est gt cur = (a', updateAll co est gt 0 cur) ∧
      Keeps cls ims gts Inv f regs a' ∧ a'.appearanceModel = a.appearanceModel := by
  obtain ⟨coords, feat, reg, n⟩ := cls
  obtain ⟨h1, h2, h3⟩ := h
  cases coords with
  | direct c =>
    simp only [Describes] at hd
    subst hd
    exact ⟨a, rfl, ⟨h1, h2, h3⟩, rfl⟩
  | model ops b =>
    simp only [Describes] at hd
    simp only [HoldsModel] at h2
    obtain ⟨s, e, hs⟩ := h2
    obtain ⟨k1, k2⟩ := updateLoop_eq hd est gt cur 0 s hs
    cases hu : updateAll co est gt 0 cur with
    | error x => exact ⟨a, by simp [updateEstimates, e, k1 x hu], ⟨h1, ⟨s, e, hs⟩, h3⟩, rfl⟩
    | ok r =>
      obtain ⟨s', e', hs'⟩ := k2 r hu
      exact ⟨{ a with shapeModel := some s' }, by simp [updateEstimates, e, e'],
        ⟨h1, ⟨s', rfl, hs'⟩, featuresAre_congr rfl h3⟩, rfl⟩

theorem length_flatten_const {B : Type} {c : Nat} {bss : List (List B)}
    (h : ∀ bs ∈ bss, bs.length = c) : bss.flatten.length = bss.length * c := by
  rw [List.length_flatten, List.map_congr_left h]
  simp

/-- The cascade of an object is the cascade of `Verif.Model.Sdm`. -/
theorem cascadeLoop_eq {cls : Cls σ A V W Row Reg I} {ims : List I} {gts : List V}
    {Inv : σ → Prop} {co : Coord V W} {f : I → V → Row} (hd : Describes cls Inv co)
    {verbose : Option (V → V → V → Except PyErr Unit)}
    (hv : ∀ err, verbose = some err → ∀ x y z, err x y z = .ok ()) (increment : Bool) {c : Nat}
    (gt : List W) : ∀ (m k : Nat) (a : Alg σ A Reg) (regs : List Reg) (delta : List W)
      (cur : List (List V)), Keeps cls ims gts Inv f regs a → ims.length = cur.length →
      gts.length = cur.length → cur ≠ [] → (∀ ss ∈ cur, ss.length = c) →
      delta.length = gts.length * c →
      (∀ e, stages cls.reg co f ims gt increment m k regs delta cur = .error e →
        ∃ a', cascadeLoop cls verbose increment c ims gts gt m k a delta cur = (a', .error e)) ∧
      (∀ r, stages cls.reg co f ims gt increment m k regs delta cur = .ok r →
        ∃ a', cascadeLoop cls verbose increment c ims gts gt m k a delta cur = (a', .ok r.2.1) ∧
          Keeps cls ims gts Inv f r.1 a' ∧ (0 < m ∨ Seen cls a → Seen cls a')) := by
  intro m
  induction m with
  | zero =>
    intro k a regs delta cur h _ _ _ _ _
    refine ⟨fun e he => by simp [stages] at he, fun r hr => ?_⟩
    simp only [stages, Except.ok.injEq] at hr
    subst hr
    exact ⟨a, rfl, h, fun x => x.resolve_left (by omega)⟩
  | succ m ih =>
    intro k a regs delta cur h h1 h2 hn hc hl
    obtain ⟨a1, e1, k1, s1⟩ := trainingFeatures_eq h h1 hn hc
    unfold stages cascadeLoop
    rw [e1]
    cases hf : featureRows f ims cur with
    | error e =>
      refine ⟨fun e' he => ?_, fun r hr => ?_⟩
      · simp only [bind, Except.bind, Except.error.injEq] at he
        subst he
        exact ⟨a1, rfl⟩
      · simp [bind, Except.bind] at hr
    | ok features =>
      have er : regress cls increment k a1 features delta =
          (if increment then
            match regs[k]? with
            | some r => cls.reg.increment r features delta
            | none => .error .indexError
          else cls.reg.train features delta : Except PyErr Reg) := by
        unfold regress
        rw [k1.regs]
        cases increment
        · rfl
        · cases regs[k]? <;> rfl
      simp only [bind, Except.bind, er]
      cases hg : (if increment then
            match regs[k]? with
            | some r => cls.reg.increment r features delta
            | none => .error .indexError
          else cls.reg.train features delta : Except PyErr Reg) with
      | error e =>
        refine ⟨fun e' he => ?_, fun r hr => by simp at hr⟩
        simp only [Except.error.injEq] at he
        subst he
        exact ⟨a1, rfl⟩
      | ok r =>
        simp only
        have k2 : Keeps cls ims gts Inv f (if increment then regs.set k r else regs ++ [r])
            { a1 with regressors :=
              if increment then a1.regressors.set k r else a1.regressors ++ [r] } :=
          ⟨by rw [k1.regs], k1.holds, featuresAre_congr rfl k1.feats⟩
        obtain ⟨a3, e3, k3, p3⟩ := printInfo_eq hd k2 hv (nPert := c) (delta := delta)
          (est := cls.reg.predict r features) (le_of_eq hl)
        rw [e3]
        obtain ⟨a4, e4, k4, p4⟩ := updateEstimates_eq hd k3 (cls.reg.predict r features) gt cur
        simp only
        rw [e4]
        cases hu : updateAll co (cls.reg.predict r features) gt 0 cur with
        | error e =>
          refine ⟨fun e' he => ?_, fun r hr => by simp at hr⟩
          simp only [Except.error.injEq] at he
          subst he
          exact ⟨a4, rfl⟩
        | ok u =>
          obtain ⟨u1, u2, u3, u4, u5⟩ := updateAll_ok co _ gt cur 0 u hu
          have hcur : ∀ ss ∈ u.1, ss.length = c := by
            intro ss hs
            have : ss.length ∈ cur.map List.length := u1 ▸ List.mem_map_of_mem hs
            obtain ⟨t, ht, e⟩ := List.mem_map.1 this
            rw [← e, hc t ht]
          have hlen : u.1.length = cur.length := by simpa using congrArg List.length u1
          have hu2 : u.2.length = gts.length * c := by
            have := length_flatten_const hc
            rw [u3, List.length_zipWith, List.length_zipWith, h2]
            omega
          obtain ⟨q1, q2⟩ := ih (k + 1) a4 _ (u.2 ++ delta.drop u.2.length) u.1 k4
            (by rw [h1, hlen]) (by rw [h2, hlen])
            (by intro hz; rw [hz] at hlen; exact hn (List.eq_nil_of_length_eq_zero hlen.symm)) hcur
            (by rw [List.length_append, List.length_drop, hu2, hl]; omega)
          simp only
          cases hst : stages cls.reg co f ims gt increment m (k + 1)
              (if increment then regs.set k r else regs ++ [r])
              (u.2 ++ delta.drop u.2.length) u.1 with
          | error e =>
            refine ⟨fun e' he => ?_, fun r hr => by simp at hr⟩
            simp only [Except.error.injEq] at he
            subst he
            exact q1 e hst
          | ok s =>
            refine ⟨fun e' he => by simp [pure, Except.pure] at he, fun r hr => ?_⟩
            simp only [pure, Except.pure, Except.ok.injEq] at hr
            subst hr
            obtain ⟨a', x1, x2, x3⟩ := q2 s hst
            refine ⟨a', x1, x2, fun _ => x3 (Or.inr ?_)⟩
            have : a4.appearanceModel = a1.appearanceModel := by rw [p4, p3]
            unfold Seen at s1 ⊢
            rw [this]
            exact s1

theorem trainAlg_eq {cls : Cls σ A V W Row Reg I} {a : Alg σ A Reg} {ims : List I} {gts : List V}
    {Inv : σ → Prop} {co : Coord V W} {f : I → V → Row} (hd : DescribedBy cls a gts Inv co)
    (hf : FeaturesAre cls a ims gts Inv f)
    {verbose : Option (V → V → V → Except PyErr Unit)}
    (hv : ∀ err, verbose = some err → ∀ x y z, err x y z = .ok ()) (junk : Nat → W)
    (increment : Bool) (cur : List (List V)) (h1 : ims.length = cur.length)
    (h2 : gts.length = cur.length) {c : Nat} (hc : ∀ ss ∈ cur, ss.length = c) :
    (∀ e, train cls.reg co f junk cls.nIterations increment a.regressors ims gts cur = .error e →
      ∃ a', trainAlg cls verbose junk increment a ims gts cur = (a', .error e)) ∧
    (∀ r, train cls.reg co f junk cls.nIterations increment a.regressors ims gts cur = .ok r →
      ∃ a', trainAlg cls verbose junk increment a ims gts cur = (a', .ok r.2.1) ∧
        Keeps cls ims gts Inv f r.1 a' ∧ (0 < cls.nIterations → Seen cls a')) := by
  unfold train trainAlg
  split
  · refine ⟨fun e he => ?_, fun r hr => by cases hr⟩
    injection he with he
    subst he
    exact ⟨a, rfl⟩
  · match cur, gts with
    | [], gts =>
      have e : computeDelta co junk gts ([] : List (List V)) = .error .indexError := by
        cases gts <;> rfl
      rw [e]
      refine ⟨fun e' he => ?_, fun r hr => by simp [bind, Except.bind] at hr⟩
      simp only [bind, Except.bind, Except.error.injEq] at he
      subst he
      exact ⟨_, rfl⟩
    | _ :: _, [] => simp at h2
    | first :: rest, g :: gs =>
      obtain ⟨a1, e1, r1, p1, k1⟩ := computeDeltaX_eq (a := if increment then a else
        { a with regressors := [] }) (gts := g :: gs) (co := co) (Inv := Inv) (cls := cls) (by
          unfold DescribedBy at hd ⊢
          cases increment <;> exact hd) junk (first :: rest)
      have k : Keeps cls ims (g :: gs) Inv f (if increment then a.regressors else []) a1 :=
        ⟨by rw [r1]; cases increment <;> rfl, k1,
          featuresAre_congr (a := a) (by rw [p1]; cases increment <;> rfl) hf⟩
      simp only
      rw [e1]
      have hfirst : first.length = c := hc first (by simp)
      rw [hfirst]
      cases hcd : computeDelta co junk (g :: gs) (first :: rest) with
      | error e =>
        refine ⟨fun e' he => ?_, fun r hr => by simp [bind, Except.bind] at hr⟩
        simp only [bind, Except.bind, Except.error.injEq] at he
        subst he
        exact ⟨_, rfl⟩
      | ok d =>
        have e := computeDelta_ok hcd h2 hc
        subst e
        have hl : (perShape (fun g c => co.proj g - co.proj c) (g :: gs) (first :: rest)).length =
            (g :: gs).length * c := by
          rw [perShape_length _ _ _ h2, ← List.length_flatten, length_flatten_const hc, h2]
        obtain ⟨q1, q2⟩ := cascadeLoop_eq hd.describes hv increment _ cls.nIterations 0 a1 _ _ _ k
          h1 h2 (by simp) hc hl
        refine ⟨q1, fun r hr => ?_⟩
        obtain ⟨a', x1, x2, x3⟩ := q2 r hr
        exact ⟨a', x1, x2, fun h0 => x3 (Or.inl h0)⟩

/-! ### Objects that can be used -/

theorem ready_of_keeps {cls : Cls σ A V W Row Reg I} {ims : List I} {gts : List V}
    {Inv : σ → Prop} {co : Coord V W} {f : I → V → Row} {regs : List Reg} {a : Alg σ A Reg}
    (hd : Describes cls Inv co) (h : Keeps cls ims gts Inv f regs a) (hs : Seen cls a) :
    Usable cls Inv co f a := by
  obtain ⟨coords, feat, reg, n⟩ := cls
  obtain ⟨-, h2, h3⟩ := h
  refine ⟨?_, ?_⟩
  · cases coords with
    | direct c => exact hd
    | model ops b => exact ⟨hd, h2⟩
  · cases feat with
    | patches patch => exact h3
    | appearance patch build param =>
      obtain ⟨m, e, h3⟩ := h3
      simp only [Seen] at hs
      obtain ⟨m', hm⟩ := Option.isSome_iff_exists.1 hs
      rw [hm] at e
      subst e
      exact ⟨m', hm, h3⟩
    | warped set row => exact h3

theorem ready_describedBy {cls : Cls σ A V W Row Reg I} {Inv : σ → Prop} {co : Coord V W}
    {f : I → V → Row} {a : Alg σ A Reg} (h : Usable cls Inv co f a) (gts : List V) :
    DescribedBy cls a gts Inv co := by
  obtain ⟨coords, feat, reg, n⟩ := cls
  obtain ⟨h, -⟩ := h
  cases coords with
  | direct c => exact h
  | model ops b =>
    obtain ⟨h1, s, h2, h3⟩ := h
    simp only [DescribedBy, h2]
    exact ⟨h1, h3⟩

theorem ready_featuresAre {cls : Cls σ A V W Row Reg I} {Inv : σ → Prop} {co : Coord V W}
    {f : I → V → Row} {a : Alg σ A Reg} (h : Usable cls Inv co f a) (ims : List I) (gts : List V) :
    FeaturesAre cls a ims gts Inv f := by
  obtain ⟨coords, feat, reg, n⟩ := cls
  obtain ⟨-, h⟩ := h
  cases feat with
  | patches patch => exact h
  | appearance patch build param =>
    obtain ⟨m, h1, h2⟩ := h
    simp only [FeaturesAre, h1]
    exact ⟨m, rfl, h2⟩
  | warped set row => exact h

theorem ready_keeps {cls : Cls σ A V W Row Reg I} {Inv : σ → Prop} {co : Coord V W}
    {f : I → V → Row} {a : Alg σ A Reg} (h : Usable cls Inv co f a) :
    Describes cls Inv co ∧ Keeps cls [] [] Inv f a.regressors a ∧ Seen cls a := by
  have h3 := ready_featuresAre h [] []
  obtain ⟨coords, feat, reg, n⟩ := cls
  obtain ⟨h1, h2⟩ := h
  refine ⟨?_, ⟨rfl, ?_, h3⟩, ?_⟩
  · cases coords with
    | direct c => exact h1
    | model ops b => exact h1.1
  · cases coords with
    | direct c => trivial
    | model ops b => exact h1.2
  · cases feat with
    | patches patch => trivial
    | appearance patch build param =>
      obtain ⟨m, e, -⟩ := h2
      simp [Seen, e]
    | warped set row => trivial

/-! ### Failed training -/

theorem rowsImage_regs {cls : Cls σ A V W Row Reg I} (im : I) : ∀ (vs : List V)
    (a : Alg σ A Reg) (r : Alg σ A Reg × List Row), rowsImage cls im a vs = .ok r →
    r.1.regressors = a.regressors
  | [], a, r, h => by simp only [rowsImage, Except.ok.injEq] at h; rw [← h]
  | v :: vs, a, r, h => by
    unfold rowsImage at h
    obtain ⟨t, ht, h⟩ := bind_ok h
    obtain ⟨q, hq, h⟩ := bind_ok h
    injection h with h
    rw [← h]
    have e : t.1.regressors = a.regressors := by
      unfold testFeature at ht
      split at ht
      · injection ht with ht; rw [← ht]
      · split at ht
        · cases ht
        · injection ht with ht; rw [← ht]
      · split at ht
        · cases ht
        · injection ht with ht; rw [← ht]
    rw [rowsImage_regs im vs t.1 q hq, e]

theorem rowsLoop_regs {cls : Cls σ A V W Row Reg I} : ∀ (ims : List I) (cur : List (List V))
    (a : Alg σ A Reg) (r : Alg σ A Reg × List Row), rowsLoop cls a ims cur = .ok r →
    r.1.regressors = a.regressors
  | [], _, a, r, h => by simp only [rowsLoop, Except.ok.injEq] at h; rw [← h]
  | _ :: _, [], a, r, h => by simp only [rowsLoop, Except.ok.injEq] at h; rw [← h]
  | im :: ims, vs :: vss, a, r, h => by
    unfold rowsLoop at h
    obtain ⟨t, ht, h⟩ := bind_ok h
    obtain ⟨q, hq, h⟩ := bind_ok h
    injection h with h
    rw [← h, rowsLoop_regs ims vss t.1 q hq, rowsImage_regs im vs a t ht]

theorem rowsOf_regs {cls : Cls σ A V W Row Reg I} (ims : List I) (cur : List (List V))
    (a : Alg σ A Reg) : (rowsOf cls a ims cur).1.regressors = a.regressors := by
  unfold rowsOf
  split
  · rfl
  · rename_i r h
    have := rowsLoop_regs ims cur a r h
    split <;> exact this

theorem trainingFeatures_regs {cls : Cls σ A V W Row Reg I} (ims : List I) (gts : List V)
    (cur : List (List V)) (a : Alg σ A Reg) :
    (trainingFeatures cls a ims gts cur).1.regressors = a.regressors := by
  unfold trainingFeatures
  split
  · rfl
  · split
    · rfl
    · exact rowsOf_regs ims cur _
  · exact rowsOf_regs ims cur a

theorem printInfo_regs {cls : Cls σ A V W Row Reg I}
    (verbose : Option (V → V → V → Except PyErr Unit)) (gts : List V) (nPert : Nat)
    (delta est : List W) (a : Alg σ A Reg) :
    (printInfo cls verbose gts nPert delta est a).1.regressors = a.regressors := by
  unfold printInfo
  split
  · rfl
  · split <;> rfl

theorem updateEstimates_regs {cls : Cls σ A V W Row Reg I} (a : Alg σ A Reg) (est gt : List W)
    (cur : List (List V)) :
    (updateEstimates cls a est gt cur).1.regressors = a.regressors := by
  unfold updateEstimates
  split
  · rfl
  · split
    · rfl
    · split <;> rfl

theorem computeDeltaX_regs {cls : Cls σ A V W Row Reg I} (junk : Nat → W) (a : Alg σ A Reg)
    (gts : List V) (cur : List (List V)) :
    (computeDeltaX cls junk a gts cur).1.regressors = a.regressors := by
  unfold computeDeltaX
  split
  · rfl
  · split
    · rfl
    · split
      · simp only
        split <;> rfl
      · rfl

theorem cascadeLoop_regs {cls : Cls σ A V W Row Reg I}
    {verbose : Option (V → V → V → Except PyErr Unit)} {nPert : Nat} {ims : List I}
    {gts : List V} {gt : List W} : ∀ (m k : Nat) (a : Alg σ A Reg) (delta : List W)
      (cur : List (List V)),
    ∃ new, (cascadeLoop cls verbose false nPert ims gts gt m k a delta cur).1.regressors =
        a.regressors ++ new ∧ new.length ≤ m ∧
      ∀ r ∈ new, ∃ features delta, cls.reg.train features delta = .ok r := by
  intro m
  induction m with
  | zero => exact fun k a delta cur => ⟨[], by simp [cascadeLoop]⟩
  | succ m ih =>
    intro k a delta cur
    unfold cascadeLoop
    have t1 := trainingFeatures_regs (cls := cls) ims gts cur a
    split
    · rename_i heq
      rw [heq] at t1
      exact ⟨[], by simpa using t1, by simp, by simp⟩
    · rename_i a1 features heq
      rw [heq] at t1
      simp only at t1
      split
      · exact ⟨[], by simpa using t1, by simp, by simp⟩
      · rename_i r hr
        have hr' : cls.reg.train features delta = .ok r := by simpa [regress] using hr
        have one : ∀ x ∈ [r], ∃ features delta, cls.reg.train features delta = .ok x := by
          intro x hx
          rw [List.mem_singleton.1 hx]
          exact ⟨_, _, hr'⟩
        have t2 := printInfo_regs (cls := cls) verbose gts nPert delta
          (cls.reg.predict r features) { a1 with regressors := a1.regressors ++ [r] }
        simp only [Bool.false_eq_true, if_false]
        split
        · rename_i heq2
          rw [heq2] at t2
          exact ⟨[r], by simpa [t1] using t2, by simp, one⟩
        · rename_i a2 _ heq2
          rw [heq2] at t2
          simp only at t2
          have t3 := updateEstimates_regs (cls := cls) a2 (cls.reg.predict r features) gt cur
          split
          · rename_i heq3
            rw [heq3] at t3
            exact ⟨[r], by rw [← t1, ← t2]; exact t3, by simp, one⟩
          · rename_i a3 u heq3
            rw [heq3] at t3
            obtain ⟨new, n1, n2, n3⟩ := ih (k + 1) a3 (u.2 ++ delta.drop u.2.length) u.1
            refine ⟨r :: new, ?_, by simpa using n2, ?_⟩
            · rw [n1, show a3.regressors = a2.regressors from t3, t2, t1]
              simp
            · intro x hx
              rcases List.mem_cons.1 hx with rfl | hx
              · exact one _ (by simp)
              · exact n3 x hx

/-! ### Fitting -/

theorem testFeature_same {cls : Cls σ A V W Row Reg I} (hw : ∀ set row, cls.feat ≠ .warped set row)
    {a a' : Alg σ A Reg} {im : I} {v : V} {x : Row} (h : testFeature cls a im v = .ok (a', x)) :
    a' = a := by
  unfold testFeature at h
  split at h
  · simp only [Except.ok.injEq, Prod.mk.injEq] at h
    exact h.1.symm
  · split at h
    · cases h
    · simp only [Except.ok.injEq, Prod.mk.injEq] at h
      exact h.1.symm
  · rename_i heq
    exact absurd heq (hw _ _)

theorem keeps_setModel {cls : Cls σ A V W Row Reg I} {ims : List I} {gts : List V}
    {Inv : σ → Prop} {f : I → V → Row} {regs : List Reg} {a : Alg σ A Reg}
    (h : Keeps cls ims gts Inv f regs a) {s : σ} (hs : Inv s) :
    Keeps cls ims gts Inv f regs { a with shapeModel := some s } := by
  refine ⟨h.regs, ?_, featuresAre_congr rfl h.feats⟩
  unfold HoldsModel
  split
  · trivial
  · exact ⟨s, rfl, hs⟩

theorem holds_some {cls : Cls σ A V W Row Reg I} {Inv : σ → Prop} {a : Alg σ A Reg}
    {ops : ModelOps σ V W} {b : List V → Except PyErr σ} (hc : cls.coords = .model ops b)
    (h : HoldsModel cls a Inv) : ∃ s, a.shapeModel = some s ∧ Inv s := by
  unfold HoldsModel at h
  rw [hc] at h
  exact h

theorem describes_model {cls : Cls σ A V W Row Reg I} {Inv : σ → Prop} {co : Coord V W}
    {ops : ModelOps σ V W} {b : List V → Except PyErr σ} (hc : cls.coords = .model ops b)
    (h : Describes cls Inv co) : Behaves ops Inv co := by
  unfold Describes at h
  rw [hc] at h
  exact h

/-- What a cascade of steps on the parameters gives for the shapes and the parameters. -/
def Agrees {A' : Type} (good : A' → Prop) (x : Except PyErr (A' × List V × List W))
    (inst : W → V) (y : Except PyErr (List W)) : Prop :=
  (∀ e, y = .error e → x = .error e) ∧
  (∀ ps, y = .ok ps → ∃ a', x = .ok (a', ps.map inst, ps) ∧ good a')

theorem fitLoop_eq {cls : Cls σ A V W Row Reg I} {ops : ModelOps σ V W}
    {b : List V → Except PyErr σ} (hm : cls.coords = .model ops b)
    (hw : ∀ set row, cls.feat ≠ .warped set row) {ims : List I} {gts : List V}
    {Inv : σ → Prop} {co : Coord V W} (hd : Describes cls Inv co) {f : I → V → Row}
    {all : List Reg} (im : I) :
    ∀ (regs : List Reg) (a : Alg σ A Reg) (s : σ), Keeps cls ims gts Inv f all a → Seen cls a →
    a.shapeModel = some s → Inv s →
    Agrees (fun a' => Keeps cls ims gts Inv f all a' ∧ Seen cls a')
      (fitLoop cls ops im regs a (co.inst (ops.asVector s))) co.inst
      (Result.cascade (fitParamStep cls.reg co f im) (ops.asVector s) regs)
  | [], a, s, h, hs, _, _ => by
    refine ⟨fun e he => by simp [Result.cascade] at he, fun ps hp => ?_⟩
    simp only [Result.cascade, Except.ok.injEq] at hp
    subst hp
    exact ⟨a, rfl, h, hs⟩
  | r :: rs, a, s, h, hs, e, hi => by
    have hb := describes_model hm hd
    obtain ⟨a1, e1, k1, s1⟩ := testFeature_eq h hs im (co.inst (ops.asVector s))
    have := testFeature_same hw e1
    subst this
    simp only [fitLoop, Result.cascade, fitParamStep, bind, Except.bind, e1, e]
    rcases cls.reg.predict r [f im (co.inst (ops.asVector s))] with _ | ⟨dx, _ | ⟨y, ys⟩⟩
    · refine ⟨fun e' he => ?_, fun ps hp => by simp at hp⟩
      simp only [Except.error.injEq] at he
      subst he
      rfl
    · simp only
      have hi' : Inv (ops.fromVector s (ops.asVector s + dx)) := hb.keepVec _ _ hi
      have ih := fitLoop_eq hm hw hd im rs
        { a1 with shapeModel := some (ops.fromVector s (ops.asVector s + dx)) }
        (ops.fromVector s (ops.asVector s + dx)) (keeps_setModel h hi')
        (by unfold Seen at hs ⊢; exact hs) rfl hi'
      rw [hb.vec _ _ hi] at ih
      simp only [hb.inst _ _ hi]
      obtain ⟨i1, i2⟩ := ih
      cases hq : Result.cascade (fitParamStep cls.reg co f im) ((ops.asVector s) + dx) rs with
      | error x =>
        refine ⟨fun e' he => ?_, fun ps hp => by simp at hp⟩
        simp only [Except.error.injEq] at he
        subst he
        simp [i1 x hq]
      | ok ps =>
        refine ⟨fun e' he => by simp [pure, Except.pure] at he, fun qs hp => ?_⟩
        simp only [pure, Except.pure, Except.ok.injEq] at hp
        subst hp
        obtain ⟨a', e', k'⟩ := i2 ps hq
        exact ⟨a', by simp [e', pure, Except.pure], k'⟩
    · refine ⟨fun e' he => ?_, fun ps hp => by simp at hp⟩
      simp only [Except.error.injEq] at he
      subst he
      rfl

theorem aamLoop_eq {cls : Cls σ A V W Row Reg I} {ops : ModelOps σ V W}
    {b : List V → Except PyErr σ} (hm : cls.coords = .model ops b) {ims : List I} {gts : List V}
    {Inv : σ → Prop} {co : Coord V W} (hd : Describes cls Inv co) {f : I → V → Row}
    {all : List Reg} (im : I) :
    ∀ (regs : List Reg) (a : Alg σ A Reg) (s : σ) (p : W), Keeps cls ims gts Inv f all a →
    Seen cls a → a.shapeModel = some s → Inv s → ops.target s = co.inst p →
    Agrees (fun a' => Keeps cls ims gts Inv f all a' ∧ Seen cls a')
      (aamLoop cls ops im regs a p) co.inst
      (Result.cascade (fitParamStep cls.reg co f im) p regs)
  | [], a, s, p, h, hs, _, _, _ => by
    refine ⟨fun e he => by simp [Result.cascade] at he, fun ps hp => ?_⟩
    simp only [Result.cascade, Except.ok.injEq] at hp
    subst hp
    exact ⟨a, rfl, h, hs⟩
  | r :: rs, a, s, p, h, hs, e, hi, ht => by
    have hb := describes_model hm hd
    obtain ⟨a1, e1, k1, s1⟩ := testFeature_eq h hs im (ops.target s)
    rw [ht] at e1
    obtain ⟨t, et, hi1⟩ := holds_some hm k1.holds
    simp only [aamLoop, Result.cascade, fitParamStep, bind, Except.bind, e, ht, e1, et]
    rcases cls.reg.predict r [f im (co.inst p)] with _ | ⟨dx, _ | ⟨y, ys⟩⟩
    · refine ⟨fun e' he => ?_, fun ps hp => by simp at hp⟩
      simp only [Except.error.injEq] at he
      subst he
      rfl
    · simp only
      have hi' : Inv (ops.fromVector t (p + dx)) := hb.keepVec _ _ hi1
      have ih := aamLoop_eq hm hd im rs
        { a1 with shapeModel := some (ops.fromVector t (p + dx)) }
        (ops.fromVector t (p + dx)) (p + dx) (keeps_setModel k1 hi')
        (by unfold Seen at s1 ⊢; exact s1) rfl hi' (hb.inst _ _ hi1)
      simp only [hb.inst _ _ hi1]
      obtain ⟨i1, i2⟩ := ih
      cases hq : Result.cascade (fitParamStep cls.reg co f im) (p + dx) rs with
      | error x =>
        refine ⟨fun e' he => ?_, fun ps hp => by simp at hp⟩
        simp only [Except.error.injEq] at he
        subst he
        simp [i1 x hq]
      | ok ps =>
        refine ⟨fun e' he => by simp [pure, Except.pure] at he, fun qs hp => ?_⟩
        simp only [pure, Except.pure, Except.ok.injEq] at hp
        subst hp
        obtain ⟨a', e', k'⟩ := i2 ps hq
        exact ⟨a', by simp [e', pure, Except.pure], k'⟩
    · refine ⟨fun e' he => ?_, fun ps hp => by simp at hp⟩
      simp only [Except.error.injEq] at he
      subst he
      rfl

end SdmState
end Menpofit
