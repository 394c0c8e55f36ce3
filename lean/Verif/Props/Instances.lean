import Verif.Spec.Instances
import Verif.Lemmas.AamBase
import Verif.Lemmas.Constructors
/-!
# C117: instances of every kind of model
-/

namespace Menpofit
open AamBase Inst Spec

variable {ι κ Im Fr : Type}

/-- C117 (part): `instance` and `random_instance` of a holistic or patch-based active template model
show the template of the scale on the mean shape plus the given (or one drawn for every component)
numbers of standard deviations of its modes.  Missing: the masked and linear classes, which never
return (`C117_masked_atm_violated`, `C117_linear_violated`). -/
theorem C117_atm_partial (o : Ops (ι → ℝ) Im Fr) (ho : Renderable o) (a : Atm ι Im) (scale : Int)
    (hk : a.kind = .holistic ∨ a.kind = .patch) (sm : EigModel ι) (template : Im)
    (hs : Result.pyGet a.shape scale = .ok sm) (ht : Result.pyGet a.templates scale = .ok template)
    (p : Nat × Nat) :
    (∀ w : List ℝ, w.length ≤ sm.nActive → ∃ s, ModeSum sm (fun k => w.getD k 0) s ∧
      Shows o a.kind p s template template (atmInstance o a (some w) scale)) ∧
    (1 ≤ sm.nActive → ∃ s, ModeSum sm (fun _ => 0) s ∧
      Shows o a.kind p s template template (atmInstance o a none scale)) ∧
    (∀ w : List ℝ, sm.nActive < w.length → atmInstance o a (some w) scale = .error .valueError) ∧
    (∀ draw : Nat → List ℝ, (∀ n, (draw n).length = n) → ∃ s,
      ModeSum sm (fun k => (draw sm.nActive).getD k 0) s ∧
      Shows o a.kind p s template template (atmRandom o a draw scale)) := by
  have main : ∀ (s : ι → ℝ), Shows o a.kind p s template template
      (atmRender o a.kind a.patchShape s template) := by
    intro s
    obtain ⟨fr, hfr⟩ := ho.frame s
    obtain ⟨lm, hlm⟩ := ho.source template
    rcases hk with hk | hk
    · rw [hk]
      refine ⟨lm, fr, hlm, hfr, ?_⟩
      simp only [atmRender, warpInto, hlm, hfr, bind, Except.bind, pure, Except.pure]
      cases o.warp template lm fr <;> rfl
    · rw [hk]; rfl
  refine ⟨fun w hw => ?_, fun h1 => ?_, fun w hw => ?_, fun draw hd => ?_⟩
  · obtain ⟨s, e1, e2⟩ := instance_modeSum sm w hw
    refine ⟨s, e2, ?_⟩
    simp only [atmInstance, hs, ht, bind, Except.bind, Option.getD_some, e1]
    exact main s
  · obtain ⟨s, e1, e2⟩ := instance_modeSum sm [0] h1
    refine ⟨s, ?_, ?_⟩
    · have : (fun k => ([0] : List ℝ).getD k 0) = fun _ => 0 := by
        funext k; cases k <;> simp
      rw [← this]; exact e2
    · simp only [atmInstance, hs, ht, bind, Except.bind, Option.getD_none, e1]
      exact main s
  · have e : sm.instance w = .error .valueError := if_pos hw
    simp only [atmInstance, hs, ht, bind, Except.bind, Option.getD_some, e]
  · obtain ⟨s, e1, e2⟩ := instance_modeSum sm (draw sm.nActive) (by rw [hd]; exact le_rfl)
    refine ⟨s, e2, ?_⟩
    simp only [atmRandom, hs, ht, bind, Except.bind, e1]
    exact main s

/-- C117 is violated by every masked active template model: `instance` and `random_instance` raise
`TypeError` at every scale, because the list of all patch shapes is used where one patch shape is
needed. -/
theorem C117_masked_atm_violated (o : Ops (ι → ℝ) Im Fr) (ho : Renderable o) (a : Atm ι Im)
    (scale : Int) (hk : a.kind = .masked) (sm : EigModel ι) (template : Im)
    (hs : Result.pyGet a.shape scale = .ok sm) (ht : Result.pyGet a.templates scale = .ok template)
    (hp : a.patchShape ≠ []) :
    (∀ w : List ℝ, w.length ≤ sm.nActive → atmInstance o a (some w) scale = .error .typeError) ∧
    (∀ draw : Nat → List ℝ, (∀ n, (draw n).length = n) → atmRandom o a draw scale = .error .typeError) := by
  have main : ∀ (s : ι → ℝ), atmRender o a.kind a.patchShape s template = .error .typeError := by
    intro s
    obtain ⟨lm, hlm⟩ := ho.source template
    rw [hk]
    cases hps : a.patchShape with
    | nil => exact absurd hps hp
    | cons x xs => simp only [atmRender, warpInto, hlm, buildPatchFrame, bind, Except.bind]
  refine ⟨fun w hw => ?_, fun draw hd => ?_⟩
  · obtain ⟨s, e1, e2⟩ := instance_modeSum sm w hw
    simp only [atmInstance, hs, ht, bind, Except.bind, Option.getD_some, e1, main s]
  · obtain ⟨s, e1, e2⟩ := instance_modeSum sm (draw sm.nActive) (by rw [hd]; exact le_rfl)
    simp only [atmRandom, hs, ht, bind, Except.bind, e1, main s]

/-- C117 is violated by the linear classes: no instance is ever returned, of a template model or of an
appearance model; with valid weights `NotImplementedError` is raised. -/
theorem C117_linear_violated (o : Ops (ι → ℝ) Im Fr) (k : Kind) (hk : k = .linear ∨ k = .linearMasked)
    (ps : List (Nat × Nat)) (scale : Int) (shape : List (EigModel ι)) (sm : EigModel ι)
    (hs : Result.pyGet shape scale = .ok sm) (w : List ℝ) (hw : w.length ≤ sm.nActive) :
    (∀ (templates : List Im) (template : Im), Result.pyGet templates scale = .ok template →
      atmInstance o ⟨k, ps, shape, templates⟩ (some w) scale = .error .notImplementedError) ∧
    (∀ (toIm : (κ → ℝ) → Im) (appearance : List (EigModel κ)) (am : EigModel κ) (v : List ℝ),
      Result.pyGet appearance scale = .ok am → v.length ≤ am.nActive →
      instance_ (aamOf o k ps toIm shape appearance) (some w) (some v) scale =
        .error .notImplementedError) := by
  obtain ⟨s, e1, e2⟩ := instance_modeSum sm w hw
  constructor
  · intro templates template ht
    simp only [atmInstance, hs, ht, bind, Except.bind, Option.getD_some, e1]
    rcases hk with rfl | rfl <;> rfl
  · intro toIm appearance am v ha hv
    obtain ⟨t, e3, e4⟩ := instance_modeSum am v hv
    simp only [instance_, aamOf, hs, ha, bind, Except.bind, Option.getD_some, e1, e3]
    rcases hk with rfl | rfl <;> rfl

/-- C117 (part): `instance` of a holistic, masked or patch-based active appearance model (and of a
unified model, which is holistic) shows the appearance of the given weights on the shape of the
given weights; a masked model uses the patch shape of that scale.  Missing: the linear classes
(`C117_linear_violated`). -/
theorem C117_aam_partial (o : Ops (ι → ℝ) Im Fr) (ho : Renderable o) (k : Kind)
    (hk : k ≠ .linear ∧ k ≠ .linearMasked) (ps : List (Nat × Nat)) (toIm : (κ → ℝ) → Im)
    (scale : Int) (shape : List (EigModel ι)) (appearance : List (EigModel κ)) (sm : EigModel ι)
    (am : EigModel κ) (p : Nat × Nat) (hs : Result.pyGet shape scale = .ok sm)
    (ha : Result.pyGet appearance scale = .ok am) (hp : Result.pyGet ps scale = .ok p)
    (w v : List ℝ) (hw : w.length ≤ sm.nActive) (hv : v.length ≤ am.nActive) :
    ∃ s t, ModeSum sm (fun k => w.getD k 0) s ∧ ModeSum am (fun k => v.getD k 0) t ∧
      Shows o k p s (toIm t) (toIm am.mean)
        (instance_ (aamOf o k ps toIm shape appearance) (some w) (some v) scale) := by
  obtain ⟨s, e1, e2⟩ := instance_modeSum sm w hw
  obtain ⟨t, e3, e4⟩ := instance_modeSum am v hv
  refine ⟨s, t, e2, e4, ?_⟩
  simp only [instance_, aamOf, hs, ha, bind, Except.bind, Option.getD_some, e1, e3, pure, Except.pure]
  obtain ⟨fr, hfr⟩ := ho.frame s
  obtain ⟨pf, hpf⟩ := ho.patchFrame s p
  obtain ⟨lm, hlm⟩ := ho.source (toIm am.mean)
  cases k with
  | holistic =>
    refine ⟨lm, fr, hlm, hfr, ?_⟩
    simp only [aamRender, warpInto, ha, hlm, hfr, bind, Except.bind, pure, Except.pure]
    cases o.warp (toIm t) lm fr <;> rfl
  | masked =>
    refine ⟨lm, pf, hlm, hpf, ?_⟩
    simp only [aamRender, warpInto, ha, hlm, hp, buildPatchFrame, hpf, bind, Except.bind, pure, Except.pure]
    cases o.warp (toIm t) lm pf <;> rfl
  | linear => exact absurd rfl hk.1
  | linearMasked => exact absurd rfl hk.2
  | patch => rfl

/-- C117: `shape_instance` of constrained local models and of unified models. -/
theorem C117_shape_instance (shape : List (EigModel ι)) (scale : Int) (sm : EigModel ι)
    (hs : Result.pyGet shape scale = .ok sm) :
    (∀ w : List ℝ, w.length ≤ sm.nActive → ∃ s, shapeInstance shape (some w) scale = .ok s ∧
      ModeSum sm (fun k => w.getD k 0) s) ∧
    (1 ≤ sm.nActive → shapeInstance shape none scale = .ok sm.mean) ∧
    (∀ w : List ℝ, sm.nActive < w.length → shapeInstance shape (some w) scale = .error .valueError) := by
  refine ⟨fun w hw => ?_, fun h1 => ?_, fun w hw => ?_⟩
  · obtain ⟨s, e1, e2⟩ := instance_modeSum sm w hw
    exact ⟨s, by simp only [shapeInstance, hs, bind, Except.bind, Option.getD_some, e1], e2⟩
  · obtain ⟨s, e1, e2⟩ := instance_modeSum sm [0] h1
    have : s = sm.mean := by
      funext i
      rw [e2 i]
      have : ∀ k : Fin sm.modes.length, ([0] : List ℝ).getD k 0 = 0 := by
        intro k; rcases k with ⟨k, hk⟩; cases k <;> simp
      simp only [this, zero_mul, Finset.sum_const_zero, add_zero]
    subst this
    simp only [shapeInstance, hs, bind, Except.bind, Option.getD_none, e1]
  · have e : sm.instance w = .error .valueError := if_pos hw
    simp only [shapeInstance, hs, bind, Except.bind, Option.getD_some, e]

/-- C117: `instance` and `random_instance` of an active pictorial structure have the points of the
weights (one drawn for every component), and, if asked for, the edges of the deformation graph of that
scale and its root. -/
theorem C117_aps (shape : List (EigModel ι)) (graphs : List Graph) (scale : Int) (sm : EigModel ι)
    (g : Graph) (hs : Result.pyGet shape scale = .ok sm) (hg : Result.pyGet graphs scale = .ok g)
    (asGraph : Bool) :
    (∀ w : List ℝ, w.length ≤ sm.nActive → ∃ s r, ModeSum sm (fun k => w.getD k 0) s ∧
      apsInstance shape graphs (some w) scale asGraph = .ok r ∧
      ApsHas s (if asGraph then some g.adjacency else none) (if asGraph then g.root else none) r) ∧
    (∀ w : List ℝ, sm.nActive < w.length →
      apsInstance shape graphs (some w) scale asGraph = .error .valueError) ∧
    (∀ draw : Nat → List ℝ, (∀ n, (draw n).length = n) → ∃ s r,
      ModeSum sm (fun k => (draw sm.nActive).getD k 0) s ∧
      apsRandom shape graphs draw scale asGraph = .ok r ∧
      ApsHas s (if asGraph then some g.adjacency else none) (if asGraph then g.root else none) r) := by
  have main : ∀ w : List ℝ, w.length ≤ sm.nActive → ∃ s r, ModeSum sm (fun k => w.getD k 0) s ∧
      apsInstance shape graphs (some w) scale asGraph = .ok r ∧
      ApsHas s (if asGraph then some g.adjacency else none) (if asGraph then g.root else none) r := by
    intro w hw
    obtain ⟨s, e1, e2⟩ := instance_modeSum sm w hw
    cases asGraph with
    | false =>
      exact ⟨s, .cloud s, e2, by simp [apsInstance, hs, bind, Except.bind, e1, pure, Except.pure],
        by simp [ApsHas]⟩
    | true =>
      cases hr : g.root with
      | none =>
        exact ⟨s, .directed s g.adjacency, e2,
          by simp [apsInstance, hs, hg, bind, Except.bind, e1, pure, Except.pure, hr], by simp [ApsHas]⟩
      | some r =>
        exact ⟨s, .tree s g.adjacency r, e2,
          by simp [apsInstance, hs, hg, bind, Except.bind, e1, pure, Except.pure, hr], by simp [ApsHas]⟩
  refine ⟨main, fun w hw => ?_, fun draw hd => ?_⟩
  · have e : sm.instance w = .error .valueError := if_pos hw
    simp only [apsInstance, hs, bind, Except.bind, Option.getD_some, e]
  · obtain ⟨s, r, h1, h2, h3⟩ := main (draw sm.nActive) (le_of_eq (hd _))
    exact ⟨s, r, h1, by simp only [apsRandom, hs, bind, Except.bind, h2], h3⟩

/-! ### A case that meets the hypotheses -/

/-- Images are numbers, frames are numbers; a frame remembers the patch size. -/
def countOps : Ops (Fin 2 → ℝ) Nat Nat where
  frame _ := .ok 0
  patchFrame _ p := .ok (p.1 * p.2)
  source _ := .ok 0
  warp im _ fr := .ok (im + fr)

/-- Two scales with one and two modes. -/
noncomputable def twoShapes : List (EigModel (Fin 2)) :=
  [⟨0, [(1, 1)]⟩, ⟨1, [(4, fun i => i), (1, 1)]⟩]

example : Renderable countOps ∧
    (∀ i : Int, i = 0 ∨ i = -1 → (∃ sm, Result.pyGet twoShapes i = .ok sm ∧ 1 ≤ sm.nActive) ∧
      (∃ t, Result.pyGet [7, 8] i = .ok t) ∧ ∃ p, Result.pyGet [(3, 3), (5, 5)] i = .ok p) ∧
    (∃ g, Result.pyGet [(⟨[(0, 1)], some 0⟩ : Graph), ⟨[], none⟩] 0 = .ok g ∧ g.root = some 0) := by
  refine ⟨⟨fun _ => ⟨_, rfl⟩, fun _ _ => ⟨_, rfl⟩, fun _ => ⟨_, rfl⟩⟩, ?_, ?_⟩
  · rintro i (rfl | rfl)
    · exact ⟨⟨⟨0, [(1, 1)]⟩, rfl, by simp [EigModel.nActive]⟩, ⟨7, rfl⟩, ⟨(3, 3), rfl⟩⟩
    · exact ⟨⟨⟨1, [(4, fun i => i), (1, 1)]⟩, rfl, by simp [EigModel.nActive]⟩, ⟨8, rfl⟩, ⟨(5, 5), rfl⟩⟩
  · exact ⟨⟨[(0, 1)], some 0⟩, rfl, rfl⟩

end Menpofit
