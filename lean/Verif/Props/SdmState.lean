import Verif.Lemmas.SdmState
import Verif.Lemmas.ModelInstanceState
import Mathlib.Algebra.Order.Ring.Rat
import Mathlib.Logic.Relation
/-!
# C100, C101: supervised descent algorithm objects
-/

namespace Menpofit
open Sdm SdmState Spec

variable {σ A V W Row Reg I : Type} [AddCommGroup W]

/-- C100: training (or incrementing) an object is the cascade of C52 and C88 for the description of
shapes and the features given by the models of the object, or by the models built from the training
data if the object has none.  This also holds with progress printed, as long as the error function
does not raise. -/
theorem C100_cascade (cls : Cls σ A V W Row Reg I) (a : Alg σ A Reg) (ims : List I) (gts : List V)
    (Inv : σ → Prop) (co : Coord V W) (f : I → V → Row) (hd : DescribedBy cls a gts Inv co)
    (hf : FeaturesAre cls a ims gts Inv f) (verbose : Option (V → V → V → Except PyErr Unit))
    (hv : ∀ err, verbose = some err → ∀ x y z, err x y z = .ok ()) (junk : Nat → W)
    (increment : Bool) (cur : List (List V)) (h1 : ims.length = cur.length)
    (h2 : gts.length = cur.length) (c : Nat) (hc : ∀ ss ∈ cur, ss.length = c) :
    (trainAlg cls verbose junk increment a ims gts cur).2 =
      (train cls.reg co f junk cls.nIterations increment a.regressors ims gts cur).map
        (fun r => r.2.1) ∧
    ∀ r, train cls.reg co f junk cls.nIterations increment a.regressors ims gts cur = .ok r →
      (trainAlg cls verbose junk increment a ims gts cur).1.regressors = r.1 := by
  obtain ⟨k1, k2⟩ := trainAlg_eq hd hf hv junk increment cur h1 h2 hc
  cases h : train cls.reg co f junk cls.nIterations increment a.regressors ims gts cur with
  | error e =>
    obtain ⟨a', e'⟩ := k1 e h
    exact ⟨by rw [e']; rfl, fun r hr => by cases hr⟩
  | ok r =>
    obtain ⟨a', e', k, -⟩ := k2 r h
    refine ⟨by rw [e']; rfl, fun r' hr => ?_⟩
    injection hr with hr
    subst hr
    rw [e']
    exact k.regs

/-- C100: printing the training error does not change the outcome of a training, although it
changes the parameters of the shape model on the way. -/
theorem C100_verbose (cls : Cls σ A V W Row Reg I) (a : Alg σ A Reg) (ims : List I) (gts : List V)
    (Inv : σ → Prop) (co : Coord V W) (f : I → V → Row) (hd : DescribedBy cls a gts Inv co)
    (hf : FeaturesAre cls a ims gts Inv f) (err : V → V → V → Except PyErr Unit)
    (hv : ∀ x y z, err x y z = .ok ()) (junk : Nat → W)
    (increment : Bool) (cur : List (List V)) (h1 : ims.length = cur.length)
    (h2 : gts.length = cur.length) (c : Nat) (hc : ∀ ss ∈ cur, ss.length = c) :
    (trainAlg cls (some err) junk increment a ims gts cur).2 =
      (trainAlg cls none junk increment a ims gts cur).2 ∧
    ((trainAlg cls none junk increment a ims gts cur).2.isOk →
      (trainAlg cls (some err) junk increment a ims gts cur).1.regressors =
        (trainAlg cls none junk increment a ims gts cur).1.regressors) := by
  obtain ⟨e1, e2⟩ := C100_cascade cls a ims gts Inv co f hd hf (some err)
    (by rintro _ ⟨⟩; exact hv) junk increment cur h1 h2 c hc
  obtain ⟨e3, e4⟩ := C100_cascade cls a ims gts Inv co f hd hf none
    (by rintro _ ⟨⟩) junk increment cur h1 h2 c hc
  refine ⟨by rw [e1, e3], fun h => ?_⟩
  rw [e3] at h
  cases ht : train cls.reg co f junk cls.nIterations increment a.regressors ims gts cur with
  | error e => rw [ht] at h; cases h
  | ok r => rw [e2 r ht, e4 r ht]

/-- C100: training again gives what training another object gives, provided both objects describe
shapes in the same way and use the same features.  In particular the regressors of an earlier
training do not matter.  (Missing: objects that hold models of an earlier training, see
`C100_retrain_violated`.) -/
theorem C100_retrain_partial (cls : Cls σ A V W Row Reg I) (a b : Alg σ A Reg) (ims : List I)
    (gts : List V) (Inv : σ → Prop) (co : Coord V W) (f : I → V → Row)
    (hda : DescribedBy cls a gts Inv co) (hfa : FeaturesAre cls a ims gts Inv f)
    (hdb : DescribedBy cls b gts Inv co) (hfb : FeaturesAre cls b ims gts Inv f)
    (verbose : Option (V → V → V → Except PyErr Unit))
    (hv : ∀ err, verbose = some err → ∀ x y z, err x y z = .ok ()) (junk : Nat → W)
    (cur : List (List V)) (h1 : ims.length = cur.length)
    (h2 : gts.length = cur.length) (c : Nat) (hc : ∀ ss ∈ cur, ss.length = c) :
    (trainAlg cls verbose junk false a ims gts cur).2 =
      (trainAlg cls verbose junk false b ims gts cur).2 ∧
    ((trainAlg cls verbose junk false a ims gts cur).2.isOk →
      (trainAlg cls verbose junk false a ims gts cur).1.regressors =
        (trainAlg cls verbose junk false b ims gts cur).1.regressors) := by
  obtain ⟨e1, e2⟩ := C100_cascade cls a ims gts Inv co f hda hfa verbose hv junk false cur h1 h2 c hc
  obtain ⟨e3, e4⟩ := C100_cascade cls b ims gts Inv co f hdb hfb verbose hv junk false cur h1 h2 c hc
  have e : train cls.reg co f junk cls.nIterations false a.regressors ims gts cur =
      train cls.reg co f junk cls.nIterations false b.regressors ims gts cur := by simp [train]
  rw [e] at e1 e2
  refine ⟨by rw [e1, e3], fun h => ?_⟩
  rw [e1] at h
  cases ht : train cls.reg co f junk cls.nIterations false b.regressors ims gts cur with
  | error x => rw [ht] at h; cases h
  | ok r => rw [e2 r ht, e4 r ht]

/-- C100: a class without models gives the same outcome on an object in any state as on a new
one. -/
theorem C100_nonparametric (co : Coord V W) (patch : I → V → Row) (reg : RegOps Row W Reg)
    (n : Nat) (a : Alg σ A Reg) (ims : List I) (gts : List V) (junk : Nat → W)
    (cur : List (List V)) (h1 : ims.length = cur.length)
    (h2 : gts.length = cur.length) (c : Nat) (hc : ∀ ss ∈ cur, ss.length = c) :
    (trainAlg ⟨.direct co, .patches patch, reg, n⟩ none junk false a ims gts cur).2 =
      (trainAlg ⟨.direct co, .patches patch, reg, n⟩ none junk false
        (newAlg none : Alg σ A Reg) ims gts cur).2 ∧
    ((trainAlg ⟨.direct co, .patches patch, reg, n⟩ none junk false a ims gts cur).2.isOk →
      (trainAlg ⟨.direct co, .patches patch, reg, n⟩ none junk false a ims gts cur).1.regressors =
        (trainAlg ⟨.direct co, .patches patch, reg, n⟩ none junk false
          (newAlg none : Alg σ A Reg) ims gts cur).1.regressors) :=
  C100_retrain_partial (σ := σ) (A := A) ⟨.direct co, .patches patch, reg, n⟩ a (newAlg none) ims gts
    (fun _ => True) co patch rfl rfl rfl rfl none (by rintro _ ⟨⟩) junk cur h1 h2 c hc

/-- C100: after a successful training of at least one iteration the object can be used, with the
description of shapes and the features it was trained with; so increments and fits use those. -/
theorem C100_ready (cls : Cls σ A V W Row Reg I) (a : Alg σ A Reg) (ims : List I) (gts : List V)
    (Inv : σ → Prop) (co : Coord V W) (f : I → V → Row) (hd : DescribedBy cls a gts Inv co)
    (hf : FeaturesAre cls a ims gts Inv f) (verbose : Option (V → V → V → Except PyErr Unit))
    (hv : ∀ err, verbose = some err → ∀ x y z, err x y z = .ok ()) (junk : Nat → W)
    (increment : Bool) (cur : List (List V)) (h1 : ims.length = cur.length)
    (h2 : gts.length = cur.length) (c : Nat) (hc : ∀ ss ∈ cur, ss.length = c)
    (hn : 0 < cls.nIterations)
    (hok : (trainAlg cls verbose junk increment a ims gts cur).2.isOk) :
    Usable cls Inv co f (trainAlg cls verbose junk increment a ims gts cur).1 := by
  obtain ⟨k1, k2⟩ := trainAlg_eq hd hf hv junk increment cur h1 h2 hc
  cases h : train cls.reg co f junk cls.nIterations increment a.regressors ims gts cur with
  | error e =>
    obtain ⟨a', e'⟩ := k1 e h
    rw [e'] at hok
    cases hok
  | ok r =>
    obtain ⟨a', e', k, s⟩ := k2 r h
    rw [e']
    exact ready_of_keeps hd.describes k (s hn)

/-- C100: when a training raises, no regressor of an earlier training is left, and there are at most
as many as iterations.  (Missing: that the object is then untrained, see
`C100_failed_violated`.) -/
theorem C100_failed_partial (cls : Cls σ A V W Row Reg I)
    (verbose : Option (V → V → V → Except PyErr Unit)) (junk : Nat → W) (a : Alg σ A Reg)
    (ims : List I) (gts : List V) (cur : List (List V)) :
    (trainAlg cls verbose junk false a ims gts cur).1.regressors.length ≤ cls.nIterations ∧
    ∀ r ∈ (trainAlg cls verbose junk false a ims gts cur).1.regressors,
      ∃ features delta, cls.reg.train features delta = .ok r := by
  unfold trainAlg
  simp only [Bool.false_eq_true, false_and, if_false]
  split
  · rename_i first rest g gs
    have t := computeDeltaX_regs (cls := cls) junk { a with regressors := [] } (g :: gs)
      (first :: rest)
    split
    · rename_i heq
      rw [heq] at t
      simp only at t
      rw [t]
      simp
    · rename_i a1 d heq
      rw [heq] at t
      simp only at t
      obtain ⟨new, n1, n2, n3⟩ := cascadeLoop_regs (cls := cls) (verbose := verbose)
        (nPert := first.length) (ims := ims) (gts := g :: gs) (gt := d.2) cls.nIterations 0 a1 d.1
        (first :: rest)
      rw [n1, t, List.nil_append]
      exact ⟨n2, n3⟩
  · simp

/-! ### Witnesses -/

/-- A shape model of numbers: a shape is its parameter times the unit, which the model takes from
the first training shape. -/
def unitOps : ModelOps (ℚ × ℚ) ℚ ℚ :=
  ⟨fun s v => (s.1, v / s.1), fun s => s.2, fun s w => (s.1, w), fun s => s.1 * s.2⟩

/-- Building the model of a list of numbers. -/
def unitBuild : List ℚ → Except PyErr (ℚ × ℚ)
  | u :: _ => if u = 0 then .error .valueError else .ok (u, 0)
  | [] => .error .indexError

theorem unit_behaves (u : ℚ) (hu : u ≠ 0) :
    Behaves unitOps (fun s => s.1 = u) ⟨fun v => v / u, fun w => u * w⟩ := by
  refine ⟨fun s v h => h, fun s w h => h, ?_, ?_, fun s w h => rfl, ?_⟩
  · rintro s v rfl; rfl
  · rintro s v rfl; rfl
  · rintro s w rfl; rfl

/-- A parametric shape class with such a shape model. -/
def unitCls (n : Nat) : Cls (ℚ × ℚ) Unit ℚ ℚ ℚ ℚ ℚ :=
  ⟨.model unitOps unitBuild, .patches fun i s => i * s,
    ⟨fun _ t => .ok (t.sum / (2 * t.length)), fun r _ t => .ok (r + t.sum / (2 * t.length)),
      fun r rows => rows.map fun _ => r⟩, n⟩

/-- C100 fails for objects that hold a shape model: an object of a parametric class that is trained
on one set of images and then on another keeps the shape model of the first set, and its
regressors are not those a new object gets. -/
theorem C100_retrain_violated :
    ¬ ∀ (ims ims' : List ℚ) (gts gts' : List ℚ) (cur cur' : List (List ℚ)),
      (trainAlg (unitCls 1) none (fun _ => 0) false (newAlg none) ims gts cur).2.isOk →
      (trainAlg (unitCls 1) none (fun _ => 0) false
        (trainAlg (unitCls 1) none (fun _ => 0) false (newAlg none) ims gts cur).1
        ims' gts' cur').1.regressors =
      (trainAlg (unitCls 1) none (fun _ => 0) false (newAlg none) ims' gts' cur').1.regressors := by
  intro h
  have := h [1] [1] [1] [2] [[3]] [[4]] (by decide +kernel)
  revert this
  decide +kernel

/-- C100: a training that raises in the second stage leaves an object with one regressor, which fits
with it as if it had been trained. -/
theorem C100_failed_violated :
    ¬ ∀ (reg : RegOps ℚ ℚ ℚ) (ims gts : List ℚ) (cur : List (List ℚ)),
      (trainAlg (⟨.direct (plain ℚ), .patches fun i s => i * s, reg, 2⟩ :
        Cls Unit Unit ℚ ℚ ℚ ℚ ℚ) none (fun _ => 0) false (newAlg none) ims gts cur).2 =
          .error .linAlgError →
      (trainAlg (⟨.direct (plain ℚ), .patches fun i s => i * s, reg, 2⟩ :
        Cls Unit Unit ℚ ℚ ℚ ℚ ℚ) none (fun _ => 0) false (newAlg none) ims gts cur).1.regressors =
          [] := by
  intro h
  have := h ⟨fun rows t => if rows.sum = 0 then .error .linAlgError else .ok t.sum,
    fun r _ _ => .ok r, fun r rows => rows.map fun _ => r⟩ [1] [0] [[1]] (by decide +kernel)
  revert this
  decide +kernel

/-! ### C101 -/

/-- C101: the shapes and parameters of a fit by a parametric algorithm only depend on the
regressors, the description of shapes, the features, the image and the initial shape: they are
those of C88.  The object can be used again afterwards, with the same regressors. -/
theorem C101_parametric (cls : Cls σ A V W Row Reg I) (ops : ModelOps σ V W)
    (build : List V → Except PyErr σ) (hm : cls.coords = .model ops build)
    (hw : ∀ set row, cls.feat ≠ .warped set row) (Inv : σ → Prop) (co : Coord V W)
    (f : I → V → Row) (a : Alg σ A Reg) (h : Usable cls Inv co f a) (im : I) (init : V) :
    (fitParam cls ops a im init).map (fun x => x.2.1) =
      fitParamShapes cls.reg co f im a.regressors init ∧
    (∀ x, fitParam cls ops a im init = .ok x → Usable cls Inv co f x.1 ∧
      x.1.regressors = a.regressors ∧ x.2.2.map co.inst = co.inst (co.proj init) :: x.2.1 ∧
      x.2.2.head? = some (co.proj init)) := by
  obtain ⟨hd, hk, hs⟩ := ready_keeps h
  obtain ⟨s, e, hi⟩ := holds_some hm hk.holds
  have hb := describes_model hm hd
  have hi' : Inv (ops.setTarget s init) := hb.keepSet s init hi
  obtain ⟨k1, k2⟩ := fitLoop_eq hm hw hd im a.regressors
    { a with shapeModel := some (ops.setTarget s init) } (ops.setTarget s init)
    (keeps_setModel hk hi') (by unfold Seen at hs ⊢; exact hs) rfl hi'
  rw [hb.proj s init hi] at k1 k2
  simp only [fitParam, e, hb.shown s init hi, hb.proj s init hi, fitParamShapes]
  cases hq : Result.cascade (fitParamStep cls.reg co f im) (co.proj init) a.regressors with
  | error x =>
    rw [k1 x hq]
    exact ⟨rfl, fun x hx => by simp [bind, Except.bind] at hx⟩
  | ok ps =>
    obtain ⟨a', e', q1, q2⟩ := k2 ps hq
    rw [e']
    refine ⟨rfl, fun x hx => ?_⟩
    simp only [bind, Except.bind, pure, Except.pure, Except.ok.injEq] at hx
    subst hx
    exact ⟨ready_of_keeps hd q1 q2, q1.regs, rfl, rfl⟩

/-- C101 for the AAM algorithms, whose features are those of the image warped with the
transform. -/
theorem C101_aam (cls : Cls σ A V W Row Reg I) (ops : ModelOps σ V W)
    (build : List V → Except PyErr σ) (hm : cls.coords = .model ops build)
    (Inv : σ → Prop) (co : Coord V W)
    (f : I → V → Row) (a : Alg σ A Reg) (h : Usable cls Inv co f a) (im : I) (init : V) :
    (fitAam cls ops a im init).map (fun x => x.2.1) =
      (fitParamShapes cls.reg co f im a.regressors init).map
        (fun shapes => co.inst (co.proj init) :: shapes) ∧
    (∀ x, fitAam cls ops a im init = .ok x → Usable cls Inv co f x.1 ∧
      x.1.regressors = a.regressors ∧ x.2.2.map co.inst = x.2.1 ∧
      x.2.2.head? = some (co.proj init)) := by
  obtain ⟨hd, hk, hs⟩ := ready_keeps h
  obtain ⟨s, e, hi⟩ := holds_some hm hk.holds
  have hb := describes_model hm hd
  have hi' : Inv (ops.setTarget s init) := hb.keepSet s init hi
  obtain ⟨k1, k2⟩ := aamLoop_eq hm hd im a.regressors
    { a with shapeModel := some (ops.setTarget s init) } (ops.setTarget s init) (co.proj init)
    (keeps_setModel hk hi') (by unfold Seen at hs ⊢; exact hs) rfl hi' (hb.shown s init hi)
  simp only [fitAam, e, hb.shown s init hi, hb.proj s init hi, fitParamShapes]
  cases hq : Result.cascade (fitParamStep cls.reg co f im) (co.proj init) a.regressors with
  | error x =>
    rw [k1 x hq]
    exact ⟨rfl, fun x hx => by simp [bind, Except.bind] at hx⟩
  | ok ps =>
    obtain ⟨a', e', q1, q2⟩ := k2 ps hq
    rw [e']
    refine ⟨rfl, fun x hx => ?_⟩
    simp only [bind, Except.bind, pure, Except.pure, Except.ok.injEq] at hx
    subst hx
    exact ⟨ready_of_keeps hd q1 q2, q1.regs, rfl, rfl⟩

/-- The shapes and the parameters of a fit, as a function of what does not change. -/
theorem fitParam_snd (cls : Cls σ A V W Row Reg I) (ops : ModelOps σ V W)
    (build : List V → Except PyErr σ) (hm : cls.coords = .model ops build)
    (hw : ∀ set row, cls.feat ≠ .warped set row) (Inv : σ → Prop) (co : Coord V W)
    (f : I → V → Row) (a : Alg σ A Reg) (h : Usable cls Inv co f a) (im : I) (init : V) :
    (fitParam cls ops a im init).map Prod.snd =
      (Result.cascade (fitParamStep cls.reg co f im) (co.proj init) a.regressors).map
        (fun ps => (ps.map co.inst, co.proj init :: ps)) := by
  obtain ⟨hd, hk, hs⟩ := ready_keeps h
  obtain ⟨s, e, hi⟩ := holds_some hm hk.holds
  have hb := describes_model hm hd
  have hi' : Inv (ops.setTarget s init) := hb.keepSet s init hi
  obtain ⟨k1, k2⟩ := fitLoop_eq hm hw hd im a.regressors
    { a with shapeModel := some (ops.setTarget s init) } (ops.setTarget s init)
    (keeps_setModel hk hi') (by unfold Seen at hs ⊢; exact hs) rfl hi'
  rw [hb.proj s init hi] at k1 k2
  simp only [fitParam, e, hb.shown s init hi, hb.proj s init hi]
  cases hq : Result.cascade (fitParamStep cls.reg co f im) (co.proj init) a.regressors with
  | error x => rw [k1 x hq]; rfl
  | ok ps =>
    obtain ⟨a', e', -, -⟩ := k2 ps hq
    rw [e']
    rfl

theorem fitAam_snd (cls : Cls σ A V W Row Reg I) (ops : ModelOps σ V W)
    (build : List V → Except PyErr σ) (hm : cls.coords = .model ops build)
    (Inv : σ → Prop) (co : Coord V W)
    (f : I → V → Row) (a : Alg σ A Reg) (h : Usable cls Inv co f a) (im : I) (init : V) :
    (fitAam cls ops a im init).map Prod.snd =
      (Result.cascade (fitParamStep cls.reg co f im) (co.proj init) a.regressors).map
        (fun ps => (co.inst (co.proj init) :: ps.map co.inst, co.proj init :: ps)) := by
  obtain ⟨hd, hk, hs⟩ := ready_keeps h
  obtain ⟨s, e, hi⟩ := holds_some hm hk.holds
  have hb := describes_model hm hd
  have hi' : Inv (ops.setTarget s init) := hb.keepSet s init hi
  obtain ⟨k1, k2⟩ := aamLoop_eq hm hd im a.regressors
    { a with shapeModel := some (ops.setTarget s init) } (ops.setTarget s init) (co.proj init)
    (keeps_setModel hk hi') (by unfold Seen at hs ⊢; exact hs) rfl hi' (hb.shown s init hi)
  simp only [fitAam, e, hb.shown s init hi, hb.proj s init hi]
  cases hq : Result.cascade (fitParamStep cls.reg co f im) (co.proj init) a.regressors with
  | error x => rw [k1 x hq]; rfl
  | ok ps =>
    obtain ⟨a', e', -, -⟩ := k2 ps hq
    rw [e']
    rfl

/-- C101: after any sequence of fits, a parametric or AAM algorithm gives for every image and
initial shape what it gave before them. -/
theorem C101_repeatable (cls : Cls σ A V W Row Reg I) (ops : ModelOps σ V W)
    (build : List V → Except PyErr σ) (hm : cls.coords = .model ops build)
    (Inv : σ → Prop) (co : Coord V W) (f : I → V → Row) (a : Alg σ A Reg)
    (h : Usable cls Inv co f a) :
    ((∀ set row, cls.feat ≠ .warped set row) → ∀ b,
      Relation.ReflTransGen (fun x y => ∃ im v r, fitParam cls ops x im v = .ok (y, r)) a b →
      ∀ im v, (fitParam cls ops b im v).map Prod.snd = (fitParam cls ops a im v).map Prod.snd) ∧
    (∀ b, Relation.ReflTransGen (fun x y => ∃ im v r, fitAam cls ops x im v = .ok (y, r)) a b →
      ∀ im v, (fitAam cls ops b im v).map Prod.snd = (fitAam cls ops a im v).map Prod.snd) := by
  refine ⟨fun hw b hb => ?_, fun b hb => ?_⟩
  · have key : Usable cls Inv co f b ∧ b.regressors = a.regressors := by
      induction hb with
      | refl => exact ⟨h, rfl⟩
      | tail _ st ih =>
        obtain ⟨im, v, r, e⟩ := st
        obtain ⟨-, k⟩ := C101_parametric cls ops build hm hw Inv co f _ ih.1 im v
        obtain ⟨k1, k2, -⟩ := k _ e
        exact ⟨k1, k2.trans ih.2⟩
    intro im v
    rw [fitParam_snd cls ops build hm hw Inv co f b key.1, key.2,
      fitParam_snd cls ops build hm hw Inv co f a h]
  · have key : Usable cls Inv co f b ∧ b.regressors = a.regressors := by
      induction hb with
      | refl => exact ⟨h, rfl⟩
      | tail _ st ih =>
        obtain ⟨im, v, r, e⟩ := st
        obtain ⟨-, k⟩ := C101_aam cls ops build hm Inv co f _ ih.1 im v
        obtain ⟨k1, k2, -⟩ := k _ e
        exact ⟨k1, k2.trans ih.2⟩
    intro im v
    rw [fitAam_snd cls ops build hm Inv co f b key.1, key.2,
      fitAam_snd cls ops build hm Inv co f a h]

/-! ### The orthogonal point distribution model -/

/-- An `OrthoPDM` with `k` active components in use (`/repo/menpofit/modelinstance.py:116-140`,
`:162-180` and `:516-534`). -/
noncomputable def orthoOps (n k : Nat) : ModelOps (MI.OPdm n) (MI.Pts n 2) (Fin (4 + k) → ℝ) where
  setTarget p v := (MI.oSetTarget p ⟨n, 2, v⟩).1
  asVector p := fun i => (MI.oAsVector p).getD i 0
  fromVector p w := match MI.oFromVector p (List.ofFn w) with
    | .ok q => q
    | .error _ => p
  target := MI.OPdm.target

/-- The part of an `OrthoPDM` that fitting does not change. -/
def SameModel {n : Nat} (p q : MI.OPdm n) : Prop :=
  q.model = p.model ∧ q.simMean = p.simMean ∧ q.simComps = p.simComps ∧ q.source = p.source

/-- C101: the default shape model meets the hypothesis of the theorems above: an `OrthoPDM` has no
memory of earlier targets and parameters. -/
theorem C101_orthopdm {n k : Nat} (p : MI.OPdm n) (h4 : p.simComps.length = 4)
    (hk : p.model.active.length = k) :
    Behaves (orthoOps n k) (SameModel p)
      ⟨fun v => (orthoOps n k).asVector ((orthoOps n k).setTarget p v),
        fun w => ((orthoOps n k).fromVector p w).target⟩ := by
  have hset : ∀ q, SameModel p q → ∀ v, (orthoOps n k).setTarget q v =
      (orthoOps n k).setTarget p v := by
    rintro ⟨m, w, t, sm, sc, sw, so, g⟩ ⟨rfl, rfl, rfl, rfl⟩ v
    simp only [orthoOps, MI.oSetTarget, MI.cloud_fit, MI.oSyncState_eq]
  have hvec : ∀ q, SameModel p q → ∀ w : Fin (4 + k) → ℝ, ∃ r,
      MI.oFromVector q (List.ofFn w) = .ok r ∧ MI.oFromVector p (List.ofFn w) = .ok r ∧
      SameModel p r ∧ MI.oAsVector r = List.ofFn w := by
    rintro ⟨m, w', t, sm, sc, sw, so, g⟩ ⟨rfl, rfl, rfl, rfl⟩ w
    have e1 : MI.instanceOf p.simMean p.simComps ((List.ofFn w).take 4) =
        .ok (p.simMean + MI.combine ((List.ofFn w).take 4) p.simComps) := by
      rw [MI.instanceOf_ok]; refine ⟨?_, rfl⟩; simp [h4]
    have e2 : p.model.inst ((List.ofFn w).drop 4) =
        .ok (p.model.mean + MI.combine ((List.ofFn w).drop 4) p.model.active) := by
      rw [MI.Pca.inst, MI.instanceOf_ok]; refine ⟨?_, rfl⟩; simp [hk]
    refine ⟨⟨p.model, (List.ofFn w).drop 4,
      (MI.procrustes p.source (p.simMean + MI.combine ((List.ofFn w).take 4) p.simComps)).apply
        (p.model.mean + MI.combine ((List.ofFn w).drop 4) p.model.active), p.simMean, p.simComps,
      (List.ofFn w).take 4, p.source,
      MI.procrustes p.source (p.simMean + MI.combine ((List.ofFn w).take 4) p.simComps)⟩,
      by simp only [MI.oFromVector, MI.oUpdateGlobalWeights, e1, bind, Except.bind,
        MI.oTargetOf, e2, Except.map],
      by simp only [MI.oFromVector, MI.oUpdateGlobalWeights, e1, bind, Except.bind, MI.oTargetOf,
        e2, Except.map], ⟨rfl, rfl, rfl, rfl⟩, by simp [MI.oAsVector]⟩
  have hkeep : ∀ v, SameModel p ((orthoOps n k).setTarget p v) := by
    intro v
    simp only [orthoOps, MI.oSetTarget, MI.cloud_fit, MI.oSyncState_eq]
    exact ⟨rfl, rfl, rfl, rfl⟩
  have hfrom : ∀ q, SameModel p q → ∀ w, (orthoOps n k).fromVector q w =
      (orthoOps n k).fromVector p w ∧ SameModel p ((orthoOps n k).fromVector p w) ∧
      (orthoOps n k).asVector ((orthoOps n k).fromVector p w) = w := by
    intro q hq w
    obtain ⟨r, r1, r2, r3, r4⟩ := hvec q hq w
    simp only [orthoOps, r1, r2, r4]
    refine ⟨trivial, r3, ?_⟩
    funext i
    simp [List.getD_eq_getElem?_getD]
  refine ⟨fun q v hq => ?_, fun q w hq => ?_, fun q v hq => ?_, fun q v hq => ?_,
    fun q w hq => ?_, fun q w hq => ?_⟩
  · rw [hset q hq]; exact hkeep v
  · rw [(hfrom q hq w).1]; exact (hfrom q hq w).2.1
  · rw [hset q hq]
  · rw [hset q hq]
    have hi : MI.OInv ((orthoOps n k).setTarget p v) := by
      simp only [orthoOps, MI.oSetTarget, MI.cloud_fit]
      exact MI.oSyncState_inv _ h4
    have hl : (MI.oAsVector ((orthoOps n k).setTarget p v)).length = 4 + k := by
      simp only [orthoOps, MI.oSetTarget, MI.cloud_fit, MI.oSyncState_eq, MI.oAsVector]
      simp [MI.Pca.project, MI.projectOn, h4, hk]
    have e : List.ofFn (fun i : Fin (4 + k) =>
        (MI.oAsVector ((orthoOps n k).setTarget p v)).getD i 0) =
        MI.oAsVector ((orthoOps n k).setTarget p v) := by
      apply List.ext_getElem
      · simp [hl]
      · intro i h1 h2
        simp [List.getD_eq_getElem?_getD, List.getElem?_eq_getElem h2]
    obtain ⟨r, r1, r2, -, -⟩ := hvec _ (hkeep v) ((orthoOps n k).asVector
      ((orthoOps n k).setTarget p v))
    have e' : List.ofFn ((orthoOps n k).asVector ((orthoOps n k).setTarget p v)) =
        MI.oAsVector ((orthoOps n k).setTarget p v) := e
    have r3 := r1
    rw [e', MI.opdm_roundtrip hi] at r3
    injection r3 with r3
    change _ = ((orthoOps n k).fromVector p _).target
    have : (orthoOps n k).fromVector p ((orthoOps n k).asVector ((orthoOps n k).setTarget p v)) = r := by
      simp only [orthoOps] at r2 ⊢
      rw [r2]
    rw [this, ← r3]
    rfl
  · rw [(hfrom q hq w).1]; exact (hfrom q hq w).2.2
  · rw [(hfrom q hq w).1]; rfl

/-! ### The hypotheses are met -/

example : DescribedBy (unitCls 2) (newAlg none) [2, 3] (fun s => s.1 = 2)
    ⟨fun v => v / 2, fun w => 2 * w⟩ :=
  ⟨unit_behaves 2 (by norm_num), (2, 0), rfl, rfl⟩

example : FeaturesAre (unitCls 2) (newAlg none) [10, 20] [2, 3] (fun s => s.1 = 2)
    (fun i s => i * s) := rfl

/-- Two images with two shapes each, two iterations: quiet and verbose training. -/
example : (trainAlg (unitCls 2) none (fun _ => 0) false (newAlg none) [10, 20] [2, 3]
      [[0, 1], [2, 4]]).1.regressors = [3/16, 3/32] ∧
    (trainAlg (unitCls 2) (some fun _ _ _ => .ok ()) (fun _ => 0) false (newAlg none) [10, 20] [2, 3]
      [[0, 1], [2, 4]]).1.regressors = [3/16, 3/32] ∧
    (trainAlg (unitCls 2) none (fun _ => 0) false (newAlg none) [10, 20] [2, 3]
      [[0, 1], [2, 4]]).2 = .ok [[9/16, 25/16], [41/16, 73/16]] := by
  decide +kernel

/-- An appearance model: the mean of the ground truth patches, which is subtracted. -/
def meanCls (n : Nat) : Cls (ℚ × ℚ) ℚ ℚ ℚ ℚ ℚ ℚ :=
  ⟨.model unitOps unitBuild, .appearance (fun i s => i * s) (fun l => .ok (l.sum / l.length))
    (fun m x => x - m), (unitCls n).reg, n⟩

example : FeaturesAre (meanCls 2) (newAlg none) [10, 20] [2, 3] (fun s => s.1 = 2)
    (fun i s => i * s - 40) := by
  refine ⟨40, ?_, rfl⟩
  simp only [newAlg]
  norm_num

example : Usable (meanCls 2) (fun s => s.1 = 2) ⟨fun v => v / 2, fun w => 2 * w⟩
    (fun i s => i * s - 40) ⟨[3/16, 3/32], some (2, 5), some 40⟩ :=
  ⟨⟨unit_behaves 2 (by norm_num), _, rfl, rfl⟩, _, rfl, rfl⟩

/-- An AAM class: the feature is the image times the target of the transform. -/
def warpCls (n : Nat) : Cls (ℚ × ℚ) Unit ℚ ℚ ℚ ℚ ℚ :=
  ⟨.model unitOps unitBuild, .warped unitOps.setTarget fun s i => i * (s.1 * s.2),
    ⟨fun _ t => .ok (t.sum / t.length), fun r _ _ => .ok r,
      fun r rows => rows.map fun x => r + x⟩, n⟩

example : Usable (warpCls 2) (fun s => s.1 = 2) ⟨fun v => v / 2, fun w => 2 * w⟩
    (fun i s => i * s) ⟨[1, 2], some (2, 5), none⟩ := by
  refine ⟨⟨unit_behaves 2 (by norm_num), _, rfl, rfl⟩, ⟨_, _, rfl⟩, ?_⟩
  rintro s hs im v
  refine ⟨hs, ?_⟩
  simp only [unitOps, hs]
  ring

example : (fitAam (warpCls 2) unitOps ⟨[1, 2], some (2, 5), none⟩ 3 4).map (fun x => x.2) =
    .ok ([4, 30, 214], [2, 15, 107]) := by
  decide +kernel

end Menpofit
