import Verif.Spec.SdClasses
import Verif.Lemmas.SdmState
import Verif.Props.SdmState
/-!
# Helper lemmas for the supervised descent classes
-/

namespace Menpofit
namespace SdCls
open Sdm SdmState Spec

variable {K σ A V W Row T I Reg : Type}

theorem newton_spec [Zero K] (o : Opts K) (c : Class) (hc : documented c = ⟨true, false, false, false⟩) :
    (onlyDocumented c o → ∃ r, newton o = .ok r ∧ (∃ a b i, r = .irl a b i) ∧ honours r o ∧
      (isGaussNewton c = false → hasBias r = o.bias.getD true)) ∧
    (¬ onlyDocumented c o → newton o = .error .typeError) := by
  obtain ⟨a, a2, b, v, w, i⟩ := o
  unfold onlyDocumented isGaussNewton
  rw [hc]
  cases a <;> cases a2 <;> cases v <;> cases w <;> cases i <;>
    simp [newton, refused, honours, hasBias, SdCls.newIrl, SdCls.newIirl, bind, Except.bind, pure,
      Except.pure]

theorem gaussNewton_spec [Zero K] (o : Opts K) (c : Class) (hc : documented c = ⟨true, true, false, false⟩) :
    (onlyDocumented c o → ∃ r, gaussNewton o = .ok r ∧ (∃ a a2 b i, r = .iirl a a2 b i) ∧ honours r o ∧
      (isGaussNewton c = false → hasBias r = o.bias.getD true)) ∧
    (¬ onlyDocumented c o → gaussNewton o = .error .typeError) := by
  obtain ⟨a, a2, b, v, w, i⟩ := o
  unfold onlyDocumented isGaussNewton
  rw [hc]
  cases a <;> cases a2 <;> cases v <;> cases w <;> cases i <;>
    simp [gaussNewton, refused, honours, hasBias, SdCls.newIrl, SdCls.newIirl, bind, Except.bind, pure,
      Except.pure]

theorem pcr_spec [Zero K] (o : Opts K) (c : Class) (hc : documented c = ⟨false, false, true, false⟩) :
    (onlyDocumented c o → ∃ r, pcr o = .ok r ∧ (∃ v b, r = .pcr v b) ∧ honours r o ∧
      (isGaussNewton c = false → hasBias r = o.bias.getD true)) ∧
    (¬ onlyDocumented c o → pcr o = .error .typeError) := by
  obtain ⟨a, a2, b, v, w, i⟩ := o
  unfold onlyDocumented isGaussNewton
  rw [hc]
  cases a <;> cases a2 <;> cases v <;> cases w <;> cases i <;>
    simp [pcr, refused, honours, hasBias, SdCls.newIrl, SdCls.newIirl, bind, Except.bind, pure,
      Except.pure]

theorem optimal_spec [Zero K] (o : Opts K) (c : Class) (hc : documented c = ⟨false, false, true, false⟩) :
    (onlyDocumented c o → ∃ r, optimal o = .ok r ∧ (∃ v b, r = .optimal v b) ∧ honours r o ∧
      (isGaussNewton c = false → hasBias r = o.bias.getD true)) ∧
    (¬ onlyDocumented c o → optimal o = .error .typeError) := by
  obtain ⟨a, a2, b, v, w, i⟩ := o
  unfold onlyDocumented isGaussNewton
  rw [hc]
  cases a <;> cases a2 <;> cases v <;> cases w <;> cases i <;>
    simp [optimal, refused, honours, hasBias, SdCls.newIrl, SdCls.newIirl, bind, Except.bind, pure,
      Except.pure]

theorem opp_spec [Zero K] (o : Opts K) (c : Class) (hc : documented c = ⟨false, false, false, false⟩) :
    (onlyDocumented c o → ∃ r, opp o = .ok r ∧ (∃ b w, r = .opp b w) ∧ honours r o ∧
      (isGaussNewton c = false → hasBias r = o.bias.getD true)) ∧
    (¬ onlyDocumented c o → opp o = .error .typeError) := by
  obtain ⟨a, a2, b, v, w, i⟩ := o
  unfold onlyDocumented isGaussNewton
  rw [hc]
  cases a <;> cases a2 <;> cases v <;> cases w <;> cases i <;>
    simp [opp, refused, honours, hasBias, SdCls.newIrl, SdCls.newIirl, bind, Except.bind, pure,
      Except.pure]

theorem oppWhiten_spec [Zero K] (o : Opts K) (c : Class) (hc : documented c = ⟨false, false, false, true⟩) :
    (onlyDocumented c o → ∃ r, oppWhiten o = .ok r ∧ (∃ b w, r = .opp b w) ∧ honours r o ∧
      (isGaussNewton c = false → hasBias r = o.bias.getD true)) ∧
    (¬ onlyDocumented c o → oppWhiten o = .error .typeError) := by
  obtain ⟨a, a2, b, v, w, i⟩ := o
  unfold onlyDocumented isGaussNewton
  rw [hc]
  cases a <;> cases a2 <;> cases v <;> cases w <;> cases i <;>
    simp [oppWhiten, refused, honours, hasBias, bind, Except.bind, pure, Except.pure]
  rename_i w
  cases w <;> cases b.getD true <;> simp

theorem newton_named [Zero K] (o : Opts K) (c : Class) (hc : documented c = ⟨true, false, false, false⟩)
    (hb : construct c o = newton o) (hk : ∀ a b i, namedAfter c (.irl a b i : Regr K)) :
    (onlyDocumented c o → ∃ r, construct c o = .ok r ∧ namedAfter c r ∧ honours r o ∧
      (isGaussNewton c = false → hasBias r = o.bias.getD true)) ∧
    (¬ onlyDocumented c o → construct c o = .error .typeError) := by
  rw [hb]
  obtain ⟨h1, h2⟩ := newton_spec o c hc
  refine ⟨fun h => ?_, h2⟩
  obtain ⟨r, hr, ⟨a, b, i, rfl⟩, hh⟩ := h1 h
  exact ⟨_, hr, hk a b i, hh⟩

theorem gaussNewton_named [Zero K] (o : Opts K) (c : Class) (hc : documented c = ⟨true, true, false, false⟩)
    (hb : construct c o = gaussNewton o) (hk : ∀ a a2 b i, namedAfter c (.iirl a a2 b i : Regr K)) :
    (onlyDocumented c o → ∃ r, construct c o = .ok r ∧ namedAfter c r ∧ honours r o ∧
      (isGaussNewton c = false → hasBias r = o.bias.getD true)) ∧
    (¬ onlyDocumented c o → construct c o = .error .typeError) := by
  rw [hb]
  obtain ⟨h1, h2⟩ := gaussNewton_spec o c hc
  refine ⟨fun h => ?_, h2⟩
  obtain ⟨r, hr, ⟨a, a2, b, i, rfl⟩, hh⟩ := h1 h
  exact ⟨_, hr, hk a a2 b i, hh⟩

theorem pcr_named [Zero K] (o : Opts K) (c : Class) (hc : documented c = ⟨false, false, true, false⟩)
    (hb : construct c o = pcr o) (hk : ∀ v b, namedAfter c (.pcr v b : Regr K)) :
    (onlyDocumented c o → ∃ r, construct c o = .ok r ∧ namedAfter c r ∧ honours r o ∧
      (isGaussNewton c = false → hasBias r = o.bias.getD true)) ∧
    (¬ onlyDocumented c o → construct c o = .error .typeError) := by
  rw [hb]
  obtain ⟨h1, h2⟩ := pcr_spec o c hc
  refine ⟨fun h => ?_, h2⟩
  obtain ⟨r, hr, ⟨v, b, rfl⟩, hh⟩ := h1 h
  exact ⟨_, hr, hk v b, hh⟩

theorem optimal_named [Zero K] (o : Opts K) (c : Class) (hc : documented c = ⟨false, false, true, false⟩)
    (hb : construct c o = optimal o) (hk : ∀ v b, namedAfter c (.optimal v b : Regr K)) :
    (onlyDocumented c o → ∃ r, construct c o = .ok r ∧ namedAfter c r ∧ honours r o ∧
      (isGaussNewton c = false → hasBias r = o.bias.getD true)) ∧
    (¬ onlyDocumented c o → construct c o = .error .typeError) := by
  rw [hb]
  obtain ⟨h1, h2⟩ := optimal_spec o c hc
  refine ⟨fun h => ?_, h2⟩
  obtain ⟨r, hr, ⟨v, b, rfl⟩, hh⟩ := h1 h
  exact ⟨_, hr, hk v b, hh⟩

theorem opp_named [Zero K] (o : Opts K) (c : Class) (hc : documented c = ⟨false, false, false, false⟩)
    (hb : construct c o = opp o) (hk : ∀ b w, namedAfter c (.opp b w : Regr K)) :
    (onlyDocumented c o → ∃ r, construct c o = .ok r ∧ namedAfter c r ∧ honours r o ∧
      (isGaussNewton c = false → hasBias r = o.bias.getD true)) ∧
    (¬ onlyDocumented c o → construct c o = .error .typeError) := by
  rw [hb]
  obtain ⟨h1, h2⟩ := opp_spec o c hc
  refine ⟨fun h => ?_, h2⟩
  obtain ⟨r, hr, ⟨b, w, rfl⟩, hh⟩ := h1 h
  exact ⟨_, hr, hk b w, hh⟩

theorem oppWhiten_named [Zero K] (o : Opts K) (c : Class) (hc : documented c = ⟨false, false, false, true⟩)
    (hb : construct c o = oppWhiten o) (hk : ∀ b w, namedAfter c (.opp b w : Regr K)) :
    (onlyDocumented c o → ∃ r, construct c o = .ok r ∧ namedAfter c r ∧ honours r o ∧
      (isGaussNewton c = false → hasBias r = o.bias.getD true)) ∧
    (¬ onlyDocumented c o → construct c o = .error .typeError) := by
  rw [hb]
  obtain ⟨h1, h2⟩ := oppWhiten_spec o c hc
  refine ⟨fun h => ?_, h2⟩
  obtain ⟨r, hr, ⟨b, w, rfl⟩, hh⟩ := h1 h
  exact ⟨_, hr, hk b w, hh⟩

/-- No class creates incrementable regressors. -/
def notIncrementable : Regr K → Prop
  | .irl _ _ i => i = false
  | .iirl _ _ _ i => i = false
  | _ => True

theorem bind_unit_ok {B : Type} {x : Except PyErr Unit} {f : Unit → Except PyErr B} {b : B}
    (h : (x >>= f) = .ok b) : f () = .ok b := by
  cases x with
  | error e => cases h
  | ok u => exact h

theorem construct_kind [Zero K] (c : Class) (o : Opts K) (r : Regr K) (h : construct c o = .ok r) :
    notIncrementable r := by
  have hn : newton o = .ok r → notIncrementable r := fun h => by
    have h := bind_unit_ok (bind_unit_ok (bind_unit_ok (bind_unit_ok h)))
    injection h with h; rw [← h]; rfl
  have hg : gaussNewton o = .ok r → notIncrementable r := fun h => by
    have h := bind_unit_ok (bind_unit_ok (bind_unit_ok h))
    injection h with h; rw [← h]; rfl
  have hp : SdCls.pcr o = .ok r → notIncrementable r := fun h => by
    have h := bind_unit_ok (bind_unit_ok (bind_unit_ok (bind_unit_ok h)))
    injection h with h; rw [← h]; trivial
  have ho : SdCls.optimal o = .ok r → notIncrementable r := fun h => by
    have h := bind_unit_ok (bind_unit_ok (bind_unit_ok (bind_unit_ok h)))
    injection h with h; rw [← h]; trivial
  have hq : SdCls.opp o = .ok r → notIncrementable r := fun h => by
    have h := bind_unit_ok (bind_unit_ok (bind_unit_ok (bind_unit_ok (bind_unit_ok h))))
    injection h with h; rw [← h]; trivial
  have hw : oppWhiten o = .ok r → notIncrementable r := fun h => by
    have h := bind_unit_ok (bind_unit_ok (bind_unit_ok (bind_unit_ok h)))
    injection h with h; rw [← h]; trivial
  cases c <;> first | exact hn h | exact hg h | exact hp h | exact ho h | exact hq h | exact hw h

theorem testFeature_regs {cls : Cls σ A V W Row Reg I} {a : Alg σ A Reg} {im : I} {v : V}
    {t : Alg σ A Reg × Row} (ht : testFeature cls a im v = .ok t) :
    t.1.regressors = a.regressors := by
  unfold testFeature at ht
  split at ht
  · injection ht with ht; rw [← ht]
  · split at ht
    · cases ht
    · injection ht with ht; rw [← ht]
  · split at ht
    · cases ht
    · injection ht with ht; rw [← ht]

variable [AddCommGroup W]

theorem fitLoop_regs {cls : Cls σ A V W Row Reg I} {ops : ModelOps σ V W} {im : I} :
    ∀ (rs : List Reg) (a : Alg σ A Reg) (v : V) (r : Alg σ A Reg × List V × List W),
      fitLoop cls ops im rs a v = .ok r → r.1.regressors = a.regressors
  | [], a, v, r, h => by simp only [fitLoop, Except.ok.injEq] at h; rw [← h]
  | x :: rs, a, v, r, h => by
    unfold fitLoop at h
    obtain ⟨t, ht, h⟩ := bind_ok h
    split at h
    · obtain ⟨q, hq, h⟩ := bind_ok h
      injection h with h
      rw [← h]
      exact (fitLoop_regs rs _ _ q hq).trans (testFeature_regs ht)
    · cases h
    · cases h

theorem aamLoop_regs {cls : Cls σ A V W Row Reg I} {ops : ModelOps σ V W} {im : I} :
    ∀ (rs : List Reg) (a : Alg σ A Reg) (p : W) (r : Alg σ A Reg × List V × List W),
      aamLoop cls ops im rs a p = .ok r → r.1.regressors = a.regressors
  | [], a, v, r, h => by simp only [aamLoop, Except.ok.injEq] at h; rw [← h]
  | x :: rs, a, v, r, h => by
    unfold aamLoop at h
    split at h
    · cases h
    obtain ⟨t, ht, h⟩ := bind_ok h
    split at h
    · obtain ⟨q, hq, h⟩ := bind_ok h
      injection h with h
      rw [← h]
      exact (aamLoop_regs rs _ _ q hq).trans (testFeature_regs ht)
    · cases h
    · cases h

/-- When no regressor of the object can be incremented, incrementing the object raises and keeps
its regressors. -/
theorem increment_raises {cls : Cls σ A V W Row Reg I} {a : Alg σ A Reg}
    (hinc : ∀ r ∈ a.regressors, ∀ xs ys, ∃ e, cls.reg.increment r xs ys = .error e)
    (hlen : a.regressors.length ≤ cls.nIterations)
    (verbose : Option (V → V → V → Except PyErr Unit)) (junk : Nat → W) (ims : List I)
    (gts : List V) (cur : List (List V)) :
    (∃ e, (trainAlg cls verbose junk true a ims gts cur).2 = .error e) ∧
    (trainAlg cls verbose junk true a ims gts cur).1.regressors = a.regressors := by
  unfold trainAlg
  by_cases h0 : a.regressors.length = 0
  · simp [h0]
  · simp only [h0, and_false, if_false, if_true]
    split
    · rename_i first rest g gs
      have hregs := computeDeltaX_regs (cls := cls) junk a (g :: gs) (first :: rest)
      generalize computeDeltaX cls junk a (g :: gs) (first :: rest) = p at hregs
      obtain ⟨a1, d⟩ := p
      simp only at hregs
      cases d with
      | error e => exact ⟨⟨e, rfl⟩, hregs⟩
      | ok d =>
        simp only
        cases hm : cls.nIterations with
        | zero => rw [hm] at hlen; omega
        | succ m =>
          unfold cascadeLoop
          have hf := trainingFeatures_regs (cls := cls) ims (g :: gs) (first :: rest) a1
          generalize trainingFeatures cls a1 ims (g :: gs) (first :: rest) = q at hf
          obtain ⟨a2, f⟩ := q
          simp only at hf
          cases f with
          | error e => exact ⟨⟨e, rfl⟩, hf.trans hregs⟩
          | ok f =>
            have hreg : ∃ e, regress cls true 0 a2 f d.1 = .error e := by
              unfold regress
              rw [if_pos rfl, hf, hregs]
              cases hr : a.regressors with
              | nil => rw [hr] at h0; exact absurd rfl h0
              | cons r rs => exact hinc r (by rw [hr]; exact List.mem_cons_self) f d.1
            obtain ⟨e, he⟩ := hreg
            simp only [he]
            exact ⟨⟨e, rfl⟩, hf.trans hregs⟩
    · exact ⟨⟨_, rfl⟩, rfl⟩

end SdCls
end Menpofit
