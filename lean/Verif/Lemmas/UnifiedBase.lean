import Verif.Spec.UnifiedBase
import Verif.Lemmas.Training
/-!
# Lemmas about the training of the unified AAM-CLM
-/

namespace Menpofit
namespace UniBase
open Training Spec

variable {Im Sh Fr W SM AM E F : Type} [DecidableEq F]

theorem uniImages_ok {o : ImageOps Im Sh F} (hno : ∀ i, o.feature o.noOp i = .ok i)
    {smooth : Im → Im} {b rescaled fi si : List Im} {prev : Option (F × List Im)} {ref : Sh}
    {l : UniLevel F} (hr : b.mapM (o.rescale ref) = .ok rescaled)
    (hp : ∀ f' fi', prev = some (f', fi') →
      (rescaled.map smooth).mapM (o.feature f') = .ok fi')
    (h : featureImages o (rescaled.map smooth) prev l.feature = .ok fi)
    (h' : scaledImages o l.scale fi = .ok si) :
    b.mapM (uniImageAt o smooth ref l) = .ok si := by
  have h0 := featureImages_ok hno hp h
  rw [List.mapM_map] at h0
  have h1 := mapM_comp hr (mapM_comp h0 (scaledImages_ok h'))
  rw [← h1]
  rfl

theorem smoothed_map (U : UniOps Im Sh Fr W SM AM E) (sigma : Option Rat) (images : List Im) :
    smoothed U sigma images = images.map (smoothing U sigma) := by
  cases sigma with
  | none => exact (List.map_id images).symm
  | some q =>
    by_cases h : q = 0
    · have : smoothing U (some q) = id := by funext i; simp [smoothing, h]
      rw [this, List.map_id]; simp [smoothed, h]
    · simp only [smoothed, h, if_false]
      refine List.map_congr_left fun i _ => ?_
      simp [smoothing, h]

theorem uniLoop_ok {o : ImageOps Im Sh F} {U : UniOps Im Sh Fr W SM AM E} {opts : UniOpts Sh}
    (hno : ∀ i, o.feature o.noOp i = .ok i) {smooth : Im → Im} {ref : Sh} {b rescaled : List Im}
    (hr : b.mapM (o.rescale ref) = .ok rescaled) :
    ∀ {ls : List (UniLevel F)} {j : Nat} {prev : Option (F × List Im)}
      {st st' : UniSt Sh SM AM E},
    (∀ f' fi', prev = some (f', fi') → (rescaled.map smooth).mapM (o.feature f') = .ok fi') →
    uniLoop o U opts ref (rescaled.map smooth) j prev st ls = .ok st' →
    ∃ sms ams es, st' = ⟨st.ref, st.shapeModels ++ sms, st.appearance ++ ams, st.experts ++ es⟩ ∧
      sms.length = ls.length ∧ ams.length = ls.length ∧ es.length = ls.length ∧
      ∀ i l, ls[i]? = some l → ∃ sm am e,
        sms[i]? = some sm ∧ ams[i]? = some am ∧ es[i]? = some e ∧
        ScaleTrained o U smooth ref (U.frame 3 (o.scaleShape l.scale ref)) 3 b (j + i) l sm am e := by
  intro ls
  induction ls with
  | nil =>
    intro j prev st st' _ h
    injection h with h; subst h
    exact ⟨[], [], [], by simp, rfl, rfl, rfl, fun i l hl => by simp at hl⟩
  | cons l ls ih =>
    intro j prev st st' hp h
    unfold uniLoop at h
    obtain ⟨fi, h1, h⟩ := bind_ok h
    obtain ⟨si, h2, h⟩ := bind_ok h
    obtain ⟨s, h3, h⟩ := bind_ok h
    obtain ⟨sm, h4, h⟩ := bind_ok h
    obtain ⟨w, h5, h⟩ := bind_ok h
    obtain ⟨am, h6, h⟩ := bind_ok h
    obtain ⟨e, h7, h⟩ := bind_ok h
    have hi := uniImages_ok hno hr hp h1 h2
    obtain ⟨sms, ams, es, q0, q1, q2, q3, q4⟩ := ih (fun f' fi' e => by
      injection e with e; injection e with e1 e2; subst e1; subst e2
      exact featureImages_ok hno hp h1) h
    refine ⟨sm :: sms, am :: ams, e :: es, by rw [q0]; simp, by simp [q1], by simp [q2],
      by simp [q3], fun i l' hl => ?_⟩
    cases i with
    | zero =>
      simp only [List.getElem?_cons_zero, Option.some.injEq] at hl
      subst hl
      exact ⟨sm, am, e, rfl, rfl, rfl, si, s, w, hi, h3, h5, h4, h6, h7⟩
    | succ i =>
      simp only [List.getElem?_cons_succ] at hl ⊢
      obtain ⟨a, b', c, r1, r2, r3, r4⟩ := q4 i l' hl
      exact ⟨a, b', c, r1, r2, r3, by rw [show j + (i + 1) = j + 1 + i by omega]; exact r4⟩

theorem uniLoop_opts (o : ImageOps Im Sh F) (U : UniOps Im Sh Fr W SM AM E)
    (opts opts' : UniOpts Sh) (ref : Sh) (images : List Im) :
    ∀ (ls : List (UniLevel F)) (j : Nat) (prev : Option (F × List Im)) (st : UniSt Sh SM AM E),
    uniLoop o U opts ref images j prev st ls = uniLoop o U opts' ref images j prev st ls := by
  intro ls
  induction ls with
  | nil => intros; rfl
  | cons l ls ih =>
    intro j prev st
    unfold uniLoop
    simp only [uniWarp, uniExpert, ih]

end UniBase
end Menpofit
