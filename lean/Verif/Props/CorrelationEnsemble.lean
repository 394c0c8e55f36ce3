import Verif.Lemmas.CorrelationEnsemble
import Verif.Lemmas.Order
/-!
# Properties: what an incremented ensemble of correlation filters minimises (C39)
-/

namespace Menpofit
open Cf Spec

variable {F : Type} {k D : Nat}

theorem patchesOf {examples : List (List (Spectrum k D))} {i : Nat} {ps : List (Spectrum k D)}
    (h : (examples.mapM fun ex => match ex[i]? with
      | some p => Except.ok p
      | none => .error PyErr.indexError) = .ok ps) : ps = examples.map fun ex => ex.getD i 0 := by
  have := forall₂_of_mapM h
  clear h
  induction this with
  | nil => rfl
  | @cons ex p l ps' h1 _ ih =>
    rw [List.map_cons, ← ih]
    congr 1
    rw [List.getD_eq_getElem?_getD]
    split at h1
    · next q e => rw [e]; simp at h1; simp [h1]
    · simp at h1

theorem rangeExperts {n : Nat} {f : Nat → Except PyErr (MccfOut F k D)} {es : List (MccfOut F k D)}
    (h : (List.range n).mapM f = .ok es) {i : Nat} {e : MccfOut F k D} (he : es[i]? = some e) : f i = .ok e := by
  have := forall₂_of_mapM h
  rw [List.forall₂_iff_get] at this
  obtain ⟨hl, hg⟩ := this
  obtain ⟨hi, rfl⟩ := List.getElem?_eq_some_iff.1 he
  have := hg i (by omega) hi
  simpa using this

/-- What the experts of an ensemble know. -/
def EnsembleKnows (back : (Ix k D → ℂ) → F) (y : Fin D → ℂ) (l : ℝ) (seen : Nat × List (ℝ × List (Spectrum k D)))
    (st : Ensemble F k D) : Prop :=
  st.nImages = seen.1 ∧ (∀ p ∈ seen.2, 0 ≤ p.1) ∧
    ∀ i e, st.experts[i]? = some e → Knows back y l (seen.2.map fun p => (p.1, p.2.getD i 0)) e

/-- **C39** (what incremental training of an ensemble computes).  However an ensemble of correlation filters was trained and
incremented, the filter of every landmark is the only minimiser of a weighted squared response error over the patches
around this landmark in all images seen so far, regularised by `l`.  The weights are those of `remembered`: they depend
on how the images were divided into batches, which is why incremental training is not batch training
(`C39_ensemble_violated`). -/
theorem C39_ensemble_history (back : (Ix k D → ℂ) → F) (y : Fin D → ℂ) (l : ℝ) (hl : 0 < l)
    (first : List (List (Spectrum k D))) (more : List (List (List (Spectrum k D)))) (st₀ st : Ensemble F k D)
    (h₀ : trainEnsemble back y l first = .ok st₀) (h : more.foldlM (incrementEnsemble back y l) st₀ = .ok st) :
    st.nImages = first.length + (more.map List.length).sum ∧
    ∀ i e, st.experts[i]? = some e → ∃ f : Ix k D → ℂ, e.f = back f ∧ ∀ j,
      OnlyMin (weightedFilterCost l ((remembered first more).2.map fun p => (p.1, fun c => p.2.getD i 0 c j)) (y j))
        (fun c => f (c, j)) := by
  have start : EnsembleKnows back y l (first.length, first.map fun x => (1, x)) st₀ := by
    cases first with
    | nil => simp [trainEnsemble] at h₀
    | cons e₀ first =>
      unfold trainEnsemble at h₀
      simp only [bind, Except.bind] at h₀
      split at h₀
      · cases h₀
      · next es hes =>
        injection h₀ with h₀
        subst h₀
        refine ⟨rfl, ?_, fun i e he => ?_⟩
        · intro p hp
          obtain ⟨q, _, rfl⟩ := List.mem_map.1 hp
          exact zero_le_one
        · have := rangeExperts hes he
          split at this
          · cases this
          · next ps hps =>
            injection this with this
            subst this
            have := patchesOf hps
            subst this
            have := knows_mccf back y l ((e₀ :: first).map fun ex => ex.getD i 0)
            rw [List.map_map] at this ⊢
            exact this
  have step : ∀ (batch : List (List (Spectrum k D))) (seen : Nat × List (ℝ × List (Spectrum k D))) (s s' : Ensemble F k D),
      EnsembleKnows back y l seen s → incrementEnsemble back y l s batch = .ok s' →
      EnsembleKnows back y l (rememberBatch seen batch) s' := by
    intro batch seen s s' hs h
    cases batch with
    | nil => simp [incrementEnsemble] at h
    | cons e₀ batch =>
      obtain ⟨B, hB⟩ : ∃ B, B = e₀ :: batch := ⟨_, rfl⟩
      unfold incrementEnsemble at h
      simp only [bind, Except.bind] at h
      rw [← hB] at h ⊢
      split at h
      · cases h
      · next es hes =>
        injection h with h
        subst h
        refine ⟨by show s.nImages + B.length = seen.1 + B.length; rw [hs.1], ?_, fun i e he => ?_⟩
        · intro p hp
          rcases List.mem_append.1 hp with hp | hp
          · obtain ⟨q, hq, rfl⟩ := List.mem_map.1 hp
            have := hs.2.1 q hq
            positivity
          · obtain ⟨q, _, rfl⟩ := List.mem_map.1 hp
            positivity
        · have := rangeExperts hes he
          split at this
          · cases this
          · next ps hps =>
            have e1 := patchesOf hps
            subst e1
            split at this
            · cases this
            · next old hold =>
              injection this with this
              subst this
              have hk := knows_imccf back y l _ old (hs.2.2 i old hold) ((s.nImages + B.length : Nat) : ℝ)
                (B.map fun ex => ex.getD i 0)
              simp only [rememberBatch, List.map_append, List.map_map, Function.comp_def, List.length_map, ← hs.1] at hk ⊢
              exact hk
  have whole : ∀ (more : List (List (List (Spectrum k D)))) (seen : Nat × List (ℝ × List (Spectrum k D)))
      (s : Ensemble F k D), EnsembleKnows back y l seen s → more.foldlM (incrementEnsemble back y l) s = .ok st →
      EnsembleKnows back y l (more.foldl rememberBatch seen) st := by
    intro more
    induction more with
    | nil =>
      intro seen s hs h
      simp only [List.foldlM_nil, pure, Except.pure, Except.ok.injEq] at h
      subst h
      exact hs
    | cons b more ih =>
      intro seen s hs h
      rw [List.foldlM_cons] at h
      simp only [bind, Except.bind] at h
      split at h
      · cases h
      · next s' hs' => exact ih _ s' (step b seen s s' hs hs') h
  have final := whole more _ st₀ start h
  have count : ∀ (more : List (List (List (Spectrum k D)))) (seen : Nat × List (ℝ × List (Spectrum k D))),
      (more.foldl rememberBatch seen).1 = seen.1 + (more.map List.length).sum := by
    intro more
    induction more with
    | nil => intro seen; simp
    | cons b more ih => intro seen; rw [List.foldl_cons, ih]; simp [rememberBatch, add_assoc]
  refine ⟨by rw [final.1, count], fun i e he => ?_⟩
  have hw : ∀ p ∈ (more.foldl rememberBatch (first.length, first.map fun x => (1, x))).2.map
      fun p => (p.1, p.2.getD i 0), 0 ≤ p.1 := by
    intro p hp
    obtain ⟨q, hq, rfl⟩ := List.mem_map.1 hp
    exact final.2.1 q hq
  obtain ⟨f, hf, hm⟩ := knows_min back y hl _ hw e (final.2.2 i e he)
  refine ⟨f, hf, fun j => ?_⟩
  have := hm j
  rw [List.map_map] at this
  exact this

/-- Two landmarks: an ensemble trained with one image and incremented with another has two experts. -/
example (y : Fin 1 → ℂ) : ∃ st₀ st : Ensemble (Ix 1 1 → ℂ) 1 1,
    trainEnsemble id y 1 [[fun _ _ => 1, fun _ _ => 2]] = .ok st₀ ∧
    [[[fun _ _ => 3, fun _ _ => 4]]].foldlM (incrementEnsemble id y 1) st₀ = .ok st ∧ st.experts.length = 2 :=
  ⟨_, _, rfl, rfl, rfl⟩

end Menpofit
