import Verif.Lemmas.AamBase
/-!
# C58, C81: reconstructions and instances of an AAM
-/

namespace Menpofit
open AamBase Spec

/-- C58 (partial: at most two scales).  Given the parameter vectors of each scale, one more than
its iterations, the reconstructions are those of the first scale rendered with the first model
followed by those of the second scale rendered with the second one.  Missing: three or more
scales, see `C58_three_scales_violated`. -/
theorem C58_two_scales_partial {V I : Type} (m0 m1 : V → Except PyErr I) (b0 b1 : List V)
    (h0 : b0 ≠ []) (h1 : b1 ≠ []) :
    appearanceReconstructions [m0] b0 [b0.length - 1] = b0.mapM m0 ∧
    appearanceReconstructions [m0, m1] (b0 ++ b1) [b0.length - 1, b1.length - 1] =
      (do let x ← b0.mapM m0
          let y ← b1.mapM m1
          return x ++ y) := by
  have e0 : b0.length - 1 + 1 = b0.length := by
    have := List.length_pos_iff.2 h0; omega
  have e1 : b1.length - 1 + 1 = b1.length := by
    have := List.length_pos_iff.2 h1; omega
  constructor
  · simp only [appearanceReconstructions, reconLoop, e0, List.drop_zero, List.take_length,
      mapM_instanceAt (models := [m0]) (scale := 0) rfl]
    cases b0.mapM m0 with
    | error e => rfl
    | ok x => simp [bind, Except.bind, pure, Except.pure]
  · simp only [appearanceReconstructions, reconLoop, e0, e1, List.drop_zero, List.take_left,
      List.drop_left, List.take_length, mapM_instanceAt (models := [m0, m1]) (scale := 0) rfl,
      mapM_instanceAt (models := [m0, m1]) (scale := 1) rfl]
    cases b0.mapM m0 with
    | error e => rfl
    | ok x =>
      cases b1.mapM m1 with
      | error e => rfl
      | ok y => simp [bind, Except.bind, pure, Except.pure]

example : appearanceReconstructions [fun (v : Nat) => .ok (0, v), fun v => .ok (1, v)]
    [10, 11, 20, 21, 22] [1, 2] =
      .ok [(0, 10), (0, 11), (1, 20), (1, 21), (1, 22)] := by decide

/-- C58: there is always one reconstruction per parameter vector, for any number of scales. -/
theorem C58_count {V I : Type} (models : List (V → Except PyErr I)) (params : List V)
    (nIters : List Nat) (h : params.length = (nIters.map (· + 1)).sum) (r : List I)
    (hr : appearanceReconstructions models params nIters = .ok r) : r.length = params.length := by
  rw [h]
  refine reconLoop_length ?_ (by omega) hr
  intro n hn
  rw [h]
  exact List.single_le_sum (by simp) (n + 1) (List.mem_map.2 ⟨n, hn, rfl⟩)

/-- C58 fails for every AAM with three scales: whenever the parameter vectors are all different and
the third model renders different parameters differently, the result is not the
reconstructions of the three scales one after the other. -/
theorem C58_three_scales_violated {V I : Type} (f0 f1 f2 : V → I) (b0 b1 b2 : List V)
    (h0 : b0 ≠ []) (h1 : b1 ≠ []) (h2 : b2 ≠ []) (hd : (b0 ++ b1 ++ b2).Nodup)
    (hf : Function.Injective f2) :
    ∃ r, appearanceReconstructions [fun v => .ok (f0 v), fun v => .ok (f1 v), fun v => .ok (f2 v)]
        (b0 ++ b1 ++ b2) [b0.length - 1, b1.length - 1, b2.length - 1] = .ok r ∧
      r ≠ b0.map f0 ++ b1.map f1 ++ b2.map f2 := by
  have e0 : b0.length - 1 + 1 = b0.length := by
    have := List.length_pos_iff.2 h0; omega
  have e1 : b1.length - 1 + 1 = b1.length := by
    have := List.length_pos_iff.2 h1; omega
  have e2 : b2.length - 1 + 1 = b2.length := by
    have := List.length_pos_iff.2 h2; omega
  have hp : ∀ (g : V → I) (l : List V), l.mapM (fun v => (.ok (g v) : Except PyErr I)) =
      .ok (l.map g) := by
    intro g l
    induction l with
    | nil => rfl
    | cons a l ih => rw [List.mapM_cons, ih]; rfl
  have ht0 : ((b0 ++ b1 ++ b2).drop 0).take b0.length = b0 := by
    rw [List.drop_zero, List.append_assoc, List.take_left]
  have ht1 : ((b0 ++ b1 ++ b2).drop b0.length).take b1.length = b1 := by
    rw [List.append_assoc, List.drop_left, List.take_left]
  refine ⟨b0.map f0 ++ (b1.map f1 ++
    (((b0 ++ b1 ++ b2).drop b1.length).take b2.length).map f2), ?_, ?_⟩
  · simp only [appearanceReconstructions, reconLoop, e0, e1, e2, ht0, ht1]
    rw [mapM_instanceAt (models := [fun v => .ok (f0 v), fun v => .ok (f1 v), fun v => .ok (f2 v)])
      (scale := 0) rfl, mapM_instanceAt (models := [fun v => .ok (f0 v), fun v => .ok (f1 v),
      fun v => .ok (f2 v)]) (scale := 0 + 1) rfl, mapM_instanceAt
      (models := [fun v => .ok (f0 v), fun v => .ok (f1 v), fun v => .ok (f2 v)])
      (scale := 0 + 1 + 1) rfl, hp, hp, hp]
    simp [bind, Except.bind, pure, Except.pure]
  · intro he
    have he := List.append_cancel_left (List.append_cancel_left
      (he.trans (List.append_assoc _ _ _)))
    have he := (List.map_injective_iff.2 hf) he
    obtain ⟨x, xs, rfl⟩ := List.exists_cons_of_ne_nil h2
    have hx : ((b0 ++ b1 ++ x :: xs).drop b1.length)[0]? = some x := by
      have : (((b0 ++ b1 ++ x :: xs).drop b1.length).take (x :: xs).length)[0]? = some x := by
        rw [he]; rfl
      rw [List.getElem?_take_of_lt (by simp)] at this
      exact this
    rw [List.getElem?_drop, Nat.add_zero] at hx
    have hy : (b0 ++ b1 ++ x :: xs)[b0.length + b1.length]? = some x := by
      rw [List.getElem?_append_right (by simp)]
      simp
    have hl : 0 < b0.length := List.length_pos_iff.2 h0
    have hlt : b1.length < (b0 ++ b1 ++ x :: xs).length := by simp; omega
    have hlt' : b0.length + b1.length < (b0 ++ b1 ++ x :: xs).length := by simp
    have := (List.nodup_iff_injective_getElem.1 hd)
      (a₁ := ⟨b1.length, hlt⟩) (a₂ := ⟨b0.length + b1.length, hlt'⟩) (by
        rw [List.getElem?_eq_getElem hlt] at hx
        rw [List.getElem?_eq_getElem hlt'] at hy
        injection hx with hx; injection hy with hy
        simp only [hx, hy])
    simp only [Fin.mk.injEq] at this
    omega

example : ([1, 2] ++ [3] ++ [4, 5] : List Nat).Nodup ∧ Function.Injective (fun v : Nat => (2, v)) :=
  ⟨by decide, fun a b h => by simpa using h⟩

/-- The third scale reads from the second entry on instead of the fourth. -/
example : appearanceReconstructions [fun (v : Nat) => .ok (0, v), fun v => .ok (1, v),
    fun v => .ok (2, v)] [1, 2, 3, 4, 5] [1, 0, 1] =
      .ok [(0, 1), (0, 2), (1, 3), (2, 2), (2, 3)] := by decide

/-! ## C81 -/

variable {ι κ I : Type}

/-- C81 (`instance`): the rendered shape and appearance are the means plus the given numbers of
standard deviations of the modes; without weights they are the means.  Too many weights are
refused with `ValueError`. -/
theorem C81_instance (a : AamModels ι κ I) (scale : Int) (sm : EigModel ι) (am : EigModel κ)
    (hs : Result.pyGet a.shape scale = .ok sm) (ha : Result.pyGet a.appearance scale = .ok am)
    (sw aw : List ℝ) :
    (sw.length ≤ sm.nActive → aw.length ≤ am.nActive → ∃ s t,
      ModeSum sm (fun k => sw.getD k 0) s ∧ ModeSum am (fun k => aw.getD k 0) t ∧
      instance_ a (some sw) (some aw) scale = a.warp scale s t) ∧
    (sm.nActive < sw.length → instance_ a (some sw) (some aw) scale = .error .valueError) ∧
    (am.nActive < aw.length → instance_ a (some sw) (some aw) scale = .error .valueError) ∧
    (1 ≤ sm.nActive → 1 ≤ am.nActive →
      instance_ a none none scale = a.warp scale sm.mean am.mean) := by
  refine ⟨fun h1 h2 => ?_, fun h => ?_, fun h => ?_, fun h1 h2 => ?_⟩
  · obtain ⟨s, e1, e2⟩ := instance_modeSum sm sw h1
    obtain ⟨t, e3, e4⟩ := instance_modeSum am aw h2
    refine ⟨s, t, e2, e4, ?_⟩
    simp only [instance_, hs, ha, bind, Except.bind, Option.getD_some, e1, e3]
  · have e : sm.instance sw = .error .valueError := if_pos h
    simp only [instance_, hs, ha, bind, Except.bind, Option.getD_some, e]
  · simp only [instance_, hs, ha, bind, Except.bind, Option.getD_some]
    have e : am.instance aw = .error .valueError := if_pos h
    rw [e]
    unfold EigModel.instance
    split <;> rename_i h'
    · split at h' <;> cases h'; rfl
    · rfl
  · have z : ∀ {τ : Type} (m : EigModel τ), 1 ≤ m.nActive → m.instance [0] = .ok m.mean := by
      intro τ m hm
      unfold EigModel.instance
      rw [if_neg (by unfold EigModel.nActive at hm; simp only [List.length_singleton]; omega)]
      cases hmm : m.modes with
      | nil => unfold EigModel.nActive at hm; rw [hmm] at hm; simp at hm
      | cons c cs => simp
    simp only [instance_, hs, ha, bind, Except.bind, Option.getD_none, z sm h1, z am h2]

/-- C81 (`random_instance`, partial): if the appearance model has at least as many components as
the shape model, an instance is rendered, drawing every shape weight.  Missing: the
appearance weights beyond the number of shape components are never drawn, and see
`C81_random_instance_violated`. -/
theorem C81_random_instance_partial (a : AamModels ι κ I) (scale : Int) (sm : EigModel ι)
    (am : EigModel κ) (hs : Result.pyGet a.shape scale = .ok sm)
    (ha : Result.pyGet a.appearance scale = .ok am) (draw : Nat → Nat → List ℝ)
    (hd : ∀ k n, (draw k n).length = n) (h : sm.nActive ≤ am.nActive) :
    ∃ s t, ModeSum sm (fun k => (draw 0 sm.nActive).getD k 0) s ∧
      ModeSum am (fun k => if k < sm.nActive then (draw 1 sm.nActive).getD k 0 else 0) t ∧
      randomInstance a draw scale = a.warp scale s t := by
  obtain ⟨s, e1, e2⟩ := instance_modeSum sm (draw 0 sm.nActive) (by rw [hd]; exact le_rfl)
  obtain ⟨t, e3, e4⟩ := instance_modeSum am (draw 1 sm.nActive) (by rw [hd]; exact h)
  refine ⟨s, t, e2, ?_, ?_⟩
  · have : (fun k => (draw 1 sm.nActive).getD k 0) =
        fun k => if k < sm.nActive then (draw 1 sm.nActive).getD k 0 else 0 := by
      funext k
      by_cases hk : k < sm.nActive
      · rw [if_pos hk]
      · rw [if_neg hk, List.getD_eq_getElem?_getD, List.getElem?_eq_none (by rw [hd]; omega), Option.getD_none]
    rw [← this]; exact e4
  · simp only [randomInstance, hs, ha, bind, Except.bind, e1, e3]

/-- C81 fails for `random_instance` whenever the shape model has more components than the
appearance model: every draw raises `ValueError`. -/
theorem C81_random_instance_violated (a : AamModels ι κ I) (scale : Int) (sm : EigModel ι)
    (am : EigModel κ) (hs : Result.pyGet a.shape scale = .ok sm)
    (ha : Result.pyGet a.appearance scale = .ok am) (draw : Nat → Nat → List ℝ)
    (hd : ∀ k n, (draw k n).length = n) (h : am.nActive < sm.nActive) :
    randomInstance a draw scale = .error .valueError := by
  obtain ⟨s, e1, -⟩ := instance_modeSum sm (draw 0 sm.nActive) (by rw [hd]; exact le_rfl)
  have e : am.instance (draw 1 sm.nActive) = .error .valueError := by
    unfold EigModel.instance
    rw [if_pos (by rw [hd]; exact h)]
  simp only [randomInstance, hs, ha, bind, Except.bind, e1, e]

/-- An AAM with two shape components and one appearance component, last scale. -/
example : ∃ (a : AamModels (Fin 2) (Fin 1) Unit) (sm : EigModel (Fin 2)) (am : EigModel (Fin 1)),
    Result.pyGet a.shape (-1) = .ok sm ∧ Result.pyGet a.appearance (-1) = .ok am ∧
    am.nActive < sm.nActive :=
  ⟨⟨[⟨0, [(1, 0), (1, 1)]⟩], [⟨0, [(4, 1)]⟩], fun _ _ _ => .ok ()⟩, _, _, rfl, rfl, by
    simp [EigModel.nActive]⟩

end Menpofit
