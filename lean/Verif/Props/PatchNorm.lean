import Verif.Lemmas.PatchNorm
/-!
# C109: experts see patches as they did in training
-/

namespace Menpofit
open PatchNorm Spec

/-- C109: in training every channel is brought to mean zero and length one by itself. -/
theorem C109_training {L : Type} (extract : L → List (List (List ℝ))) (l : L) :
    ∀ v ∈ extractPatch extract l, Standard v := by
  intro v hv
  simp only [extractPatch, normalise3, List.mem_map] at hv
  obtain ⟨a, -, rfl⟩ := hv
  exact normed_standard a

/-- C109: so a training patch does not change if each channel gets its own gain and brightness. -/
theorem C109_training_relit {L : Type} (e e' : L → List (List (List ℝ))) (l : L)
    (h : RelitEach (e l).flatten (e' l).flatten) : extractPatch e' l = extractPatch e l := by
  simp only [extractPatch, normalise3, List.flatten_cons, List.flatten_nil, List.append_nil]
  generalize (e l).flatten = p at h
  generalize (e' l).flatten = q at h
  induction h with
  | nil => rfl
  | cons g b hg _ ih => simp only [List.map_cons, ih, normed_relit hg]

/-- C109: patches with a single channel are presented in fitting as in training, for any number of landmarks.
Missing: patches with several channels or sample offsets (`C109_channels_violated`). -/
theorem C109_fitting_partial {L : Type} (extract : L → List (List (List ℝ))) (shape : List L)
    (h : ∀ l ∈ shape, ∃ v, (extract l).flatten = [v]) :
    extractPatches extract shape = shape.map (extractPatch extract) := by
  simp only [extractPatches, normalise4, List.map_map]
  refine List.map_congr_left fun l hl => ?_
  obtain ⟨v, hv⟩ := h l hl
  have hlen : (normed v).length = v.length := by simp [normed, centred]
  simp only [Function.comp, extractPatch, normalise3, hv, List.map_cons, List.map_nil, split, List.flatten_cons,
    List.flatten_nil, List.append_nil]
  rw [← hlen, List.take_length]

/-- C109: in fitting a common gain and brightness changes nothing.  Missing: changes that differ between channels
(`C109_relit_violated`). -/
theorem C109_fitting_relit_partial {L : Type} (e e' : L → List (List (List ℝ))) (shape : List L) (g b : L → ℝ)
    (hg : ∀ l, 0 < g l) (h : ∀ l ∈ shape, (e' l).flatten = (e l).flatten.map (relit (g l) (b l))) :
    extractPatches e' shape = extractPatches e shape := by
  simp only [extractPatches, normalise4, List.map_map]
  refine List.map_congr_left fun l hl => ?_
  simp only [Function.comp]
  rw [h l hl, flatten_relit, normed_relit (hg l), List.map_map]
  congr 1
  refine List.map_congr_left fun v _ => ?_
  simp [relit]

/-- Two channels, the second twice the first. -/
def twoChannels : Unit → List (List (List ℝ)) := fun _ => [[[1, -1], [2, -2]]]

/-- The same after doubling the second channel. -/
def twoRelit : Unit → List (List (List ℝ)) := fun _ => [[[1, -1], [4, -4]]]

theorem twoChannels_train : extractPatch twoChannels () = [[1 / Real.sqrt 2, -1 / Real.sqrt 2],
    [2 / Real.sqrt 8, -2 / Real.sqrt 8]] := by
  have h2 : Real.sqrt 2 ≠ 0 := by positivity
  have h8 : Real.sqrt 8 ≠ 0 := by positivity
  simp [extractPatch, twoChannels, normalise3, normed, centred, avg, len]
  norm_num

theorem twoChannels_fit : extractPatches twoChannels [()] = [[[1 / Real.sqrt 10, -1 / Real.sqrt 10],
    [2 / Real.sqrt 10, -2 / Real.sqrt 10]]] := by
  have h2 : Real.sqrt 10 ≠ 0 := by positivity
  simp [extractPatches, twoChannels, normalise4, normed, centred, avg, len, split]
  norm_num

theorem twoRelit_fit : extractPatches twoRelit [()] = [[[1 / Real.sqrt 34, -1 / Real.sqrt 34],
    [4 / Real.sqrt 34, -4 / Real.sqrt 34]]] := by
  have h2 : Real.sqrt 34 ≠ 0 := by positivity
  simp [extractPatches, twoRelit, normalise4, normed, centred, avg, len, split]
  norm_num

theorem inv_sqrt_ne {a b : ℝ} (ha : 0 < a) (h : a < b) : 1 / Real.sqrt b ≠ 1 / Real.sqrt a := by
  have h1 : Real.sqrt a < Real.sqrt b := Real.sqrt_lt_sqrt ha.le h
  exact (one_div_lt_one_div_of_lt (Real.sqrt_pos.2 ha) h1).ne

/-- C109 is violated with two channels: a patch is normalised one way in training and another in fitting; its
channels are not of length one. -/
theorem C109_channels_violated : ∃ (extract : Unit → List (List (List ℝ))),
    extractPatches extract [()] ≠ [()].map (extractPatch extract) ∧
    ∃ p ∈ extractPatches extract [()], ∃ v ∈ p, ¬ Standard v := by
  refine ⟨twoChannels, ?_, ?_⟩
  · rw [List.map_cons, List.map_nil, twoChannels_train, twoChannels_fit]
    intro h
    simp only [List.cons.injEq, and_true] at h
    exact inv_sqrt_ne (by norm_num) (by norm_num) h.1.1
  · rw [twoChannels_fit]
    refine ⟨_, List.mem_singleton_self _, _, List.mem_cons_self, ?_⟩
    rintro ⟨-, h | h⟩
    · have e : (-1 / Real.sqrt 10) ^ 2 = 1 / 10 := by
        rw [div_pow, Real.sq_sqrt (by norm_num)]; norm_num
      simp at h
      rw [e] at h
      norm_num at h
    · have := h (1 / Real.sqrt 10) (by simp)
      have h2 : (0 : ℝ) < 1 / Real.sqrt 10 := by positivity
      linarith

/-- C109 is violated: doubling one channel changes what the experts see in fitting, but not in training. -/
theorem C109_relit_violated : ∃ e e' : Unit → List (List (List ℝ)), RelitEach (e ()).flatten (e' ()).flatten ∧
    extractPatch e' () = extractPatch e () ∧ extractPatches e' [()] ≠ extractPatches e [()] := by
  have hr : RelitEach (twoChannels ()).flatten (twoRelit ()).flatten := by
    have := RelitEach.cons (v := [1, -1]) 1 0 one_pos (RelitEach.cons (v := [2, -2]) 2 0 two_pos .nil)
    simp [relit] at this
    simp only [twoChannels, twoRelit, List.flatten_cons, List.flatten_nil, List.append_nil]
    norm_num at this
    exact this
  refine ⟨twoChannels, twoRelit, hr, C109_training_relit _ _ () hr, ?_⟩
  rw [twoChannels_fit, twoRelit_fit]
  intro h
  simp only [List.cons.injEq, and_true] at h
  exact inv_sqrt_ne (by norm_num) (by norm_num) h.1.1

/-- One channel, two landmarks. -/
example : ∀ l ∈ [true, false], ∃ v : List ℝ, ((fun b : Bool => if b then [[[1, 2]]] else [[[3, 5]]]) l : List (List (List ℝ))).flatten = [v] := by
  intro l hl
  cases l
  · exact ⟨[3, 5], rfl⟩
  · exact ⟨[1, 2], rfl⟩

/-- One channel per offset, brighter at both landmarks. -/
example : (([[[1, -1]], [[3, 5]]] : List (List (List ℝ))).flatten).map (relit 2 1) = [[3, -1], [7, 11]] := by
  simp [relit]; norm_num

end Menpofit
