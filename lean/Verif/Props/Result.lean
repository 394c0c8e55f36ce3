import Verif.Lemmas.ResultView
import Verif.Lemmas.Optim
import Mathlib.Tactic.NormNum
/-!
# Properties of the result classes (C20–C25)
-/

namespace Menpofit
open Result Spec

variable {S V C : Type}

/-! ## C20: the final shape is the last shape -/

/-- **C20** (single scale): the final shape is the last one of the trajectory, and the
trajectory starts with the initial shape if one was given. -/
theorem C20_final_single (traj : List S) (r : Res S V C) (h : MadeFrom traj r) :
    r.shapes.getLast? = some r.final ∧ (∀ s, r.initial = some s → r.shapes.head? = some s) ∧
    r.shapes = r.initial.toList ++ traj := by
  obtain ⟨h1, h2⟩ := madeFrom_ok h
  refine ⟨?_, ?_, h2⟩
  · rw [h2, List.getLast?_append, h1]; rfl
  · intro s hs; rw [h2, hs]; rfl

/-- **C20** (multi scale, non-parametric, parametric and Lucas-Kanade). -/
theorem C20_final_multi (results : List (Res S V C)) (n : Nat) (as ts : List (S → S))
    (gt : Option S) (R : Res S V C)
    (h : multiNonParam results n as ts gt = .ok R ∨ multiParam results n as ts gt = .ok R ∨
      lkMulti results n as ts gt = .ok R) :
    R.shapes.getLast? = some R.final ∧ (∀ s, R.initial = some s → R.shapes.head? = some s) := by
  have base : ∀ R, multiNonParam results n as ts gt = .ok R →
      R.shapes.getLast? = some R.final ∧ (∀ s, R.initial = some s → R.shapes.head? = some s) := by
    intro R h
    obtain ⟨-, r0, rest, shapes, f, -, -, hf, h1, h2, -⟩ := multiNonParam_ok h
    refine ⟨?_, ?_⟩
    · rw [h2, List.getLast?_append, hf, h1]; rfl
    · intro s hs; rw [h2, hs]; rfl
  have par : ∀ R, multiParam results n as ts gt = .ok R →
      R.shapes.getLast? = some R.final ∧ (∀ s, R.initial = some s → R.shapes.head? = some s) := by
    intro R h
    obtain ⟨R', ps, h1, -, rfl⟩ := multiParam_ok h
    exact base R' h1
  rcases h with h | h | h
  · exact base R h
  · exact par R h
  · unfold lkMulti at h
    obtain ⟨R', h1, h2⟩ := bind_ok h
    injection h2 with h2; subst h2
    exact par R' h1

/-- **C20**: a plain result keeps the final, initial and ground-truth shapes, unless asked
to drop the latter two, and then drops exactly what it was asked to. -/
theorem C20_to_result (r : Res S V C) :
    toResult r true true = (r.final, r.initial, r.gt) ∧
    toResult r false true = (r.final, none, r.gt) ∧
    toResult r true false = (r.final, r.initial, none) ∧
    toResult r false false = (r.final, none, none) := ⟨rfl, rfl, rfl, rfl⟩

example : ∃ r : Res Nat Nat Nat, MadeFrom [4, 5] r ∧ r.shapes = [3, 4, 5] :=
  ⟨_, ⟨some 3, none, none, Or.inl rfl⟩, rfl⟩

/-! ## C21: `n_iters` counts the updates -/

/-- **C21** (partial: optimisers).  A parametric result built from an optimiser run has
`n_iters` equal to the number of executed steps, as counted by any counter that
every step increments. -/
theorem C21_optimiser_partial {σ E : Type} [LinearOrder E] (m : Optim.Machine σ S V C E)
    (count : σ → Nat) (hcount : ∀ s, count (m.step s).1 = count s + 1) (lk : Bool)
    (maxIters : Int) (tol : E) (returnCosts : Bool) (s sF : σ) (tr : Optim.Trace S V C)
    (h : Optim.run m lk maxIters tol returnCosts s = (sF, .ok tr)) (init gt : Option S)
    (r : Res S V C) (hr : param tr.shapes tr.params init gt tr.costs = .ok r) :
    r.nIters = count sF - count s := by
  obtain ⟨N, st, mv, h1, h2, -, h4, -, -, -, h8, -⟩ :=
    loop_spec m lk maxIters tol _ 0 none s sF _ tr rfl h
  have key : ∀ i, i ≤ N → count (st i) = count s + i := by
    intro i
    induction i with
    | zero => intro _; rw [h1]; rfl
    | succ i ih =>
      intro hi
      have := hcount (st i)
      rw [h4 i (by omega)] at this
      rw [this, ih (by omega)]; omega
  obtain ⟨f, -, rfl⟩ := param_ok hr
  have := key N le_rfl
  rw [h2] at this
  simp [h8, this]

/-- **C21** (partial: non-parametric supervised descent): one iteration per regressor. -/
theorem C21_sdm_nonparametric_partial {R : Type} (step : R → S → Except PyErr S) (regs : List R)
    (init : S) (gt : Option S) (r : Res S V C)
    (h : fitNonParametric step regs init gt = .ok r) : r.nIters = regs.length := by
  unfold fitNonParametric at h
  obtain ⟨xs, h1, h⟩ := bind_ok h
  obtain ⟨f, -, rfl⟩ := nonParam_ok h
  simp [cascade_length step _ _ _ h1]

/-- **C21** (partial: supervised descent AAM): one iteration per regressor. -/
theorem C21_sdm_aam_partial {R : Type} (project : S → V) (shape : V → S)
    (step : R → V → Except PyErr V) (regs : List R) (init : S) (gt : Option S) (r : Res S V C)
    (h : fitAamSd project shape step regs init gt = .ok r) : r.nIters = regs.length := by
  unfold fitAamSd at h
  obtain ⟨xs, h1, h⟩ := bind_ok h
  obtain ⟨f, -, rfl⟩ := param_ok h
  simp [cascade_length step _ _ _ h1]

/-- **C21** fails for supervised descent with a parametric shape, always: one iteration is
missing, because the reconstruction that `n_iters` is corrected for is not in the
list of shapes. -/
theorem C21_sdm_parametric_violated {R : Type} (project : S → V) (shape : V → S)
    (step : R → V → Except PyErr V) (regs : List R) (init : S) (gt : Option S) (r : Res S V C)
    (h : fitParametric project shape step regs init gt = .ok r) :
    r.nIters = (regs.length : Int) - 1 := by
  unfold fitParametric at h
  obtain ⟨xs, h1, h⟩ := bind_ok h
  obtain ⟨f, -, rfl⟩ := param_ok h
  simp [cascade_length step _ _ _ h1]

/-- **C21** (partial: multi-scale parametric results, except Lucas-Kanade): `n_iters` is the
total number of updates, and `n_iters_per_scale` the number of each scale. -/
theorem C21_multi_partial (runs : List (ScaleRun S)) (results : List (Res S V C))
    (hrec : List.Forall₂ (fun r run => Records run r) results runs) (n : Nat)
    (as ts : List (S → S)) (gt : Option S) (R : Res S V C)
    (h : multiParam results n as ts gt = .ok R) :
    R.nIters = totalUpdates runs ∧
    R.perScale = runs.map fun run => (run.updates.length : Int) :=
  multi_counts runs results hrec n as ts gt R h

/-- **C21** (partial: multi-scale non-parametric results). -/
theorem C21_multi_nonparametric_partial (trajs : List (List S)) (results : List (Res S V C))
    (hrec : List.Forall₂ (fun r t => ∃ i g c, nonParam t i g c = .ok r) results trajs) (n : Nat)
    (as ts : List (S → S)) (gt : Option S) (R : Res S V C)
    (h : multiNonParam results n as ts gt = .ok R) :
    R.nIters = (trajs.map List.length).sum := by
  have hm : List.Forall₂ (fun r t => MadeFrom t r) results trajs := by
    refine hrec.imp ?_
    rintro r t ⟨i, g, c, h⟩; exact ⟨i, g, c, Or.inl h⟩
  obtain ⟨hn, r0, rest, shapes, f, hr, h2, -, -, -, -, h3, -⟩ := multiNonParam_ok h
  obtain ⟨h5, h6⟩ := concatShapes_ok hm h2
  rw [h3, h5, List.length_flatten, inImageCoords_map_length h6]

/-- **C21** fails for every multi-scale Lucas-Kanade result: `n_iters` is short by the
number of scales. -/
theorem C21_lk_violated (runs : List (ScaleRun S)) (results : List (Res S V C))
    (hrec : List.Forall₂ (fun r run => Records run r) results runs) (n : Nat)
    (as ts : List (S → S)) (gt : Option S) (R : Res S V C)
    (h : lkMulti results n as ts gt = .ok R) :
    R.nIters = (totalUpdates runs : Int) - n ∧ 0 < n := by
  unfold lkMulti at h
  obtain ⟨R', h1, h2⟩ := bind_ok h
  injection h2 with h2; subst h2
  have := (C21_multi_partial runs results hrec n as ts gt R' h1).1
  obtain ⟨R'', ps, h3, -, rfl⟩ := multiParam_ok h1
  obtain ⟨hn, r0, rest, shapes, f, hr, -⟩ := multiNonParam_ok h3
  refine ⟨by simp only at this ⊢; omega, ?_⟩
  rw [← hn, hr]; simp

/-- **C21** (supervised descent with a parametric shape): the parameters are those of the initial
shape followed by one entry per regressor, each predicted from the previous one; every shape
after the initial one is the shape of its parameters. -/
theorem C21_sdm_parameters {R : Type} (project : S → V) (shape : V → S)
    (step : R → V → Except PyErr V) (regs : List R) (init : S) (gt : Option S) (r : Res S V C)
    (h : fitParametric project shape step regs init gt = .ok r ∨
      fitAamSd project shape step regs init gt = .ok r) :
    ∃ ps : List V, r.params = some ps ∧ ps.length = regs.length + 1 ∧
      ps.head? = some (project init) ∧
      (∀ k reg p, regs[k]? = some reg → ps[k]? = some p →
        ∃ p', ps[k + 1]? = some p' ∧ step reg p = .ok p') ∧
      (r.shapes = init :: ps.tail.map shape ∨ r.shapes = init :: ps.map shape) := by
  have main : ∀ xs, cascade step (project init) regs = .ok xs →
      (project init :: xs).length = regs.length + 1 ∧
      ∀ k reg p, regs[k]? = some reg → (project init :: xs)[k]? = some p →
        ∃ p', (project init :: xs)[k + 1]? = some p' ∧ step reg p = .ok p' := fun xs hx =>
    ⟨by rw [List.length_cons, cascade_length step _ _ _ hx], cascade_get step _ _ _ hx⟩
  rcases h with h | h
  · unfold fitParametric at h
    obtain ⟨xs, h1, h⟩ := bind_ok h
    obtain ⟨f, -, rfl⟩ := param_ok h
    exact ⟨_, rfl, (main xs h1).1, rfl, (main xs h1).2, Or.inl rfl⟩
  · unfold fitAamSd at h
    obtain ⟨xs, h1, h⟩ := bind_ok h
    obtain ⟨f, -, rfl⟩ := param_ok h
    exact ⟨_, rfl, (main xs h1).1, rfl, (main xs h1).2, Or.inr rfl⟩

example : ∃ r : Res Nat Nat Nat, fitParametric (fun s => s + 5) (fun v => v)
    (fun (r : Nat) v => .ok (v + r)) [1, 2, 3] 0 none = .ok r ∧ r.params = some [5, 6, 8, 11] :=
  ⟨_, rfl, rfl⟩

/-- Two scales with 1 and 2 updates: 3 iterations, but Lucas-Kanade reports 1. -/
def twoRuns : List (ScaleRun Nat) := [⟨10, [11]⟩, ⟨20, [21, 22]⟩]

def twoResults : List (Res Nat Nat Nat) :=
  [⟨11, some 1, none, [1, 10, 11], 1, none, some [0, 0], [], 0⟩,
   ⟨22, some 2, none, [2, 20, 21, 22], 2, none, some [0, 0, 0], [], 0⟩]

theorem twoRecorded : List.Forall₂ (fun r run => Records run r) twoResults twoRuns :=
  .cons ⟨[0, 0], some 1, none, none, rfl⟩ (.cons ⟨[0, 0, 0], some 2, none, none, rfl⟩ .nil)

example : ∃ R, multiParam twoResults 2 [id, id] [id, id] none = .ok R ∧ R.nIters = 3 ∧
    R.shapes = [1, 10, 11, 20, 21, 22] := ⟨_, rfl, rfl, rfl⟩

example : ∃ R, lkMulti twoResults 2 [id, id] [id, id] none = .ok R ∧ R.nIters = 1 :=
  ⟨_, rfl, rfl⟩

example : ∃ r : Res Nat Nat Nat, fitParametric (fun s => s) (fun v => v) (fun (r : Nat) v => .ok (v + r))
    [1, 2, 3] 0 none = .ok r ∧ r.nIters = 2 ∧ r.shapes = [0, 1, 3, 6] := ⟨_, rfl, rfl, rfl⟩

/-! ## C22: reconstruction indices -/

/-- **C22** (partial: results whose scales record their reconstruction, i.e. everything but
supervised descent with a parametric shape).  There is one index per scale; they
are strictly increasing; and index `j` points at the reconstruction of scale `j`
in image coordinates. -/
theorem C22_reconstruction_partial (runs : List (ScaleRun S)) (results : List (Res S V C))
    (hrec : List.Forall₂ (fun r run => Records run r) results runs) (n : Nat)
    (as ts : List (S → S)) (gt : Option S) (R : Res S V C)
    (h : multiParam results n as ts gt = .ok R) :
    (reconIndices R).length = n ∧ (reconIndices R).Pairwise (· < ·) ∧
    ∀ (j : Nat) (run : ScaleRun S), runs[j]? = some run → ∃ (p : Nat) (a t : S → S), (reconIndices R)[j]? = some (p : Int) ∧
      as[j]? = some a ∧ ts[j]? = some t ∧ R.shapes[p]? = some (a (t run.recon)) := by
  have hids := reconIndices_eq hrec h
  obtain ⟨R', ps, h1, -, rfl⟩ := multiParam_ok h
  obtain ⟨hn, r0, rest, shapes, f, hr, h2, -, -, hs, -⟩ := multiNonParam_ok h1
  obtain ⟨h5, h6⟩ := concatShapes_ok (records_trajectories hrec) h2
  have hlen : runs.length = n := by rw [← hn, hrec.length_eq]
  refine ⟨by rw [hids, reconFull_length]; simpa using hlen, ?_, ?_⟩
  · rw [hids]
    generalize (if ({ R' with params := some ps, nIters := R'.nIters - n } : Res S V C).initial.isSome
      then (1 : Int) else 0) = v
    clear hids h h1 h2 hr hs h5 h6 hrec hlen
    induction runs generalizing v with
    | nil => simp [reconFull]
    | cons run runs ih =>
      simp only [List.map_cons, reconFull, List.pairwise_cons]
      refine ⟨?_, ih _⟩
      intro x hx
      have := reconFull_ge _ _ (by simp) x hx
      omega
  · intro j run hj
    have hj' : (runs.map ScaleRun.trajectory)[j]? = some run.trajectory := by
      rw [List.getElem?_map, hj]; rfl
    obtain ⟨a, t, ha, ht, hin⟩ := inImageCoords_get h6 hj'
    have hjl : j < runs.length := (List.getElem?_eq_some_iff.mp hj).1
    have hne : ∀ l ∈ inImageCoords (runs.map ScaleRun.trajectory) as ts, 1 ≤ l.length := by
      intro l hl
      have : l.length ∈ (inImageCoords (runs.map ScaleRun.trajectory) as ts).map List.length :=
        List.mem_map_of_mem hl
      rw [inImageCoords_map_length h6] at this
      simp only [List.map_map, List.mem_map, Function.comp_apply, ScaleRun.trajectory] at this
      obtain ⟨q, -, hq⟩ := this
      rw [← hq]; simp
    have hlens : (inImageCoords (runs.map ScaleRun.trajectory) as ts).map (fun l => (l.length : Int) - 1)
        = runs.map fun run => (run.updates.length : Int) := by
      have := congrArg (List.map fun (k : Nat) => (k : Int) - 1) (inImageCoords_map_length h6)
      simpa [List.map_map, Function.comp_def, ScaleRun.trajectory] using this
    obtain ⟨p, hp1, hp2⟩ := flatten_block _ (if R'.initial.isSome then 1 else 0) j 0 _ hne hin
      (by simp [ScaleRun.trajectory])
    rw [hlens] at hp1
    refine ⟨(if R'.initial.isSome then 1 else 0) + p, a, t, ?_, ha, ht, ?_⟩
    · rw [hids, reconFull_get _ _ _ (by simpa using hjl)]
      rw [← hp1]
      simp
    · simp only
      rw [hs, h5]
      cases hi : R'.initial with
      | none => simpa [hi, ScaleRun.trajectory] using hp2
      | some x =>
        have : (some x).toList ++ (inImageCoords (runs.map ScaleRun.trajectory) as ts).flatten =
          x :: (inImageCoords (runs.map ScaleRun.trajectory) as ts).flatten := rfl
        rw [this]
        simp only [Option.isSome_some, if_true]
        rw [Nat.add_comm, List.getElem?_cons_succ, hp2]
        simp [ScaleRun.trajectory]

/-- **C22** fails for supervised descent with a parametric shape: the index points at the
first update, the reconstruction is nowhere in the list. -/
theorem C22_reconstruction_sdm_violated :
    ∃ (r : Res Nat Nat Nat) (R : Res Nat Nat Nat),
      fitParametric (fun _ => 7) (fun v => v) (fun (r : Nat) v => .ok (v + r)) [1, 1] 0 none =
        .ok r ∧
      multiParam [r] 1 [id] [id] none = .ok R ∧
      reconIndices R = [1] ∧ R.shapes = [0, 8, 9] ∧ 7 ∉ R.shapes :=
  ⟨_, _, rfl, rfl, rfl, rfl, by decide⟩

example : ∃ R, multiParam twoResults 2 [id, id] [id, id] none = .ok R ∧
    reconIndices R = [1, 3] := ⟨_, rfl, rfl⟩

/-! ## C23: concatenation in image coordinates -/

/-- **C23**.  The shapes are the initial shape of the first scale followed by the
trajectories of all scales, everything mapped to the image by the scale's own
transforms; the final shape is the mapped final shape of the last scale. -/
theorem C23_concatenation (trajs : List (List S)) (results : List (Res S V C))
    (hmade : List.Forall₂ (fun r t => MadeFrom t r) results trajs) (n : Nat)
    (as ts : List (S → S)) (gt : Option S) (R : Res S V C)
    (h : multiNonParam results n as ts gt = .ok R) :
    results.length = n ∧
    R.shapes = R.initial.toList ++ (inImageCoords trajs as ts).flatten ∧
    (inImageCoords trajs as ts).length = n ∧
    (∀ r0, results.head? = some r0 → ∃ a t, (as.head? = some a ∧ ts.head? = some t) ∧
      R.initial = r0.initial.map fun s => a (t s)) ∧
    (∀ rl a t, results.getLast? = some rl → as[n - 1]? = some a → ts[n - 1]? = some t →
      R.final = a (t rl.final)) := by
  obtain ⟨hn, r0, rest, shapes, f, hr, h2, hf, h3, h4, -, -, -, -, h5, h6⟩ := multiNonParam_ok h
  obtain ⟨h7, h8⟩ := concatShapes_ok hmade h2
  have hlen : trajs.length = n := by rw [← hn, hmade.length_eq]
  refine ⟨hn, by rw [h4, h7], by rw [h8, hlen], ?_, ?_⟩
  · intro r0' h0
    rw [hr] at h0
    simp at h0; subst h0
    cases hi : r0.initial with
    | some s =>
      obtain ⟨a, t, h9, h10, h11⟩ := h6 s hi
      exact ⟨a, t, ⟨h9, h10⟩, by simpa using h11⟩
    | none =>
      cases trajs with
      | nil => rw [hr] at hmade; cases hmade
      | cons t0 trajs =>
        obtain ⟨a, t, h9, h10, -⟩ := inImageCoords_get (i := 0) h8 rfl
        exact ⟨a, t, ⟨by rw [List.head?_eq_getElem?]; exact h9,
          by rw [List.head?_eq_getElem?]; exact h10⟩, by simp [h5 hi]⟩
  · intro rl a t hl ha ht
    have hpos : 0 < n := by rw [← hn, hr]; simp
    have hl' : results[n - 1]? = some rl := by
      rw [List.getLast?_eq_getElem?, hn] at hl; exact hl
    obtain ⟨tl, htl⟩ : ∃ tl, trajs[n - 1]? = some tl :=
      ⟨_, List.getElem?_eq_getElem (by omega)⟩
    obtain ⟨a', t', ha', ht', hin⟩ := inImageCoords_get h8 htl
    rw [ha] at ha'; rw [ht] at ht'
    injection ha' with ha'; injection ht' with ht'; subst ha' ht'
    have hmk : MadeFrom tl rl := by
      have := (List.forall₂_iff_get.mp hmade).2 (n - 1) (by omega) (by omega)
      obtain ⟨h9, h10⟩ := List.getElem?_eq_some_iff.mp hl'
      obtain ⟨h11, h12⟩ := List.getElem?_eq_some_iff.mp htl
      simpa [h10, h12] using this
    have hlast := (madeFrom_ok hmk).1
    have hin' : (inImageCoords trajs as ts).getLast? = some (tl.map fun x => a (t x)) := by
      rw [List.getLast?_eq_getElem?, h8, hlen]; exact hin
    obtain ⟨ys, hys⟩ := List.getLast?_eq_some_iff.mp hin'
    rw [h7, hys] at hf
    rw [List.flatten_append] at hf
    simp only [List.flatten_cons, List.flatten_nil, List.append_nil, List.getLast?_append,
      List.getLast?_map, hlast, Option.map_some, Option.some_or] at hf
    injection hf with hf
    rw [h3, ← hf]

/-- **C23**: the costs and the shape parameters of all scales are concatenated in the order of
the scales; there are costs exactly if the first scale has costs. -/
theorem C23_costs_and_parameters (results : List (Res S V C)) (n : Nat) (as ts : List (S → S))
    (gt : Option S) (R : Res S V C) (h : multiParam results n as ts gt = .ok R) :
    (∃ ps : List (List V), results.map (·.params) = ps.map some ∧ R.params = some ps.flatten) ∧
    ∃ r0, results.head? = some r0 ∧ (r0.costs = none → R.costs = none) ∧
      (r0.costs ≠ none →
        ∃ cs : List (List C), results.map (·.costs) = cs.map some ∧ R.costs = some cs.flatten) := by
  obtain ⟨R', ps, h1, h2, rfl⟩ := multiParam_ok h
  obtain ⟨ls, q1, rfl⟩ := concatOpt_ok h2
  refine ⟨⟨ls, q1, rfl⟩, ?_⟩
  obtain ⟨r0, rest, rfl, h3⟩ := multiNonParam_costs h1
  refine ⟨r0, rfl, fun h0 => ?_, fun h0 => ?_⟩
  · rw [h0] at h3; injection h3 with h3; exact h3.symm
  · cases hc : r0.costs with
    | none => exact absurd hc h0
    | some c =>
      rw [hc] at h3
      cases hk : concatOpt ((r0 :: rest).map (·.costs)) with
      | error e => simp only [concatCosts, hk, Except.map] at h3; cases h3
      | ok l =>
        simp only [concatCosts, hk, Except.map] at h3
        injection h3 with h3
        obtain ⟨cs, q2, rfl⟩ := concatOpt_ok hk
        exact ⟨cs, q2, h3.symm⟩

example : ∃ R, multiParam (S := Nat) [⟨11, some 1, none, [1, 10, 11], 1, some [7, 6], some [1, 2], [], 0⟩,
    ⟨22, some 2, none, [2, 20, 21], 1, some [5, 4], some [3, 4], [], 0⟩] 2 [id, id] [id, id] none =
    .ok R ∧ R.costs = some [7, 6, 5, 4] ∧ R.params = some [1, 2, 3, 4] := ⟨_, rfl, rfl, rfl⟩

/-- **C23**: a different number of results and scales raises `ValueError`, for all kinds of
multi-scale results. -/
theorem C23_length_mismatch (results : List (Res S V C)) (n : Nat) (as ts : List (S → S))
    (gt : Option S) (h : results.length ≠ n) :
    multiNonParam results n as ts gt = .error .valueError ∧
    multiParam results n as ts gt = .error .valueError ∧
    lkMulti results n as ts gt = .error .valueError := by
  have h1 : multiNonParam results n as ts gt = .error .valueError := by
    unfold multiNonParam; rw [if_pos h]
  have h2 : multiParam results n as ts gt = .error .valueError := by
    unfold multiParam; rw [h1]; rfl
  refine ⟨h1, h2, ?_⟩
  unfold lkMulti; rw [h2]; rfl

/-- **C23**: with too few transforms the constructor raises (`IndexError`); it never drops
a scale. -/
theorem C23_missing_transform (trajs : List (List S)) (results : List (Res S V C))
    (hmade : List.Forall₂ (fun r t => MadeFrom t r) results trajs) (n : Nat)
    (as ts : List (S → S)) (gt : Option S) (h : as.length < n ∨ ts.length < n) :
    ∃ e, multiNonParam results n as ts gt = .error e := by
  cases hR : multiNonParam results n as ts gt with
  | error e => exact ⟨e, rfl⟩
  | ok R =>
    exfalso
    have := (C23_concatenation trajs results hmade n as ts gt R hR).2.2.1
    have hle : ∀ (l : List (List S)) (as ts : List (S → S)),
        (inImageCoords l as ts).length ≤ as.length ∧ (inImageCoords l as ts).length ≤ ts.length := by
      intro l
      induction l with
      | nil => intro as ts; simp [inImageCoords]
      | cons x xs ih =>
        intro as ts
        cases as with
        | nil => simp [inImageCoords]
        | cons a as =>
          cases ts with
          | nil => simp [inImageCoords]
          | cons t ts => have := ih as ts; simp only [inImageCoords, List.length_cons]; omega
    have := hle trajs as ts
    omega

example : ∃ R, multiNonParam twoResults 2 [(· + 1), (· + 2)] [(· * 10), (· * 100)] none = .ok R ∧
    R.shapes = [11, 101, 111, 2002, 2102, 2202] ∧ R.final = 2202 := ⟨_, rfl, rfl, rfl⟩

/-! ## C24: labels of the iterations -/

/-- **C24** (partial: non-parametric results, single scale and multi scale).  Viewing all
iterations labels the `j`-th update `iteration j`, the last one `Final`, the
initial shape `Initial`; every label shows its own shape. -/
theorem C24_labels_nonparametric_partial (traj : List S) (r : Res S V C)
    (h : MadeFrom traj r ∨ ∃ results n as ts gt, multiNonParam results n as ts gt = .ok r ∧
      r.shapes = r.initial.toList ++ traj) :
    ∃ assigned, viewNon r .all = .ok assigned ∧
      assigned.map Prod.fst = goodLabels r.initial.isSome traj.length ∧
      assigned.map Prod.snd = r.shapes ∧
      ∀ x ∈ assigned, shown assigned x.1 = some x.2 := by
  have hmain : r.shapes = r.initial.toList ++ traj ∧ traj.getLast? = some r.final := by
    rcases h with h | ⟨results, n, as, ts, gt, h, hs⟩
    · exact ⟨(madeFrom_ok h).2, (madeFrom_ok h).1⟩
    · refine ⟨hs, ?_⟩
      obtain ⟨-, r0, rest, shapes, f, -, -, hf, h1, h2, -⟩ := multiNonParam_ok h
      rw [h2] at hs
      rw [← List.append_cancel_left hs, hf, h1]
  obtain ⟨h1, h2⟩ := viewNon_ok r traj hmain.1 hmain.2
  refine ⟨_, h1, ?_, ?_, ?_⟩
  · rw [List.map_fst_zip (by omega)]
  · rw [List.map_snd_zip (by omega)]
  · apply shown_of_nodup
    rw [List.map_fst_zip (by omega)]
    exact goodLabels_nodup _ _

/-- **C24** (partial): viewing some of the iterations labels them as in the full view. -/
theorem C24_labels_subset_partial (r : Res S V C) (full : List (Label × S))
    (hfull : viewNon r .all = .ok full) (l : List Nat) (hl : ∀ j ∈ l, j < r.shapes.length) :
    ∃ assigned, viewNon r (.list (l.map fun (j : Nat) => (j : Int))) = .ok assigned ∧
      assigned.map some = l.map fun j => full[j]? := by
  have key : ∀ j, j < r.shapes.length → ∃ y, labelNon r (j : Int) = .ok y ∧ full[j]? = some y := by
    intro j hj
    unfold viewNon parseIters at hfull
    simp only [bind, Except.bind] at hfull
    refine mapM_get hfull j (j : Int) ?_
    rw [List.getElem?_map, List.getElem?_range hj]; rfl
  cases l with
  | nil => exact ⟨[], rfl, rfl⟩
  | cons j0 js =>
    obtain ⟨y0, -, hy0⟩ := key j0 (hl j0 (by simp))
    refine ⟨(((j0 :: js).map fun (j : Nat) => (j : Int)).map
      fun j => (full[j.toNat]?).getD y0), ?_, ?_⟩
    · unfold viewNon parseIters
      simp only [bind, Except.bind]
      rw [mapM_ok (labelNon r) (fun j => (full[j.toNat]?).getD y0)]
      intro x hx
      obtain ⟨j, hj, rfl⟩ := List.mem_map.mp hx
      obtain ⟨y, h1, h2⟩ := key j (hl j hj)
      rw [h1]; simp [h2]
    · rw [List.map_map, List.map_map]
      apply List.map_congr_left
      intro j hj
      obtain ⟨y, h1, h2⟩ := key j (hl j hj)
      simp [h2]

/-- **C24** (partial: multi-scale parametric results with an initial shape; updates only).
Every update is labelled with its number over all scales (the last shape of the
result is labelled `Final`), and shown with its shape in image coordinates. -/
theorem C24_labels_multi_partial (runs : List (ScaleRun S)) (results : List (Res S V C))
    (hrec : List.Forall₂ (fun r run => Records run r) results runs) (n : Nat)
    (as ts : List (S → S)) (gt : Option S) (R : Res S V C)
    (h : multiParam results n as ts gt = .ok R) (hinit : R.initial.isSome)
    (assigned : List (Label × S)) (hv : viewMulti R .all = .ok assigned)
    (i k : Nat) (run : ScaleRun S) (u : S) (hi : runs[i]? = some run)
    (hu : run.updates[k]? = some u) :
    ∃ (p : Nat) (a t : S → S) (x : Label × S), as[i]? = some a ∧ ts[i]? = some t ∧
      R.shapes[p]? = some (a (t u)) ∧ assigned[p]? = some x ∧
      (p + 1 < R.shapes.length → x = (.iteration (updateNumber runs i k), a (t u))) ∧
      (p + 1 = R.shapes.length → x = (.final, R.final)) := by
  obtain ⟨p, a, t, ha, ht, hp, -, h1, h2⟩ := labelMulti_update hrec h (-1) i k run u hi hu
  have hlt : p < R.shapes.length := (List.getElem?_eq_some_iff.mp hp).1
  unfold viewMulti parseIters at hv
  simp only [bind, Except.bind] at hv
  obtain ⟨y, hy1, hy2⟩ := mapM_get hv p (p : Int) (by
    rw [List.getElem?_map, List.getElem?_range hlt]; rfl)
  rw [if_pos hinit] at hy1
  rw [if_pos hinit] at h1
  refine ⟨p, a, t, y, ha, ht, hp, hy2, ?_, ?_⟩
  · intro hl
    rw [h1 hl] at hy1
    injection hy1 with hy1
    rw [← hy1]
    unfold updateNumber
    push_cast
    congr 2; omega
  · intro hl
    rw [h2 hl] at hy1
    injection hy1 with hy1
    exact hy1.symm

/-- **C24** (partial: single-scale parametric results without an initial shape). -/
theorem C24_labels_parametric_partial (run : ScaleRun S) (r : Res S V C) (h : Records run r)
    (hinit : r.initial = none) (k : Nat) (u : S) (hu : run.updates[k]? = some u) :
    ∀ assigned, viewPar r .all = .ok assigned →
      assigned[k + 1]? = some (if k + 1 = run.updates.length then (.final, u)
        else (.iteration (k + 1), u)) := by
  intro assigned hv
  obtain ⟨ps, init, gt, costs, h⟩ := h
  obtain ⟨f, hf, rfl⟩ := param_ok h
  simp only at hinit
  subst hinit
  have hkl : k < run.updates.length := (List.getElem?_eq_some_iff.mp hu).1
  unfold viewPar parseIters at hv
  simp only [bind, Except.bind] at hv
  obtain ⟨y, hy1, hy2⟩ := mapM_get hv (k + 1) ((k + 1 : Nat) : Int) (by
    rw [List.getElem?_map, List.getElem?_range (by simp; omega)]; rfl)
  rw [hy2]
  unfold labelPar reconIndex at hy1
  have h0 : ¬ ((k + 1 : Nat) : Int) = 0 := by omega
  have hm : ¬ ((k + 1 : Nat) : Int) ∈ ([0] : List Int) := by
    rw [List.mem_singleton]; omega
  simp only [h0, if_false, Option.isSome_none, Bool.false_eq_true, hm] at hy1
  have hsl : ((Option.none (α := S)).toList ++ (run.recon :: run.updates)).length =
    run.updates.length + 1 := by simp
  rw [hsl] at hy1
  by_cases hk : k + 1 = run.updates.length
  · rw [if_pos (by omega)] at hy1
    injection hy1 with hy1
    rw [if_pos hk, ← hy1]
    have : run.updates.getLast? = some u := by
      rw [List.getLast?_eq_getElem?, ← hu]; congr 1; omega
    have : (run.recon :: run.updates).getLast? = some u := by
      rw [show run.recon :: run.updates = [run.recon] ++ run.updates from rfl,
        List.getLast?_append, this]; rfl
    rw [this] at hf
    injection hf with hf
    rw [hf]
  · rw [if_neg (by omega)] at hy1
    have hl : lastLe ((k + 1 : Nat) : Int) [0] = some 0 := by simp [lastLe]; omega
    rw [scaleOfIter, hl, pyGet_nat _ (k + 1) u (by simpa using hu)] at hy1
    simp only [pure, Except.pure] at hy1
    injection hy1 with hy1
    rw [if_neg hk, ← hy1]
    simp

/-- **C24** fails for single-scale parametric results with an initial shape: the first of
two or more updates is labelled `iteration 3`. -/
theorem C24_labels_parametric_violated :
    ∃ (r : Res Nat Nat Nat) (assigned : List (Label × Nat)),
      Records ⟨10, [11, 12, 13]⟩ r ∧ viewPar r .all = .ok assigned ∧
      assigned = [(.initial, 1), (.reconstruction, 10), (.iteration 3, 11), (.iteration 4, 12),
        (.final, 13)] :=
  ⟨_, _, ⟨[], some 1, none, none, rfl⟩, rfl, rfl⟩

/-- **C24** fails for multi-scale parametric results without an initial shape: whatever the
runs, the first update of the first scale is labelled `iteration -1` (unless it
is the last shape of the result). -/
theorem C24_labels_multi_violated (runs : List (ScaleRun S)) (results : List (Res S V C))
    (hrec : List.Forall₂ (fun r run => Records run r) results runs) (n : Nat)
    (as ts : List (S → S)) (gt : Option S) (R : Res S V C)
    (h : multiParam results n as ts gt = .ok R) (hinit : R.initial = none)
    (run : ScaleRun S) (u : S) (hi : runs[0]? = some run)
    (hu : run.updates[0]? = some u) (hlen : 2 < R.shapes.length)
    (assigned : List (Label × S)) (hv : viewMulti R .all = .ok assigned) :
    ∃ s, assigned[1]? = some (.iteration (-1), s) := by
  obtain ⟨p, a, t, ha, ht, hp, hp1, h1, -⟩ := labelMulti_update hrec h (-2) 0 0 run u hi hu
  rw [hinit] at hp1 h1
  simp [totalShapes] at hp1
  have hp1 : p = 1 := by omega
  subst hp1
  unfold viewMulti parseIters at hv
  simp only [bind, Except.bind] at hv
  obtain ⟨y, hy1, hy2⟩ := mapM_get hv 1 ((1 : Nat) : Int) (by
    rw [List.getElem?_map, List.getElem?_range (by omega)]; rfl)
  rw [hinit] at hy1
  simp only [Option.isSome_none, Bool.false_eq_true, if_false] at hy1
  rw [h1 (by omega)] at hy1
  injection hy1 with hy1
  exact ⟨a (t u), by rw [hy2, ← hy1]; simp [totalUpdates]⟩

/-- **C24** fails for results with several scales: the reconstructions of all scales get the
same label, only the last one can be seen. -/
theorem C24_labels_overwritten_violated :
    ∃ R assigned, multiParam twoResults 2 [id, id] [id, id] none = .ok R ∧
      viewMulti R .all = .ok assigned ∧
      assigned.map Prod.fst = [.initial, .reconstruction, .iteration 1, .reconstruction,
        .iteration 2, .final] ∧
      (Label.reconstruction, 10) ∈ assigned ∧ shown assigned .reconstruction = some 20 :=
  ⟨_, _, rfl, rfl, rfl, by decide, rfl⟩

example : ∃ (r : Res Nat Nat Nat) (as : List (Label × Nat)),
    MadeFrom [10, 11, 12] r ∧ viewNon r .all = .ok as ∧
    as = [(.initial, 1), (.iteration 1, 10), (.iteration 2, 11), (.final, 12)] :=
  ⟨_, _, ⟨some 1, none, none, Or.inl rfl⟩, rfl, rfl⟩

/-! ## C25: errors and displacements line up with the shapes -/

/-- **C25** (errors).  With a ground truth there is one error per shape, computed at that
shape; the last is the final error and, if an initial shape was given, the first
is the initial error. -/
theorem C25_errors {K : Type} (r : Res S V C) (hmade : IsResult r)
    (compute : S → S → K) (g : S) (hg : r.gt = some g) :
    ∃ es e, errors r compute = .ok es ∧ finalError r compute = .ok e ∧
      es.length = r.shapes.length ∧
      (∀ (i : Nat) (s : S), r.shapes[i]? = some s → es[i]? = some (compute s g)) ∧
      es.getLast? = some e ∧
      (∀ s, r.initial = some s → ∃ e0, initialError r compute = .ok e0 ∧ es.head? = some e0) := by
  have hmain : r.shapes.getLast? = some r.final ∧
      ∀ s, r.initial = some s → r.shapes.head? = some s := by
    rcases hmade with ⟨traj, h⟩ | ⟨results, n, as, ts, gt, h⟩
    · exact ⟨(C20_final_single traj r h).1, (C20_final_single traj r h).2.1⟩
    · exact C20_final_multi results n as ts gt r h
  refine ⟨r.shapes.map fun t => compute t g, compute r.final g, by simp [errors, hg],
    by simp [finalError, hg], by simp, ?_, ?_, ?_⟩
  · intro i s hs; rw [List.getElem?_map, hs]; rfl
  · rw [List.getLast?_map, hmain.1]; rfl
  · intro s hs
    refine ⟨compute s g, by simp [initialError, hs, hg], ?_⟩
    rw [List.head?_map, hmain.2 s hs]; rfl

/-- **C25**: without a ground truth the error functions raise `ValueError`; so does the
initial error without an initial shape. -/
theorem C25_errors_missing {K : Type} (r : Res S V C) (compute : S → S → K) :
    (r.gt = none → errors r compute = .error .valueError ∧
      finalError r compute = .error .valueError ∧ initialError r compute = .error .valueError) ∧
    (r.initial = none → initialError r compute = .error .valueError) := by
  constructor
  · intro h
    refine ⟨by simp [errors, h], by simp [finalError, h], ?_⟩
    unfold initialError
    cases r.initial <;> simp [h]
  · intro h; simp [initialError, h]

/-- **C25** (displacements): one entry per pair of consecutive shapes, holding the
distances of corresponding points. -/
theorem C25_displacements {P K : Type} (dist : P → P → K) (r : Res (List P) V C) :
    (displacements dist r).length = r.shapes.length - 1 ∧
    ∀ (i : Nat) (s1 s2 : List P), r.shapes[i]? = some s1 → r.shapes[i + 1]? = some s2 →
      ∃ d, (displacements dist r)[i]? = some d ∧
        ∀ (k : Nat) (p q : P), s1[k]? = some p → s2[k]? = some q → d[k]? = some (dist p q) := by
  constructor
  · simp [displacements]
  · intro i s1 s2 h1 h2
    refine ⟨List.zipWith dist s1 s2, ?_, ?_⟩
    · unfold displacements
      rw [List.getElem?_zipWith, h1, List.getElem?_tail, h2]
    · intro k p q hp hq
      rw [List.getElem?_zipWith, hp, hq]

/-- **C25** (statistics): the four known names give one number per displacement, computed by
the statistic of that name; every other name raises `ValueError`. -/
theorem C25_displacement_stats {P K : Type} [Field K] [LinearOrder K] (dist : P → P → K)
    (r : Res (List P) V C) (name : String) :
    (name ∉ ["mean", "median", "max", "min"] →
      displacementsStats dist name r = .error .valueError) ∧
    (∀ f : List K → K, (name, f) = ("mean", Stats.npMean) ∨ (name, f) = ("median", Stats.npMedian) ∨
        (name, f) = ("max", Stats.npMax) ∨ (name, f) = ("min", Stats.npMin) →
      displacementsStats dist name r = .ok ((displacements dist r).map f)) := by
  constructor
  · intro h
    simp only [List.mem_cons, List.not_mem_nil, or_false, not_or] at h
    simp [displacementsStats, h]
  · rintro f (h | h | h | h) <;>
    · obtain ⟨rfl, rfl⟩ := Prod.mk.inj h
      simp [displacementsStats]

example : ∃ r : Res (List Int) Nat Nat, MadeFrom [[1, 5], [2, 9]] r ∧ r.gt = some [0, 0] ∧
    r.initial = some [0, 0] ∧
    displacements (fun a b => (a - b).natAbs) r = [[1, 5], [1, 4]] :=
  ⟨_, ⟨some [0, 0], some [0, 0], none, Or.inl rfl⟩, rfl, rfl, rfl⟩

end Menpofit
