import Verif.Spec.ResultShow
import Verif.Props.Result
/-!
# What a result shows (C126)
-/

namespace Menpofit
open Result ResultShow Spec

variable {S V C K Col A : Type}

/-! ## The figure -/

/-- **C126** (`view`): the figure draws the final shape if asked for, then the initial shape
and the ground truth if asked for and known, each with its own title and its own colours;
nothing else is drawn and nothing is drawn twice.  The image is rendered only if there is
one. -/
theorem C126_view (r : Res S V C) (hasImage renderImage rf ri rg : Bool) (cf ci cg : Colours Col) :
    drawn (view r hasImage renderImage rf ri rg cf ci cg) =
      (if rf then [some ⟨"Final", r.final, cf.face, cf.edge, cf.line⟩] else []) ++
      (if ri then r.initial.toList.map fun s => some ⟨"Initial", s, ci.face, ci.edge, ci.line⟩
        else []) ++
      (if rg then r.gt.toList.map fun s => some ⟨"Groundtruth", s, cg.face, cg.edge, cg.line⟩
        else []) ∧
    (view r hasImage renderImage rf ri rg cf ci cg).renderImage = (hasImage && renderImage) ∧
    (view r hasImage renderImage rf ri rg cf ci cg).groups.Nodup := by
  obtain ⟨fin, ini, gt, shapes, n, costs, params, ps, ns⟩ := r
  cases rf <;> cases ri <;> cases rg <;> cases ini <;> cases gt <;> cases hasImage <;>
    simp [view, blank, Figure.add, put, drawn, drawnAt, entryOf, List.range_succ]

/-! ## The curves -/

private theorem zip_range (l : List K) : (List.range l.length).zip l = numbered l := by
  apply List.ext_getElem?
  intro i
  simp only [numbered, List.getElem?_mapIdx]
  by_cases hi : i < l.length
  · simp [hi]
  · simp [hi]

/-- **C126** (errors): with a ground truth the plot is the single curve whose point at `k` is
the error of the `k`-th entry of `shapes`; without one it raises `ValueError`. -/
theorem C126_errors_curve (r : Res S V C) (compute : S → S → K) :
    (∀ g, r.gt = some g → ∃ c, plotErrors r compute = .ok c ∧
      curvePoints c = [numbered (r.shapes.map fun s => compute s g)] ∧
      c.x.length = r.shapes.length) ∧
    (r.gt = none → plotErrors r compute = .error .valueError) := by
  constructor
  · intro g hg
    refine ⟨_, by unfold plotErrors errors; rw [hg]; rfl, ?_, by simp⟩
    simp only [curvePoints, List.map_cons, List.map_nil, zip_range]
  · intro hg
    unfold plotErrors errors
    rw [hg]; rfl

/-- **C126** (costs): if the result has costs the plot is the single curve whose point at `k`
is the `k`-th cost; otherwise it raises `ValueError`. -/
theorem C126_costs_curve (r : Res S V C) :
    (∀ cs, r.costs = some cs → ∃ c, plotCosts r = .ok c ∧ curvePoints c = [numbered cs] ∧
      c.x.length = cs.length) ∧
    (r.costs = none → plotCosts r = .error .valueError) := by
  constructor
  · intro cs hcs
    refine ⟨_, by unfold plotCosts; rw [hcs], ?_, by simp⟩
    simp only [curvePoints, List.map_cons, List.map_nil, zip_range]
  · intro hcs
    unfold plotCosts
    rw [hcs]

/-- **C126** (displacements): for each of the four statistics the plot is the single curve
whose point at `k` is that statistic of the distances that the points moved between the
`k`-th and the next entry of `shapes`, and both labels name the statistic; any other
statistic raises `ValueError`. -/
theorem C126_displacements_curve {P : Type} [Field K] [LinearOrder K] (dist : P → P → K)
    (r : Res (List P) V C) :
    (∀ t name stat, (t, name, stat) ∈ [("mean", "Mean", Stats.npMean), ("max", "Maximum", Stats.npMax),
        ("min", "Minimum", Stats.npMin), ("median", "Median", Stats.npMedian (K := K))] →
      ∃ c ys, plotDisplacements dist r t = .ok c ∧ curvePoints c = [numbered ys] ∧
        c.title = name ++ " displacement per Iteration" ∧ c.yLabel = name ++ " Displacement" ∧
        ys.length = r.shapes.length - 1 ∧ c.x.length = ys.length ∧
        ∀ (k : Nat) (s s' : List P), r.shapes[k]? = some s → r.shapes[k + 1]? = some s' →
          ys[k]? = some (stat (List.zipWith dist s s'))) ∧
    (∀ t, t ∉ ["mean", "max", "min", "median"] →
      plotDisplacements dist r t = .error .valueError) := by
  constructor
  · intro t name stat ht
    have key : plotDisplacements dist r t = .ok
        { x := List.range ((displacements dist r).map stat).length
          y := [(displacements dist r).map stat]
          title := name ++ " displacement per Iteration"
          xLabel := "Iteration", yLabel := name ++ " Displacement" } := by
      simp only [List.mem_cons, Prod.mk.injEq, List.not_mem_nil, or_false] at ht
      rcases ht with ⟨rfl, rfl, rfl⟩ | ⟨rfl, rfl, rfl⟩ | ⟨rfl, rfl, rfl⟩ | ⟨rfl, rfl, rfl⟩ <;> rfl
    refine ⟨_, (displacements dist r).map stat, key, ?_, rfl, rfl, ?_, by simp, ?_⟩
    · simp only [curvePoints, List.map_cons, List.map_nil, zip_range]
    · simp only [displacements, List.length_map, List.length_zipWith, List.length_tail]; omega
    · intro k s s' h1 h2
      simp [displacements, h1, h2, List.getElem?_zipWith, List.getElem?_tail]
  · intro t ht
    simp only [List.mem_cons, List.not_mem_nil, or_false, not_or] at ht
    obtain ⟨h1, h2, h3, h4⟩ := ht
    simp [plotDisplacements, statName, h1, h2, h3, h4, bind, Except.bind]

/-! ## One abscissa for all the plots? -/

/-- **C126** (partial): a result without an initial shape, whose costs are those of its
shapes, is plotted consistently: at every `k` the two plots speak of the same shape. -/
theorem C126_same_abscissa_partial (traj : List S) (cost : S → C) (g : S) (ps : List V)
    (r : Res S V C) (h : param traj ps none (some g) (some (traj.map cost)) = .ok r)
    (compute : S → S → K) :
    ∃ c e, plotCosts r = .ok c ∧ plotErrors r compute = .ok e ∧
      curvePoints c = [numbered (r.shapes.map cost)] ∧
      curvePoints e = [numbered (r.shapes.map fun s => compute s g)] := by
  have hr := (madeFrom_ok (traj := traj) (r := r) ⟨none, some g, some (traj.map cost), Or.inr ⟨ps, h⟩⟩).2
  obtain ⟨hg, hc, hi⟩ : r.gt = some g ∧ r.costs = some (traj.map cost) ∧ r.initial = none := by
    unfold param at h
    obtain ⟨r', h1, h2⟩ := bind_ok h
    injection h2 with h2; subst h2
    unfold nonParam at h1
    cases hl : traj.getLast? with
    | none => rw [hl] at h1; cases h1
    | some f => rw [hl] at h1; injection h1 with h1; subst h1; exact ⟨rfl, rfl, rfl⟩
  rw [hi] at hr
  obtain ⟨c, hc1, hc2, -⟩ := (C126_costs_curve r).1 _ hc
  obtain ⟨e, he1, he2, -⟩ := (C126_errors_curve r compute).1 g hg
  refine ⟨c, e, hc1, he1, ?_, he2⟩
  rw [hc2, hr]; rfl

/-- **C126** (violated): every result that knows its initial shape - all those that the
algorithms return - is plotted inconsistently.  Both axes are labelled `Iteration`, but the
point of the costs at `k` belongs to the shape whose error is drawn at `k + 1`. -/
theorem C126_same_abscissa_violated (traj : List S) (cost : S → C) (i g : S) (ps : List V)
    (r : Res S V C) (h : param traj ps (some i) (some g) (some (traj.map cost)) = .ok r)
    (compute : S → S → K) :
    ∃ c e, plotCosts r = .ok c ∧ plotErrors r compute = .ok e ∧ c.xLabel = e.xLabel ∧
      e.x.length = c.x.length + 1 ∧
      ∀ (k : Nat) (s : S), r.shapes[k + 1]? = some s →
        (∃ ys ∈ curvePoints c, (k, cost s) ∈ ys) ∧
        (∃ ys ∈ curvePoints e, (k + 1, compute s g) ∈ ys) := by
  have hr := (madeFrom_ok (traj := traj) (r := r) ⟨some i, some g, some (traj.map cost), Or.inr ⟨ps, h⟩⟩).2
  obtain ⟨hg, hc, hi⟩ : r.gt = some g ∧ r.costs = some (traj.map cost) ∧ r.initial = some i := by
    unfold param at h
    obtain ⟨r', h1, h2⟩ := bind_ok h
    injection h2 with h2; subst h2
    unfold nonParam at h1
    cases hl : traj.getLast? with
    | none => rw [hl] at h1; cases h1
    | some f => rw [hl] at h1; injection h1 with h1; subst h1; exact ⟨rfl, rfl, rfl⟩
  rw [hi] at hr
  obtain ⟨c, hc1, hc2, hc3⟩ := (C126_costs_curve r).1 _ hc
  obtain ⟨e, he1, he2, he3⟩ := (C126_errors_curve r compute).1 g hg
  refine ⟨c, e, hc1, he1, ?_, ?_, ?_⟩
  · unfold plotCosts at hc1; rw [hc] at hc1; injection hc1 with hc1
    unfold plotErrors errors at he1; rw [hg] at he1; injection he1 with he1
    rw [← hc1, ← he1]
  · rw [he3, hc3, hr]; simp
  · intro k s hs
    have hs' : traj[k]? = some s := by rw [hr] at hs; simpa using hs
    refine ⟨⟨_, by rw [hc2]; exact List.mem_singleton.2 rfl, ?_⟩,
      ⟨_, by rw [he2]; exact List.mem_singleton.2 rfl, ?_⟩⟩
    · apply List.mem_of_getElem? (i := k)
      simp [numbered, hs']
    · apply List.mem_of_getElem? (i := k + 1)
      simp [numbered, hs]

/-- The two theorems are met: a run of two updates, with and without its initial shape. -/
example : ∃ r : Res Nat Nat Nat, param [3, 4, 5] [3, 4, 5] (some 2) (some 9)
    (some ([3, 4, 5].map (· * 10))) = .ok r ∧ r.shapes = [2, 3, 4, 5] ∧
    (plotCosts r).toOption.map curvePoints = some [[(0, 30), (1, 40), (2, 50)]] ∧
    (plotErrors r fun a b => b - a).toOption.map curvePoints = some [[(0, 7), (1, 6), (2, 5), (3, 4)]] :=
  ⟨_, rfl, rfl, rfl, rfl⟩

example : ∃ r : Res Nat Nat Nat, param [3, 4, 5] [3, 4, 5] none (some 9)
    (some ([3, 4, 5].map (· * 10))) = .ok r ∧
    (plotCosts r).toOption.map curvePoints = some [[(0, 30), (1, 40), (2, 50)]] ∧
    (plotErrors r fun a b => b - a).toOption.map curvePoints = some [[(0, 6), (1, 5), (2, 4)]] :=
  ⟨_, rfl, rfl, rfl⟩

/-! ## The printed summary -/

/-- **C126** (`str`, no ground truth): no error is printed. -/
theorem C126_summary_unknown (k : Kind) (r : Res S V C) (compute : S → S → K)
    (h : r.gt = none) : summary k r compute = .ok [] := by
  unfold summary; rw [h]; rfl

/-- **C126** (`str`, single scale): printing the result of a run never raises, and prints
the errors of the initial shape (if known; for a parametric result also of its model
reconstruction) and of the last shape of the run. -/
theorem C126_summary_single (run : ScaleRun S) (ps : List V) (init : Option S) (g : S)
    (costs : Option (List C)) (r : Res S V C) (compute : S → S → K) :
    (nonParam run.trajectory init (some g) costs = .ok r →
      summary .nonParametric r compute = .ok (
        (init.toList.map fun i => ("Initial error", compute i g)) ++
        [("Final error", compute (run.trajectory.getLast (by simp [ScaleRun.trajectory])) g)])) ∧
    (param run.trajectory ps init (some g) costs = .ok r →
      summary .parametric r compute = .ok (
        (init.toList.flatMap fun i => [("Initial error", compute i g),
          ("Reconstructed initial error", compute run.recon g)]) ++
        [("Final error", compute (run.trajectory.getLast (by simp [ScaleRun.trajectory])) g)])) := by
  have hl : run.trajectory.getLast? = some (run.trajectory.getLast (by simp [ScaleRun.trajectory])) :=
    List.getLast?_eq_some_getLast _
  constructor
  · intro h
    unfold nonParam at h
    rw [hl] at h
    injection h with h
    subst h
    cases init <;> rfl
  · intro h
    unfold param nonParam at h
    rw [hl] at h
    injection h with h
    subst h
    cases init <;> rfl

/-- **C126** (`str`, several scales): the numbers are those of the image: the initial error
is that of the mapped initial shape of the first scale, the reconstructed one that of its
mapped reconstruction, the final one that of `final_shape`. -/
theorem C126_summary_multi (runs : List (ScaleRun S)) (results : List (Res S V C))
    (hrec : List.Forall₂ (fun r run => Records run r) results runs) (n : Nat)
    (as ts : List (S → S)) (g : S) (R : Res S V C)
    (h : multiParam results n as ts (some g) = .ok R) (compute : S → S → K) :
    ∃ (r0 : Res S V C) (run0 : ScaleRun S) (a t : S → S), results.head? = some r0 ∧ runs.head? = some run0 ∧
      as.head? = some a ∧ ts.head? = some t ∧
      summary .multiScale R compute = .ok (
        (r0.initial.toList.flatMap fun i => [("Initial error", compute (a (t i)) g),
          ("Reconstructed initial error", compute (a (t run0.recon)) g)]) ++
        [("Final error", compute R.final g)]) := by
  obtain ⟨hl, -, h22⟩ := C22_reconstruction_partial runs results hrec n as ts (some g) R h
  obtain ⟨R', ps, h1, -, hR⟩ := multiParam_ok h
  have hmade : List.Forall₂ (fun r t => MadeFrom t r) results (runs.map ScaleRun.trajectory) :=
    records_trajectories hrec
  obtain ⟨hn, -, -, h23, -⟩ := C23_concatenation _ results hmade n as ts (some g) R' h1
  obtain ⟨-, r0, rest, shapes, f, hr0, -, -, -, -, hgt', -⟩ := multiNonParam_ok h1
  have hgt : R.gt = some g := by rw [hR]; exact hgt'
  have hlen : runs.length = n := by rw [← hn, hrec.length_eq]
  obtain ⟨run0, runs', hruns⟩ : ∃ run0 runs', runs = run0 :: runs' := by
    cases runs with
    | nil => rw [hr0] at hrec; cases hrec
    | cons a b => exact ⟨a, b, rfl⟩
  obtain ⟨a, t, ⟨ha, ht⟩, hinit⟩ := h23 r0 (by rw [hr0]; rfl)
  have hinit' : R.initial = r0.initial.map fun s => a (t s) := by rw [hR]; exact hinit
  refine ⟨r0, run0, a, t, by rw [hr0]; rfl, by rw [hruns]; rfl, ha, ht, ?_⟩
  obtain ⟨all, hall⟩ : ∃ all, (reconIndices R).mapM (pyGet R.shapes) = .ok all := by
    have gen : ∀ l : List Int, (∀ (j : Nat) x, l[j]? = some x → ∃ y, pyGet R.shapes x = .ok y) →
        ∃ all, l.mapM (pyGet R.shapes) = .ok all := by
      intro l
      induction l with
      | nil => intro _; exact ⟨[], rfl⟩
      | cons x l ih =>
        intro hx
        obtain ⟨y, hy⟩ := hx 0 x rfl
        obtain ⟨ys, hys⟩ := ih fun j z hz => hx (j + 1) z (by simpa using hz)
        exact ⟨y :: ys, by rw [List.mapM_cons, hy, hys]; rfl⟩
    refine gen _ fun j x hj => ?_
    have hjn : j < runs.length := by
      rw [hlen, ← hl]; exact (List.getElem?_eq_some_iff.mp hj).1
    obtain ⟨p, a', t', hp, -, -, hs⟩ := h22 j runs[j] (by simp [hjn])
    rw [hj] at hp
    injection hp with hp
    subst hp
    exact ⟨_, pyGet_nat _ _ _ hs⟩
  obtain ⟨p, a', t', hp, ha', ht', hs⟩ := h22 0 run0 (by rw [hruns]; rfl)
  obtain rfl : a = a' := by
    rw [← List.head?_eq_getElem?, ha] at ha'; injection ha'
  obtain rfl : t = t' := by
    rw [← List.head?_eq_getElem?, ht] at ht'; injection ht'
  obtain ⟨y, hy, hall0⟩ := mapM_get hall 0 _ hp
  rw [pyGet_nat _ _ _ hs] at hy
  injection hy with hy
  subst hy
  have hrecon : reconstructedError .multiScale R compute = .ok (compute (a (t run0.recon)) g) := by
    unfold reconstructedError reconstructedShape
    rw [hgt]
    simp only [hall, bind, Except.bind]
    have := pyGet_nat all 0 _ hall0
    simp only [Nat.cast_zero] at this
    rw [this]; rfl
  unfold summary
  rw [hgt]
  cases hi : r0.initial with
  | none =>
    rw [hi] at hinit'
    simp only [Option.map_none] at hinit'
    simp [hinit', finalError, hgt, bind, Except.bind, pure, Except.pure]
  | some s =>
    rw [hi] at hinit'
    simp only [Option.map_some] at hinit'
    simp [hinit', finalError, initialError, hrecon, hgt, bind, Except.bind, pure, Except.pure]

/-- The text: the captions and numbers of the summary, each on a line of its own, after the
number of points. -/
theorem C126_text (k : Kind) (r : Res S V C) (compute : S → S → K) (nPoints : S → Nat)
    (fmt : K → String) (ls : List (String × K)) (h : summary k r compute = .ok ls) :
    str k r compute nPoints fmt = .ok (textLines
      ("Fitting result of " ++ toString (nPoints r.final) ++ " landmark points.")
      (ls.map fun l => l.1 ++ ": " ++ fmt l.2)) := by
  unfold str
  rw [h]
  simp only [bind, Except.bind, pure, Except.pure, Except.ok.injEq]
  generalize ("Fitting result of " ++ toString (nPoints r.final) ++ " landmark points.") = s
  clear h
  have app : ∀ (l : List String) (a b : String), textLines (a ++ b) l = a ++ textLines b l := by
    intro l a b
    cases l with
    | nil => rfl
    | cons x l => simp [textLines, String.append_assoc]
  induction ls generalizing s with
  | nil => rfl
  | cons l ls ih =>
    rw [List.foldl_cons, ih]
    simp only [List.map_cons, textLines]
    rw [← app]
    simp only [String.append_assoc]

/-! ## The lists of the AAM, unified and APS results -/

/-- The shapes of each scale, in image coordinates, next to the entries of its extra list. -/
private theorem zip_flatten {α β : Type} (xs : List (List α)) (ys : List (List β))
    (h : List.Forall₂ (fun x y => x.length = y.length) xs ys) :
    xs.flatten.zip ys.flatten = (List.zipWith List.zip xs ys).flatten ∧
    xs.flatten.length = ys.flatten.length := by
  induction h with
  | nil => exact ⟨rfl, rfl⟩
  | cons hxy _ ih =>
    refine ⟨?_, ?_⟩
    · simp only [List.flatten_cons, List.zipWith_cons_cons]
      rw [List.zip_append hxy, ih.1]
    · simp only [List.flatten_cons, List.length_append]
      rw [hxy, ih.2]

private theorem concat_aligned (trajs : List (List S)) (results : List (Res S V C))
    (hmade : List.Forall₂ (fun r t => MadeFrom t r) results trajs) (n : Nat)
    (as ts : List (S → S)) (gt : Option S) (R : Res S V C)
    (h : multiParam results n as ts gt = .ok R) (first : Option (List A))
    (extras : List (Option (List A))) (hf : extras.head? = some first) (app : Option (List A))
    (h2 : concatCosts first extras = .ok app) (apps : List (List A))
    (happs : extras = apps.map some) (hlen : List.Forall₂ (fun t a => t.length = a.length) trajs apps) :
    ∃ l, app = some l ∧ l.length = (computedShapes R).length ∧
      (computedShapes R).zip l = (List.zipWith List.zip (inImageCoords trajs as ts) apps).flatten := by
  obtain ⟨R', ps, h3, -, hR⟩ := multiParam_ok h
  obtain ⟨hn, hsh, hn', -⟩ := C23_concatenation trajs _ hmade n as ts gt R' h3
  have hcs : computedShapes R = (inImageCoords trajs as ts).flatten := by
    subst hR
    unfold computedShapes
    simp only [hsh]
    cases R'.initial <;> simp
  have hinl : (inImageCoords trajs as ts).length = trajs.length := by
    rw [hn', ← hn, hmade.length_eq]
  have hl : List.Forall₂ (fun x y => x.length = y.length) (inImageCoords trajs as ts) apps := by
    have := inImageCoords_map_length hinl
    rw [← List.forall₂_map_left_iff (f := List.length) (R := fun (k : Nat) (y : List A) => k = y.length),
      this, List.forall₂_map_left_iff]
    exact hlen
  obtain ⟨z1, z2⟩ := zip_flatten _ _ hl
  subst happs
  cases apps with
  | nil => simp at hf
  | cons x xs =>
    simp only [List.map_cons, List.head?_cons, Option.some.injEq] at hf
    subst hf
    simp only [concatCosts] at h2
    cases hc : concatOpt (List.map some (x :: xs)) with
    | error e => rw [hc] at h2; cases h2
    | ok l =>
      rw [hc] at h2
      injection h2 with h2
      obtain ⟨ls, e1, e2⟩ := concatOpt_ok hc
      have : ls = x :: xs := (List.map_injective_iff.2 (Option.some_injective _) e1).symm
      subst this
      refine ⟨l, h2.symm, ?_, ?_⟩
      · rw [hcs, z2, e2]
      · rw [hcs, e2, z1]

/-- **C126** (AAM and unified results): the appearance parameters of a multi-scale result
belong to its shapes: if at every scale there is one entry per computed shape, then the
list has one entry per computed shape of the whole result and the entry of a shape is the
one recorded with it at its scale.  If the first scale has none, the result has none. -/
theorem C126_appearance_parameters (trajs : List (List S)) (results : List (Extended S V C A))
    (hmade : List.Forall₂ (fun r t => MadeFrom t r.res) results trajs) (n : Nat)
    (as ts : List (S → S)) (gt : Option S) (R : Extended S V C A)
    (h : aamMulti results n as ts gt = .ok R) :
    multiParam (results.map (·.res)) n as ts gt = .ok R.res ∧
    (∀ r0, results.head? = some r0 → r0.extra = none → R.extra = none) ∧
    (∀ apps : List (List A), results.map (·.extra) = apps.map some →
      List.Forall₂ (fun t a => t.length = a.length) trajs apps →
      ∃ app, R.extra = some app ∧ app.length = (computedShapes R.res).length ∧
        (computedShapes R.res).zip app =
          (List.zipWith List.zip (inImageCoords trajs as ts) apps).flatten) := by
  unfold aamMulti at h
  obtain ⟨r, h1, h⟩ := bind_ok h
  have hmade' : List.Forall₂ (fun r t => MadeFrom t r) (results.map (·.res)) trajs := by
    rw [List.forall₂_map_left_iff]; exact hmade
  cases results with
  | nil => cases h
  | cons r0 rest =>
    obtain ⟨app, h2, h⟩ := bind_ok h
    injection h with h
    subst h
    refine ⟨h1, ?_, ?_⟩
    · intro r0' h0 h0'
      simp only [List.head?_cons, Option.some.injEq] at h0
      subst h0
      rw [h0'] at h2
      injection h2 with h2
      exact h2.symm
    · intro apps happs hlen
      exact concat_aligned trajs _ hmade' n as ts gt r h1 _ _ rfl app h2 apps happs hlen

/-- **C126** (APS results): the same for the appearance costs and the deformation costs. -/
theorem C126_aps_costs (trajs : List (List S)) (results : List (Extended S V C A))
    (hmade : List.Forall₂ (fun r t => MadeFrom t r.res) results trajs) (n : Nat)
    (as ts : List (S → S)) (gt : Option S) (R : Extended S V C A)
    (h : apsMulti results n as ts gt = .ok R) :
    multiParam (results.map (·.res)) n as ts gt = .ok R.res ∧
    (∀ r0, results.head? = some r0 →
      (r0.extra = none → R.extra = none) ∧ (r0.extra₂ = none → R.extra₂ = none)) ∧
    (∀ apps : List (List A), results.map (·.extra) = apps.map some →
      List.Forall₂ (fun t a => t.length = a.length) trajs apps →
      ∃ app, R.extra = some app ∧ app.length = (computedShapes R.res).length ∧
        (computedShapes R.res).zip app =
          (List.zipWith List.zip (inImageCoords trajs as ts) apps).flatten) ∧
    (∀ defs : List (List A), results.map (·.extra₂) = defs.map some →
      List.Forall₂ (fun t a => t.length = a.length) trajs defs →
      ∃ d, R.extra₂ = some d ∧ d.length = (computedShapes R.res).length ∧
        (computedShapes R.res).zip d =
          (List.zipWith List.zip (inImageCoords trajs as ts) defs).flatten) := by
  unfold apsMulti at h
  obtain ⟨r, h1, h⟩ := bind_ok h
  have hmade' : List.Forall₂ (fun r t => MadeFrom t r) (results.map (·.res)) trajs := by
    rw [List.forall₂_map_left_iff]; exact hmade
  cases results with
  | nil => cases h
  | cons r0 rest =>
    obtain ⟨app, h2, h⟩ := bind_ok h
    obtain ⟨d, h3, h⟩ := bind_ok h
    injection h with h
    subst h
    refine ⟨h1, ?_, ?_, ?_⟩
    · intro r0' h0
      simp only [List.head?_cons, Option.some.injEq] at h0
      subst h0
      constructor
      · intro h0'
        rw [h0'] at h2
        injection h2 with h2
        exact h2.symm
      · intro h0'
        rw [h0'] at h3
        injection h3 with h3
        exact h3.symm
    · intro apps happs hlen
      exact concat_aligned trajs _ hmade' n as ts gt r h1 _ _ rfl app h2 apps happs hlen
    · intro defs hdefs hlen
      exact concat_aligned trajs _ hmade' n as ts gt r h1 _ _ rfl d h3 defs hdefs hlen

/-- Two scales with a reconstruction and one update each. -/
def shownScales : List (Extended Nat Nat Nat String) :=
  [{ res := { final := 2, initial := some 0, gt := none, shapes := [0, 1, 2], nIters := 1,
              costs := none, params := some [1, 2] }, extra := some ["a", "b"],
     extra₂ := some ["p", "q"] },
   { res := { final := 4, initial := some 2, gt := none, shapes := [2, 3, 4], nIters := 1,
              costs := none, params := some [3, 4] }, extra := some ["c", "d"],
     extra₂ := some ["r", "s"] }]

/-- The hypotheses are met. -/
example : List.Forall₂ (fun r t => MadeFrom t r.res) shownScales [[1, 2], [3, 4]] :=
  .cons ⟨some 0, none, none, Or.inr ⟨[1, 2], rfl⟩⟩
    (.cons ⟨some 2, none, none, Or.inr ⟨[3, 4], rfl⟩⟩ .nil)

example : (aamMulti shownScales 2 [(· * 10), (· * 10)] [(· * 2), id] none).toOption.map
    (fun R => (computedShapes R.res).zip (R.extra.getD [])) =
    some [(20, "a"), (40, "b"), (30, "c"), (40, "d")] := by decide

example : (apsMulti shownScales 2 [(· * 10), (· * 10)] [(· * 2), id] none).toOption.map
    (fun R => (R.extra, R.extra₂)) =
    some (some ["a", "b", "c", "d"], some ["p", "q", "r", "s"]) := by decide

/-- A printed result of two scales: initial error, error of the reconstruction, final error. -/
example : ((multiParam (shownScales.map Extended.res) 2 [(· * 10), (· * 10)] [(· * 2), id]
      (some 100)).bind fun R =>
        str .multiScale R (fun a b => b - a) (fun _ => 68) (fun (n : Nat) => toString n)).toOption =
    some "Fitting result of 68 landmark points.\nInitial error: 100\nReconstructed initial error: 80\nFinal error: 60" := by
  decide +kernel

/-- A result with everything known. -/
def shownResult : Res Nat Nat Nat :=
  { final := 4, initial := some 2, gt := some 9, shapes := [2, 3, 4], nIters := 2, costs := none }

example : (drawn (view shownResult true true true false true ⟨"r", "k", "r"⟩ ⟨"b", "k", "b"⟩
      ⟨"y", "k", "y"⟩)).map (Option.map fun (d : DrawnShape Nat String) => (d.title, d.shape, d.line)) =
    [some ("Final", 4, "r"), some ("Groundtruth", 9, "y")] := by decide

end Menpofit
