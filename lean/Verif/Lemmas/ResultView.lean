import Verif.Lemmas.Result
/-!
# Helper lemmas: counts, reconstruction indices and labels of results
-/

namespace Menpofit
open Result Spec

variable {S V C : Type}

theorem cascade_length {R X : Type} (step : R → X → Except PyErr X) :
    ∀ (regs : List R) (x : X) (xs : List X), cascade step x regs = .ok xs →
      xs.length = regs.length
  | [], x, xs, h => by injection h with h; simp [← h]
  | r :: rs, x, xs, h => by
    simp only [cascade] at h
    obtain ⟨x', h1, h⟩ := bind_ok h
    obtain ⟨ys, h2, h⟩ := bind_ok h
    injection h with h
    simp [← h, cascade_length step rs x' ys h2]

theorem cascade_get {R X : Type} (step : R → X → Except PyErr X) :
    ∀ (regs : List R) (x : X) (xs : List X), cascade step x regs = .ok xs →
      ∀ k reg p, regs[k]? = some reg → (x :: xs)[k]? = some p →
        ∃ p', (x :: xs)[k + 1]? = some p' ∧ step reg p = .ok p'
  | [], x, xs, h => by intro k reg p hk; simp at hk
  | r :: rs, x, xs, h => by
    simp only [cascade] at h
    obtain ⟨x', h1, h⟩ := bind_ok h
    obtain ⟨ys, h2, h⟩ := bind_ok h
    injection h with h; subst h
    intro k reg p hk hp
    cases k with
    | zero =>
      simp at hk hp; subst hk; subst hp
      exact ⟨x', rfl, h1⟩
    | succ k =>
      obtain ⟨p', q1, q2⟩ := cascade_get step rs x' ys h2 k reg p (by simpa using hk)
        (by simpa using hp)
      exact ⟨p', by simpa using q1, q2⟩

theorem records_madeFrom {run : ScaleRun S} {r : Res S V C} (h : Records run r) :
    MadeFrom run.trajectory r := by
  obtain ⟨ps, init, gt, costs, h⟩ := h
  exact ⟨init, gt, costs, Or.inr ⟨ps, h⟩⟩

theorem records_trajectories {runs : List (ScaleRun S)} {results : List (Res S V C)}
    (h : List.Forall₂ (fun r run => Records run r) results runs) :
    List.Forall₂ (fun r t => MadeFrom t r) results (runs.map ScaleRun.trajectory) := by
  induction h with
  | nil => exact .nil
  | cons h1 _ ih => exact .cons (records_madeFrom h1) ih

theorem records_nIters {runs : List (ScaleRun S)} {results : List (Res S V C)}
    (h : List.Forall₂ (fun r run => Records run r) results runs) :
    results.map (·.nIters) = runs.map fun run => (run.updates.length : Int) := by
  induction h with
  | nil => rfl
  | cons h1 _ ih =>
    obtain ⟨ps, init, gt, costs, h1⟩ := h1
    obtain ⟨f, -, rfl⟩ := param_ok h1
    simp only [List.map_cons, ih]
    simp

/-- Length of the concatenated trajectories. -/
theorem flatten_trajectories (runs : List (ScaleRun S)) (as ts : List (S → S))
    (hlen : (inImageCoords (runs.map ScaleRun.trajectory) as ts).length =
      (runs.map ScaleRun.trajectory).length) :
    ((inImageCoords (runs.map ScaleRun.trajectory) as ts).flatten.length : Int) =
      totalUpdates runs + runs.length := by
  rw [List.length_flatten, inImageCoords_map_length hlen]
  clear hlen
  induction runs with
  | nil => simp [totalUpdates]
  | cons run runs ih =>
    simp only [totalUpdates, List.map_cons, List.sum_cons, List.length_cons,
      ScaleRun.trajectory] at ih ⊢
    push_cast at ih ⊢
    omega

theorem multi_counts (runs : List (ScaleRun S)) (results : List (Res S V C))
    (hrec : List.Forall₂ (fun r run => Records run r) results runs) (n : Nat)
    (as ts : List (S → S)) (gt : Option S) (R : Res S V C)
    (h : multiParam results n as ts gt = .ok R) :
    R.nIters = totalUpdates runs ∧
    R.perScale = runs.map fun run => (run.updates.length : Int) := by
  obtain ⟨R', ps, h1, -, rfl⟩ := multiParam_ok h
  obtain ⟨hn, r0, rest, shapes, f, hr, h2, -, -, -, -, h3, h4, -⟩ := multiNonParam_ok h1
  obtain ⟨h5, h6⟩ := concatShapes_ok (records_trajectories hrec) h2
  have h7 := flatten_trajectories runs as ts h6
  have h8 : runs.length = n := by rw [← hn, hrec.length_eq]
  refine ⟨?_, by rw [← records_nIters hrec]; exact h4⟩
  simp only [h3, h5, h7, h8]
  omega

theorem reconIndices_eq {runs : List (ScaleRun S)} {results : List (Res S V C)}
    (hrec : List.Forall₂ (fun r run => Records run r) results runs) {n : Nat}
    {as ts : List (S → S)} {gt : Option S} {R : Res S V C}
    (h : multiParam results n as ts gt = .ok R) :
    reconIndices R = reconFull (if R.initial.isSome then 1 else 0)
      (runs.map fun run => (run.updates.length : Int)) := by
  have hp := (multi_counts runs results hrec n as ts gt R h).2
  obtain ⟨R', ps, h1, -, rfl⟩ := multiParam_ok h
  obtain ⟨hn, r0, rest, shapes, f, hr, -, -, -, -, -, -, -, hs, -⟩ := multiNonParam_ok h1
  have hlen : runs.length = n := by rw [← hn, hrec.length_eq]
  unfold reconIndices
  simp only at hp ⊢
  rw [hp, hs]
  have hn0 : n ≠ 0 := by rw [← hn, hr]; simp
  rw [if_neg hn0]
  cases runs with
  | nil => simp at hlen; omega
  | cons run runs =>
    have e : n - 1 = (runs.map fun run => (run.updates.length : Int)).length := by
      simp at hlen ⊢; omega
    rw [e, List.map_cons]
    exact reconLoop_eq _ _ _

theorem goodLabels_nodup (b : Bool) (n : Nat) : (goodLabels b n).Nodup := by
  have h1 : ((oneTo (n - 1)).map Label.iteration).Nodup := by
    apply List.Nodup.map
    · intro a b h; injection h
    · apply List.Nodup.map _ List.nodup_range
      intro a b h; simp at h; omega
  have h2 : ∀ l ∈ (oneTo (n - 1)).map Label.iteration, ∃ k, l = Label.iteration k := by
    intro l hl
    obtain ⟨k, -, rfl⟩ := List.mem_map.mp hl
    exact ⟨k, rfl⟩
  unfold goodLabels
  rw [List.append_assoc]
  have h3 : ((oneTo (n - 1)).map Label.iteration ++ [Label.final]).Nodup := by
    rw [List.nodup_append]
    refine ⟨h1, by simp, ?_⟩
    intro a ha b hb hab
    obtain ⟨k, rfl⟩ := h2 a ha
    simp at hb; subst hb; cases hab
  cases b with
  | false => simpa using h3
  | true =>
    simp only [if_true, List.singleton_append, List.nodup_cons]
    refine ⟨?_, h3⟩
    intro hm
    rcases List.mem_append.mp hm with hm | hm
    · obtain ⟨k, hk⟩ := h2 _ hm; cases hk
    · simp at hm

/-- Viewing a result whose shapes are the optional initial shape followed by the updates. -/
theorem viewNon_ok (r : Res S V C) (us : List S) (hs : r.shapes = r.initial.toList ++ us)
    (hf : us.getLast? = some r.final) :
    viewNon r .all = .ok ((goodLabels r.initial.isSome us.length).zip r.shapes) ∧
    (goodLabels r.initial.isSome us.length).length = r.shapes.length := by
  have hpos : 0 < us.length := by
    cases us with
    | nil => simp at hf
    | cons _ _ => simp
  have hlast : us[us.length - 1]? = some r.final := by rw [← hf, List.getLast?_eq_getElem?]
  have hlen : (goodLabels r.initial.isSome us.length).length = r.shapes.length := by
    rw [hs]; cases r.initial <;> simp [goodLabels, oneTo] <;> omega
  refine ⟨?_, hlen⟩
  set labels := goodLabels r.initial.isSome us.length with hlab
  have hlabel : ∀ (j : Nat) (l : Label) (s : S), labels[j]? = some l → r.shapes[j]? = some s →
      labelNon r (j : Int) = .ok (l, s) := by
    intro j l s hl hj
    cases hi : r.initial with
    | none =>
      rw [hi] at hs hlab
      simp only [Option.toList_none, List.nil_append] at hs
      simp only [Option.isSome_none, goodLabels, Bool.false_eq_true, if_false, List.nil_append]
        at hlab
      unfold labelNon
      simp only [hi, ite_self, Option.isSome_none, Bool.false_eq_true, if_false]
      rw [hs] at hj ⊢
      by_cases hjl : j = us.length - 1
      · rw [if_pos (by omega)]
        rw [hlab, List.getElem?_append_right (by simp [oneTo]; omega)] at hl
        simp only [oneTo, List.length_map, List.length_range, hjl, Nat.sub_self] at hl
        rw [hjl, hlast] at hj
        simp at hl; injection hj with hj
        rw [hl, hj]
      · have hjlt : j < us.length := (List.getElem?_eq_some_iff.mp hj).1
        rw [if_neg (by omega), pyGet_nat us j s hj]
        rw [hlab, List.getElem?_append_left (by simp [oneTo]; omega)] at hl
        simp only [oneTo, List.map_map, List.getElem?_map,
          List.getElem?_range (show j < us.length - 1 by omega), Option.map_some,
          Function.comp_apply] at hl
        injection hl with hl
        rw [← hl]; rfl
    | some x =>
      rw [hi] at hs hlab
      simp only [Option.toList_some, List.singleton_append] at hs
      simp only [Option.isSome_some, goodLabels, if_true, List.cons_append,
        List.nil_append] at hlab
      unfold labelNon
      cases j with
      | zero =>
        rw [hs] at hj; rw [hlab] at hl
        simp at hj hl
        simp [hi, hj, hl]
      | succ j =>
        rw [hs] at hj; rw [hlab] at hl
        simp only [List.getElem?_cons_succ] at hj hl
        have h0 : ¬ ((j + 1 : Nat) : Int) = 0 := by omega
        simp only [h0, if_false]
        have hsl : (r.shapes.length : Int) - 1 = us.length := by rw [hs]; simp
        rw [hsl]
        by_cases hjl : j = us.length - 1
        · rw [if_pos (by omega)]
          rw [List.getElem?_append_right (by simp [oneTo]; omega)] at hl
          simp only [oneTo, List.length_map, List.length_range, hjl, Nat.sub_self] at hl
          rw [hjl, hlast] at hj
          simp at hl; injection hj with hj
          rw [hl, hj]
        · have hjlt : j < us.length := (List.getElem?_eq_some_iff.mp hj).1
          rw [if_neg (by omega), pyGet_nat r.shapes (j + 1) s (by rw [hs]; simpa using hj)]
          rw [List.getElem?_append_left (by simp [oneTo]; omega)] at hl
          simp only [oneTo, List.map_map, List.getElem?_map,
            List.getElem?_range (show j < us.length - 1 by omega), Option.map_some,
            Function.comp_apply] at hl
          injection hl with hl
          rw [← hl]; simp [hi]
  unfold viewNon parseIters
  simp only [bind, Except.bind]
  have hl2 : ∀ j, j < r.shapes.length → ∃ l s, labels[j]? = some l ∧ r.shapes[j]? = some s := by
    intro j hj
    exact ⟨_, _, List.getElem?_eq_getElem (by rw [hlen]; exact hj), List.getElem?_eq_getElem hj⟩
  rcases hz : labels.zip r.shapes with _ | ⟨z0, zs⟩
  · have : (labels.zip r.shapes).length = 0 := by rw [hz]; rfl
    rw [List.length_zip, hlen, Nat.min_self] at this
    rw [this]; rfl
  rw [← hz]
  rw [mapM_ok (labelNon r) (fun j => ((labels.zip r.shapes)[j.toNat]?).getD z0)]
  · congr 1
    apply List.ext_getElem?
    intro i
    rw [List.map_map, List.getElem?_map]
    by_cases hi : i < r.shapes.length
    · rw [List.getElem?_range hi]
      obtain ⟨l, s, hl, hs'⟩ := hl2 i hi
      have : (labels.zip r.shapes)[i]? = some (l, s) := by
        rw [List.getElem?_zip_eq_some]; exact ⟨hl, hs'⟩
      simp [this]
    · rw [List.getElem?_eq_none (by simp; omega), List.getElem?_eq_none]
      · rfl
      · rw [List.length_zip, hlen, Nat.min_self]; omega
  · intro j hj
    obtain ⟨i, hi, rfl⟩ := List.mem_map.mp hj
    rw [List.mem_range] at hi
    obtain ⟨l, s, hl, hs'⟩ := hl2 i hi
    rw [hlabel i l s hl hs']
    have : (labels.zip r.shapes)[i]? = some (l, s) := by
      rw [List.getElem?_zip_eq_some]; exact ⟨hl, hs'⟩
    simp [this]

/-- The label and shape shown for the `k`-th update of scale `i` of a multi-scale
parametric result, `b` being the correction of the index. -/
theorem labelMulti_update {runs : List (ScaleRun S)} {results : List (Res S V C)}
    (hrec : List.Forall₂ (fun r run => Records run r) results runs) {n : Nat}
    {as ts : List (S → S)} {gt : Option S} {R : Res S V C}
    (h : multiParam results n as ts gt = .ok R) (offset : Int) (i k : Nat) (run : ScaleRun S)
    (u : S) (hi : runs[i]? = some run) (hu : run.updates[k]? = some u) :
    ∃ (p : Nat) (a t : S → S), as[i]? = some a ∧ ts[i]? = some t ∧
      R.shapes[p]? = some (a (t u)) ∧
      (p : Int) = (if R.initial.isSome then 1 else 0) +
        totalShapes (runs.take i) + (k + 1) ∧
      (p + 1 < R.shapes.length → labelPar (reconIndices R) offset R p = .ok
        (.iteration ((if R.initial.isSome then 1 else 0) + offset +
          totalUpdates (runs.take i) + (k + 1)), a (t u))) ∧
      (p + 1 = R.shapes.length → labelPar (reconIndices R) offset R p = .ok (.final, R.final)) := by
  have hids := reconIndices_eq hrec h
  obtain ⟨R', ps, h1, -, rfl⟩ := multiParam_ok h
  obtain ⟨hn, r0, rest, shapes, f, hr, h2, -, -, hs, -⟩ := multiNonParam_ok h1
  obtain ⟨h5, h6⟩ := concatShapes_ok (records_trajectories hrec) h2
  have hj' : (runs.map ScaleRun.trajectory)[i]? = some run.trajectory := by
    rw [List.getElem?_map, hi]; rfl
  obtain ⟨a, t, ha, ht, hin⟩ := inImageCoords_get h6 hj'
  have hjl : i < runs.length := (List.getElem?_eq_some_iff.mp hi).1
  have hkl : k < run.updates.length := (List.getElem?_eq_some_iff.mp hu).1
  have hne : ∀ l ∈ inImageCoords (runs.map ScaleRun.trajectory) as ts, 1 ≤ l.length := by
    intro l hl
    have : l.length ∈ (inImageCoords (runs.map ScaleRun.trajectory) as ts).map List.length :=
      List.mem_map_of_mem hl
    rw [inImageCoords_map_length h6] at this
    simp only [List.map_map, List.mem_map, Function.comp_apply, ScaleRun.trajectory] at this
    obtain ⟨q, -, hq⟩ := this
    rw [← hq]; simp
  have hlens : (inImageCoords (runs.map ScaleRun.trajectory) as ts).map (fun l => (l.length : Int) - 1)
      = runs.map fun run => (run.updates.length : Int) := by
    have := congrArg (List.map fun (k : Nat) => (k : Int) - 1) (inImageCoords_map_length h6)
    simpa [List.map_map, Function.comp_def, ScaleRun.trajectory] using this
  obtain ⟨p, hp1, hp2⟩ := flatten_block _ (if R'.initial.isSome then 1 else 0) i (k + 1) _ hne hin
    (by simp [ScaleRun.trajectory]; omega)
  rw [hlens] at hp1
  have hsum : ∀ (l : List (ScaleRun S)), (((l.map fun run => (run.updates.length : Int)).map
      (· + 1)).sum) = (totalShapes l : Int) := by
    intro l
    induction l with
    | nil => simp [totalShapes]
    | cons x xs ih =>
      simp only [totalShapes, List.map_cons, List.sum_cons] at ih ⊢
      rw [ih]; push_cast; omega
  have hsum2 : ∀ (l : List (ScaleRun S)), totalShapes l = totalUpdates l + l.length := by
    intro l
    induction l with
    | nil => simp [totalShapes, totalUpdates]
    | cons x xs ih =>
      simp only [totalShapes, totalUpdates, List.map_cons, List.sum_cons, List.length_cons] at ih ⊢
      omega
  have hshape : R'.shapes[(if R'.initial.isSome then 1 else 0) + p]? = some (a (t u)) := by
    rw [hs, h5]
    cases hI : R'.initial with
    | none => simpa [hI, ScaleRun.trajectory, hu] using hp2
    | some x =>
      have : (some x).toList ++ (inImageCoords (runs.map ScaleRun.trajectory) as ts).flatten =
        x :: (inImageCoords (runs.map ScaleRun.trajectory) as ts).flatten := rfl
      rw [this]
      simp only [Option.isSome_some, if_true]
      rw [Nat.add_comm, List.getElem?_cons_succ, hp2]
      simp [ScaleRun.trajectory, hu]
  have hpos : ((((if R'.initial.isSome then 1 else 0) + p : Nat)) : Int) =
      blockStart (if R'.initial.isSome then 1 else 0)
        (runs.map fun run => (run.updates.length : Int)) i + (k + 1 : Nat) := by
    rw [← hp1]; simp
  have hget : (runs.map fun run => (run.updates.length : Int))[i]? =
      some (run.updates.length : Int) := by rw [List.getElem?_map, hi]; rfl
  have hlast := lastLe_reconFull (if R'.initial.isSome then 1 else 0)
    (runs.map fun run => (run.updates.length : Int)) (by simp) i _ ((k + 1 : Nat) : Int) hget
    (by omega) (by omega)
  have hnm := not_mem_reconFull (if R'.initial.isSome then 1 else 0)
    (runs.map fun run => (run.updates.length : Int)) (by simp) i _ ((k + 1 : Nat) : Int) hget
    (by omega) (by omega)
  rw [← hpos] at hlast hnm
  have hbs : blockStart (if R'.initial.isSome then 1 else 0)
      (runs.map fun run => (run.updates.length : Int)) i =
      (if R'.initial.isSome then 1 else 0) +
        totalShapes (runs.take i) := by
    unfold blockStart
    rw [← List.map_take, hsum]
  have h0 : ¬ ((((if R'.initial.isSome then 1 else 0) + p : Nat)) : Int) = 0 := by
    rw [hpos, hbs]; split <;> omega
  refine ⟨(if R'.initial.isSome then 1 else 0) + p, a, t, ha, ht, hshape, ?_, ?_, ?_⟩
  · rw [hpos, hbs]; simp
  · intro hlt
    unfold labelPar
    simp only [h0, if_false]
    rw [hids]
    simp only at hnm hlast hlt ⊢
    rw [if_neg hnm, if_neg (by omega), scaleOfIter, hlast, pyGet_nat _ _ _ hshape]
    simp only [bind, Except.bind, pure, Except.pure]
    congr 3
    rw [hpos, hbs, hsum2]
    have : (runs.take i).length = i := by simp; omega
    rw [this]
    push_cast; omega
  · intro heq
    unfold labelPar
    simp only [h0, if_false]
    rw [hids]
    simp only at hnm heq ⊢
    rw [if_neg hnm, if_pos (by omega)]

end Menpofit
