import Verif.Lemmas.StatTable
/-!
# C118: the table of error statistics
-/

namespace Menpofit
open Stats StatTable Spec

/-- **C118**.  With as many method names as lists of errors, supported types, one distinct name per type and
a `sort_by` among the types, a table is returned.  It has one row per method and one column per
type; every entry is that statistic of the errors of the method the row is labelled with.  Without
`sort_by` the methods are in the given order; otherwise along the rows the chosen statistic does not
decrease, the area under the curve does not increase.  Without types all seven are shown. -/
theorem C118_table_partial (order : List ℝ → Bool → List Nat) (ho : SortsRows order)
    (es : List (List ℝ)) (hne : es ≠ []) (methods : List String) (hmeth : methods.length = es.length)
    (hi step lo : ℝ) (ms : List (Measures ℝ))
    (hms : List.Forall₂ (fun e m => computeStatisticalMeasures (.one e) step hi lo = .ok (.scalars m)) es ms)
    (types names : Option (List String))
    (hty : ∀ t ∈ types.getD allStats, t ∈ allStats)
    (hlen : (names.getD (types.getD allStats)).length = (types.getD allStats).length)
    (hnd : (names.getD (types.getD allStats)).Nodup) (sortBy : Option String)
    (hby : ∀ b, sortBy = some b → b ∈ types.getD allStats) :
    ∃ t rows, statisticsTable order (.many es) methods hi step lo types names sortBy = .ok t ∧
      TableOf rows methods ms ((types.getD allStats).zip (names.getD (types.getD allStats))) t ∧
      (sortBy = none → rows = List.range ms.length) ∧
      (∀ b, sortBy = some b → rows.Pairwise fun i i' => ∀ m m' x x', ms[i]? = some m → ms[i']? = some m' →
        statOf m b = some x → statOf m' b = some x' → if b = "auc" then x' ≤ x else x ≤ x') := by
  have e0 : allStats = supported := rfl
  rw [e0] at hty hlen hnd hby ⊢
  obtain ⟨ty, hty'⟩ : ∃ ty, ty = types.getD supported := ⟨_, rfl⟩
  obtain ⟨nm, hnm'⟩ : ∃ nm, nm = names.getD ty := ⟨_, rfl⟩
  rw [← hty'] at hty hlen hnd hby ⊢
  rw [← hnm'] at hlen hnd ⊢
  have hl : ms.length = es.length := hms.length_eq.symm
  have hcomp := C71_per_method es hne step hi lo ms hms
  obtain ⟨M, hM⟩ : ∃ M : Measures (List ℝ), M = ⟨ms.map (·.mean), ms.map (·.std), ms.map (·.median),
    ms.map (·.mad), ms.map (·.max), ms.map (·.auc), ms.map (·.fail)⟩ := ⟨_, rfl⟩
  rw [← hM] at hcomp
  have hsup : ∀ p ∈ ty.zip nm, p.1 ∈ supported := fun p hp => hty _ (List.of_mem_zip hp).1
  have hsnd : (ty.zip nm).map (·.2) = nm := by
    rw [List.map_snd_zip]; omega
  have hfst : (ty.zip nm).map (·.1) = ty := by
    rw [List.map_fst_zip]; omega
  have hcols := columnsLoop_eq M (ty.zip nm) [] hsup (by simpa [hsnd] using hnd)
  simp only [List.nil_append] at hcols
  obtain ⟨cols, hc⟩ : ∃ cols, cols = (ty.zip nm).map fun p => (p.2, statList M p.1) := ⟨_, rfl⟩
  rw [← hc] at hcols
  have hvals : ∀ t ∈ supported, (statList M t).length = ms.length := by
    intro t ht
    obtain ⟨f, -, e⟩ := statList_map ms ht
    rw [hM, e]; simp
  have hdf : dataFrame cols methods = .ok ⟨methods, cols⟩ := by
    unfold dataFrame
    rw [if_pos]
    simp only [List.all_eq_true, decide_eq_true_eq]
    intro c hcm
    rw [hc] at hcm
    obtain ⟨p, hp, rfl⟩ := List.mem_map.1 hcm
    simp only
    rw [hvals _ (hsup p hp)]; omega
  have hrun : statisticsTable order (.many es) methods hi step lo types names sortBy =
      sortTable order ⟨methods, cols⟩ ty nm sortBy := by
    unfold statisticsTable
    cases es with
    | nil => exact absurd rfl hne
    | cons e es =>
      simp only [bind, Except.bind, hcomp]
      rw [← hty', ← hnm', if_neg (by omega)]
      simp only [hcols, hdf]
  have hnames : (cols.map (·.1)).Nodup := by
    rw [hc, List.map_map]
    have : ((fun c : String × List ℝ => c.1) ∘ fun p : String × String => (p.2, statList M p.1)) = (·.2) := rfl
    rw [this, hsnd]; exact hnd
  -- reading the reordered table
  have main : ∀ rows : List Nat, rows.Perm (List.range ms.length) →
      TableOf rows methods ms (ty.zip nm) (reorder ⟨methods, cols⟩ rows) := by
    intro rows hp
    have hrl : rows.length = ms.length := by rw [hp.length_eq, List.length_range]
    have hlt : ∀ k i : Nat, rows[k]? = some i → i < ms.length := by
      intro k i h
      exact List.mem_range.1 (hp.mem_iff.1 (List.mem_of_getElem? h))
    refine ⟨hp, ?_, ⟨by simp [reorder, hrl], by simp [reorder, hc]⟩, ?_⟩
    · intro k hk
      simp only [reorder, List.getElem?_map]
      have hk' : rows[k]? = some rows[k] := List.getElem?_eq_getElem (by omega)
      rw [hk']
      have := hlt k _ hk'
      simp [List.getElem?_eq_getElem (show rows[k] < methods.length by omega)]
    · intro j t n hj
      have hs : t ∈ supported := hsup (t, n) (List.mem_of_getElem? hj)
      obtain ⟨f, hf, e⟩ := statList_map ms hs
      rw [← hM] at e
      refine ⟨rows.map fun i => (ms.map f).getD i 0, ?_, by simp [hrl], ?_⟩
      · simp only [reorder, List.getElem?_map, hc, hj, Option.map_some, e]
      · intro k hk
        have hk' : rows[k]? = some rows[k] := List.getElem?_eq_getElem (by omega)
        have hi' := hlt k _ hk'
        refine ⟨rows[k], ms[rows[k]], f ms[rows[k]], hk', List.getElem?_eq_getElem hi', hf _, ?_⟩
        simp only [List.getElem?_map, hk', Option.map_some, List.getD_eq_getElem?_getD]
        rw [List.getElem?_eq_getElem hi']
        rfl
  have hid : reorder ⟨methods, cols⟩ (List.range ms.length) = ⟨methods, cols⟩ := by
    have key : ∀ {α : Type} (l : List α) (d : α), l.length = ms.length →
        (List.range ms.length).map (fun i => l.getD i d) = l := by
      intro α l d h
      apply List.ext_getElem
      · simp [h]
      · intro i h1 h2
        simp [List.getElem?_eq_getElem h2]
    unfold reorder
    simp only
    rw [key methods "" (by omega)]
    congr 1
    conv_rhs => rw [← List.map_id cols]
    apply List.map_congr_left
    intro c hcm
    rw [hc] at hcm
    obtain ⟨p, hp, rfl⟩ := List.mem_map.1 hcm
    simp only [id]
    rw [key _ 0 (hvals _ (hsup p hp))]
  cases sortBy with
  | none =>
    refine ⟨⟨methods, cols⟩, List.range ms.length, by rw [hrun]; rfl, ?_, fun _ => rfl, ?_⟩
    · have := main _ (List.Perm.refl _)
      rwa [hid] at this
    · intro b hb; cases hb
  | some b =>
    have hb := hby b rfl
    have hidx : ty.idxOf b < ty.length := List.idxOf_lt_length_of_mem hb
    have hnj : nm[ty.idxOf b]? = some nm[ty.idxOf b] := List.getElem?_eq_getElem (by omega)
    have htj : ty[ty.idxOf b]? = some b := by
      rw [List.getElem?_eq_getElem hidx]; simp
    have hzj : (ty.zip nm)[ty.idxOf b]? = some (b, nm[ty.idxOf b]) := by
      rw [List.getElem?_zip_eq_some]; exact ⟨htj, hnj⟩
    have hcj : cols[ty.idxOf b]? = some (nm[ty.idxOf b], statList M b) := by
      rw [hc, List.getElem?_map, hzj]; rfl
    have hfind := find_nodup hnames hcj
    have hs : b ∈ supported := hty b hb
    obtain ⟨f, hf, e⟩ := statList_map ms hs
    rw [← hM] at e
    obtain ⟨asc, hasc⟩ : ∃ asc : Bool, asc = if b = "auc" then false else true := ⟨_, rfl⟩
    have hord := ho (statList M b) asc
    rw [hvals b hs] at hord
    refine ⟨reorder ⟨methods, cols⟩ (order (statList M b) asc), _, ?_, main _ hord.1, ?_, ?_⟩
    · rw [hrun]
      simp only [sortTable]
      rw [if_neg (by simpa using hb), hnj]
      simp only [sortValues]
      rw [hfind, ← hasc]
    · intro h; cases h
    · intro b' hb'
      injection hb' with hb'
      subst hb'
      have hpw := List.pairwise_map.1 hord.2
      refine List.Pairwise.imp ?_ hpw
      intro i i' h m m' x x' h1 h2 h3 h4
      rw [hf] at h3 h4
      injection h3 with h3; injection h4 with h4
      rw [e] at h
      simp only [List.getD_eq_getElem?_getD, List.getElem?_map, h1, h2, Option.map_some, Option.getD_some] at h
      rw [h3, h4, hasc] at h
      by_cases hba : b = "auc"
      · simpa [hba] using h
      · simpa [hba] using h

/-- C118: one list of errors is a single method. -/
theorem C118_single (order : List ℝ → Bool → List Nat) (e : List ℝ) (he : e ≠ []) (methods : List String)
    (hi step lo : ℝ) (types names : Option (List String)) (sortBy : Option String) :
    statisticsTable order (.one e) methods hi step lo types names sortBy =
      statisticsTable order (.many [e]) methods hi step lo types names sortBy := by
  cases e with
  | nil => exact absurd rfl he
  | cons a l => rfl

/-- C118: unsupported types, a wrong number of names, a `sort_by` that is not shown and a wrong number of
methods raise `ValueError`; nothing else is returned. -/
theorem C118_refused (order : List ℝ → Bool → List Nat) (es : List (List ℝ)) (hne : es ≠ [])
    (methods : List String) (hi step lo : ℝ) (ms : List (Measures ℝ))
    (hms : List.Forall₂ (fun e m => computeStatisticalMeasures (.one e) step hi lo = .ok (.scalars m)) es ms)
    (types names : List String) (sortBy : Option String)
    (hbad : (∃ t ∈ types, t ∉ ["mean", "std", "median", "mad", "max", "auc", "fr"]) ∨
      types.length ≠ names.length ∨ (∃ b, sortBy = some b ∧ b ∉ types) ∨
      (types ≠ [] ∧ methods.length ≠ es.length)) :
    statisticsTable order (.many es) methods hi step lo (some types) (some names) sortBy =
      .error .valueError := by
  have hl : ms.length = es.length := hms.length_eq.symm
  have hcomp := C71_per_method es hne step hi lo ms hms
  obtain ⟨M, hM⟩ : ∃ M : Measures (List ℝ), M = ⟨ms.map (·.mean), ms.map (·.std), ms.map (·.median),
    ms.map (·.mad), ms.map (·.max), ms.map (·.auc), ms.map (·.fail)⟩ := ⟨_, rfl⟩
  rw [← hM] at hcomp
  have hrun : statisticsTable order (.many es) methods hi step lo (some types) (some names) sortBy =
      (if types.length ≠ names.length then .error .valueError
      else do
        let cols ← columnsLoop M [] (types.zip names)
        let t ← dataFrame cols methods
        sortTable order t types names sortBy) := by
    unfold statisticsTable
    cases es with
    | nil => exact absurd rfl hne
    | cons e es => simp only [bind, Except.bind, hcomp, Option.getD_some]
  rw [hrun]
  by_cases hlen : types.length ≠ names.length
  · rw [if_pos hlen]
  rw [if_neg hlen]
  rw [not_not] at hlen
  by_cases hs : ∀ t ∈ types, t ∈ supported
  · obtain ⟨cols, hc, hcm, hcne⟩ := columnsLoop_ok M (types.zip names) []
      (fun p hp => hs _ (List.of_mem_zip hp).1)
    simp only [hc, bind, Except.bind]
    unfold dataFrame
    by_cases hall : (cols.all fun c => c.2.length = methods.length) = true
    · rw [if_pos hall]
      simp only
      rcases hbad with ⟨t, h1, h2⟩ | h | ⟨b, rfl, hb⟩ | ⟨h1, h2⟩
      · exact absurd (hs t h1) h2
      · exact absurd hlen h
      · simp only [sortTable]
        rw [if_pos hb]
      · exfalso
        have hz : types.zip names ≠ [] := by
          intro e
          have := congrArg List.length e
          rw [List.length_zip, ← hlen] at this
          simp at this
          exact h1 this
        have hcne' := hcne (Or.inr hz)
        obtain ⟨c, hcc⟩ := List.exists_mem_of_ne_nil _ hcne'
        have hlc : c.2.length = methods.length := by simpa using List.all_eq_true.1 hall c hcc
        rcases hcm c hcc with h | ⟨t, ht, e⟩
        · simp at h
        · obtain ⟨f, -, e'⟩ := statList_map ms ht
          rw [e, hM, e', List.length_map] at hlc
          omega
    · rw [if_neg hall]
  · push Not at hs
    obtain ⟨t, ht, hn⟩ := hs
    obtain ⟨i, hi'⟩ := List.mem_iff_getElem?.1 ht
    have hlt : i < names.length := by
      have := (List.getElem?_eq_some_iff.1 hi').1
      omega
    have hz : (t, names[i]) ∈ types.zip names :=
      List.mem_of_getElem? (i := i) (by
        rw [List.getElem?_zip_eq_some]; exact ⟨hi', List.getElem?_eq_getElem hlt⟩)
    rw [columnsLoop_err M _ [] ⟨_, hz, hn⟩]
    rfl

/-- C118 is violated by repeated names: of the columns with the same name only one is shown, with the
statistic of the last of them, and sorting by the first sorts by the last.  Here the methods are to
be sorted by their mean and are sorted by their standard deviation. -/
theorem C118_names_violated (order : List ℝ → Bool → List Nat) (es : List (List ℝ)) (hne : es ≠ [])
    (methods : List String) (hmeth : methods.length = es.length) (hi step lo : ℝ) (ms : List (Measures ℝ))
    (hms : List.Forall₂ (fun e m => computeStatisticalMeasures (.one e) step hi lo = .ok (.scalars m)) es ms)
    (name : String) :
    let rows := order (ms.map (·.std)) true
    statisticsTable order (.many es) methods hi step lo (some ["mean", "std"]) (some [name, name])
      (some "mean") = .ok ⟨rows.map fun i => methods.getD i "",
        [(name, rows.map fun i => (ms.map (·.std)).getD i 0)]⟩ := by
  have hl : ms.length = es.length := hms.length_eq.symm
  have hcomp := C71_per_method es hne step hi lo ms hms
  unfold statisticsTable
  cases es with
  | nil => exact absurd rfl hne
  | cons e es =>
    simp only [bind, Except.bind, hcomp, Option.getD_some]
    have hml : methods.length = ms.length := by omega
    simp [columnsLoop, supported, addStat, setCol, dataFrame, hml, sortTable, sortValues, reorder]

/-! ### A case that meets the hypotheses -/

example : ∃ order, SortsRows order := by
  refine ⟨fun keys asc => (List.range keys.length).mergeSort fun i j =>
    if asc then decide (keys.getD i 0 ≤ keys.getD j 0) else decide (keys.getD j 0 ≤ keys.getD i 0), ?_⟩
  intro keys asc
  refine ⟨List.mergeSort_perm _ _, ?_⟩
  rw [List.pairwise_map]
  refine List.Pairwise.imp ?_ (List.pairwise_mergeSort ?_ ?_ _)
  · intro i j h
    cases asc <;> simpa using h
  · intro a b c h1 h2
    cases asc
    · simp only [Bool.false_eq_true, if_false, decide_eq_true_eq] at *
      exact le_trans h2 h1
    · simp only [if_true, decide_eq_true_eq] at *
      exact le_trans h1 h2
  · intro a b
    cases asc
    · simp only [Bool.false_eq_true, if_false, Bool.or_eq_true, decide_eq_true_eq]
      exact le_total _ _
    · simp only [if_true, Bool.or_eq_true, decide_eq_true_eq]
      exact le_total _ _

/-- Two methods, default types, sorted by the area under the curve. -/
example : (∃ ms : List (Measures ℝ), List.Forall₂ (fun e m =>
      computeStatisticalMeasures (.one e) 0.25 1 0 = .ok (.scalars m)) [[0.1, 0.3], [0.2]] ms) ∧
    (∀ t ∈ (none : Option (List String)).getD allStats, t ∈ allStats) ∧
    ((none : Option (List String)).getD allStats).Nodup ∧ "auc" ∈ allStats := by
  refine ⟨?_, fun t ht => ht, by decide, by decide⟩
  have key : ∀ e : List ℝ, e ≠ [] → ∃ m, computeStatisticalMeasures (.one e) 0.25 1 0 = .ok (.scalars m) := by
    intro e he
    obtain ⟨auc, fr, h, -⟩ := C32_bound_partial e he (0.25 : ℝ) 0 1 (by norm_num) (by norm_num)
      (by norm_num)
    cases e with
    | nil => exact absurd rfl he
    | cons a l =>
      refine ⟨⟨npMean (a :: l), npStd (a :: l), npMedian (a :: l), mad (a :: l), npMax (a :: l),
        auc, fr⟩, ?_⟩
      simp only [computeStatisticalMeasures, measuresOne, if_neg he, h, bind,
        Except.bind, pure, Except.pure]
  obtain ⟨m1, h1⟩ := key [0.1, 0.3] (by simp)
  obtain ⟨m2, h2⟩ := key [0.2] (by simp)
  exact ⟨[m1, m2], .cons h1 (.cons h2 .nil)⟩

end Menpofit
