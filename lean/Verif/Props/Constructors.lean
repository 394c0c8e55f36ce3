import Verif.Lemmas.Constructors
import Verif.Props.Checks
/-!
# C111: options given to the constructors
-/

namespace Menpofit
open Checks Ctor Spec

theorem patches_accepted {n : Nat} (hn : 0 < n) {v : PatchArg} {out : List PatchArg}
    (h : PatchesGiven n v out) : checkPatchShape v n = .ok out := by
  obtain ⟨h1, h2, -⟩ := C03_patch_shape_partial n hn
  cases h with
  | single a b => exact h1 (a, b)
  | list l hl => exact h2 l hl

theorem iterations_accepted {n : Nat} (hn : 0 < n) {v : MaxIters} {out : List Int}
    (h : IterationsGiven n v out) : checkMaxIters v n = .ok out := by
  obtain ⟨h1, -, h2, -⟩ := C04_max_iters_partial n hn
  cases h with
  | total m k hk =>
    obtain ⟨k', hk', he, -⟩ := h1 m
    rw [nearestEven_unique _ _ _ hk hk']; exact he
  | list _ hl => exact h2 _ hl

/-- **C111** (AAM).  With documented scales, a holistic AAM accepts exactly the documented
options, and stores for every scale the value given for it. -/
theorem C111_aam (a : Args) (s : List Py) (hs : ScalesGiven a.scales s) (o : Opts) :
    aam a = .ok o ↔
      DiagonalGiven a.diagonal ∧ o.scales = s ∧
      Given Callable s.length a.holistic o.holistic ∧
      Given Callable s.length a.shapeCls o.shapeCls ∧
      Given isLimit s.length a.maxShape o.maxShape ∧
      Given isLimit s.length a.maxSecond o.maxSecond := by
  obtain ⟨hc, hn⟩ := scales_given hs
  rw [← diagonal_iff, ← callable_iff hn, ← callable_iff hn, ← max_iff hn, ← max_iff hn]
  unfold aam
  simp only [bind_iff, hc, Except.ok.injEq, exists_eq_left', pure_iff]
  constructor
  · rintro ⟨d, hd, h, hh, c, hcl, m, hm, m2, hm2, rfl⟩
    exact ⟨⟨d, hd⟩, rfl, hh, hcl, hm, hm2⟩
  · rintro ⟨⟨d, hd⟩, rfl, hh, hcl, hm, hm2⟩
    exact ⟨d, hd, _, hh, _, hcl, _, hm, _, hm2, rfl⟩

/-- **C111** (masked and linear masked AAM).  One documented patch shape per scale is stored
besides. -/
theorem C111_masked_aam (a : Args) (s : List Py) (hs : ScalesGiven a.scales s) (p : PatchArg)
    (ps : List PatchArg) (hp : PatchesGiven s.length p ps) (r : List PatchArg × Opts) :
    maskedAam a p = .ok r ↔ r.1 = ps ∧ aam a = .ok r.2 := by
  obtain ⟨hc, hn⟩ := scales_given hs
  unfold maskedAam
  simp only [bind_iff, hc, Except.ok.injEq, exists_eq_left', pure_iff, patches_accepted hn hp]
  constructor
  · rintro ⟨o, ho, rfl⟩; exact ⟨rfl, ho⟩
  · rintro ⟨h, ho⟩; exact ⟨_, ho, by rw [← h]⟩

/-- **C111** (patch-based AAM). -/
theorem C111_patch_aam (a : Args) (s : List Py) (hs : ScalesGiven a.scales s) (p : PatchArg)
    (ps : List PatchArg) (hp : PatchesGiven s.length p ps) (f : Py)
    (r : List PatchArg × List Py × Opts) :
    patchAam a p f = .ok r ↔
      r.1 = ps ∧ Given Callable s.length f r.2.1 ∧ aam a = .ok r.2.2 := by
  obtain ⟨hc, hn⟩ := scales_given hs
  rw [← callable_iff hn]
  unfold patchAam
  simp only [bind_iff, hc, Except.ok.injEq, exists_eq_left', pure_iff, patches_accepted hn hp]
  constructor
  · rintro ⟨g, hg, o, ho, rfl⟩; exact ⟨rfl, hg, ho⟩
  · rintro ⟨h, hg, ho⟩; exact ⟨_, hg, _, ho, by rw [← h]⟩

/-- **C111** (unified AAM-CLM). -/
theorem C111_unified (a : ClmArgs) (mx : Py) (s : List Py) (hs : ScalesGiven a.scales s)
    (ps cs : List PatchArg) (hp : PatchesGiven s.length a.patchShape ps)
    (hq : PatchesGiven s.length a.contextShape cs) (r : ClmOpts × List Py) :
    unified a mx = .ok r ↔
      DiagonalGiven a.diagonal ∧ r.1.scales = s ∧ r.1.patchShape = ps ∧ r.1.contextShape = cs ∧
      Given Callable s.length a.holistic r.1.holistic ∧
      Given Callable s.length a.expertCls r.1.expertCls ∧
      Given Callable s.length a.shapeCls r.1.shapeCls ∧
      Given isLimit s.length a.maxShape r.1.maxShape ∧
      Given isLimit s.length mx r.2 := by
  obtain ⟨hc, hn⟩ := scales_given hs
  rw [← diagonal_iff, ← callable_iff hn, ← callable_iff hn, ← callable_iff hn, ← max_iff hn,
    ← max_iff hn]
  unfold unified
  simp only [bind_iff, hc, Except.ok.injEq, exists_eq_left', pure_iff, patches_accepted hn hp,
    patches_accepted hn hq]
  constructor
  · rintro ⟨d, hd, h, hh, c, hcl, m, hm, m2, hm2, e, he, rfl⟩
    exact ⟨⟨d, hd⟩, rfl, rfl, rfl, hh, he, hcl, hm, hm2⟩
  · obtain ⟨⟨sc, ho, ex, sh, mxs, pt, ct⟩, ma⟩ := r
    rintro ⟨⟨d, hd⟩, rfl, rfl, rfl, hh, he, hcl, hm, hm2⟩
    exact ⟨d, hd, _, hh, _, hcl, _, hm, _, hm2, _, he, rfl⟩

/-- **C111** (active pictorial structures): also the graphs, for which only lists may hold one
graph per scale, and a missing graph stands for the default. -/
theorem C111_aps (und dir tree : Nat) (a : ApsArgs) (s : List Py)
    (hs : ScalesGiven a.scales s) (ps : List PatchArg)
    (hp : PatchesGiven s.length a.patchShape ps) (r : ApsOpts) :
    aps und dir tree a = .ok r ↔
      DiagonalGiven a.diagonal ∧ r.scales = s ∧ r.patchShape = ps ∧
      Given Callable s.length a.holistic r.holistic ∧
      Given Callable s.length a.normalisation r.normalisation ∧
      Given isLimit s.length a.maxShape r.maxShape ∧
      Given isLimit s.length a.nAppearance r.nAppearance ∧
      GraphsGiven (OfType [und]) s.length a.appearanceGraph r.appearanceGraph ∧
      GraphsGiven (OfType [und]) s.length a.shapeGraph r.shapeGraph ∧
      GraphsGiven (OfType [dir, tree]) s.length a.deformationGraph r.deformationGraph := by
  obtain ⟨hc, hn⟩ := scales_given hs
  rw [← diagonal_iff, ← callable_iff hn, ← callable_iff hn, ← max_iff hn, ← max_iff hn,
    ← graph_iff hn, ← graph_iff hn, ← graph_iff hn]
  unfold aps
  simp only [bind_iff, hc, Except.ok.injEq, exists_eq_left', pure_iff, patches_accepted hn hp]
  constructor
  · rintro ⟨d, hd, h, hh, c, hcl, m, hm, m2, hm2, g1, h1, g2, h2, g3, h3, rfl⟩
    exact ⟨⟨d, hd⟩, rfl, rfl, hh, hcl, hm, hm2, h1, h2, h3⟩
  · obtain ⟨sc, ho, no, mx, na, pt, g1, g2, g3⟩ := r
    rintro ⟨⟨d, hd⟩, rfl, rfl, hh, hcl, hm, hm2, h1, h2, h3⟩
    exact ⟨d, hd, _, hh, _, hcl, _, hm, _, hm2, _, h1, _, h2, _, h3, rfl⟩

/-- Two scales, one appearance graph (class 3) for the second scale only, a tree (class 5) for the
deformations of both. -/
example : ∃ r, aps 3 4 5 ⟨none, .tuple [.float (1/2), .int 1], .callable 0, .callable 1, .none,
    .int 10, .seq [.int 17, .int 17], .list [.none, .obj 3 0], .none, .obj 5 0⟩ = .ok r ∧
    r.appearanceGraph = [.none, .obj 3 0] ∧ r.deformationGraph = [.obj 5 0, .obj 5 0] := by
  refine ⟨⟨[.float (1/2), .int 1], [.callable 0, .callable 0], [.callable 1, .callable 1],
    [.none, .none], [.int 10, .int 10], [.seq [.int 17, .int 17], .seq [.int 17, .int 17]],
    [.none, .obj 3 0], [.none, .none], [.obj 5 0, .obj 5 0]⟩, ?_, rfl, rfl⟩
  rw [C111_aps 3 4 5 _ [.float (1/2), .int 1] (.tuple (by simp) (by simp [Py.isNumber]))
    _ (.single 17 17)]
  exact ⟨fun x hx => by simp at hx, rfl, rfl, Given.single (n := 2) (by constructor),
    Given.single (n := 2) (by constructor), Given.single (n := 2) (Or.inl rfl),
    Given.single (n := 2) (Or.inr (Or.inl rfl)),
    GraphsGiven.list rfl (by simp [OfType]), GraphsGiven.none (n := 2),
    GraphsGiven.single (n := 2) (by simp [OfType])⟩

/-- **C111** (Lucas-Kanade). -/
theorem C111_lucas_kanade (d : Option Rat) (v : Py) (s : List Py) (hs : ScalesGiven v s) (f : Py)
    (r : List Py × List Py) :
    lk d v f = .ok r ↔
      DiagonalGiven d ∧ r.1 = s ∧ Given Callable s.length f r.2 := by
  obtain ⟨hc, hn⟩ := scales_given hs
  rw [← diagonal_iff, ← callable_iff hn]
  unfold lk
  simp only [bind_iff, hc, Except.ok.injEq, exists_eq_left', pure_iff]
  constructor
  · rintro ⟨d', hd, h, hh, rfl⟩; exact ⟨⟨d', hd⟩, rfl, hh⟩
  · rintro ⟨⟨d', hd⟩, h, hh⟩; exact ⟨d', hd, _, hh, by rw [← h]⟩

/-- Every list that is stored has one value per scale. -/
theorem C111_one_value_per_scale {P : Py → Prop} {n : Nat} {v : Py} {out : List Py} :
    (Given P n v out → out.length = n ∧ (0 < n → ∀ x ∈ out, P x)) ∧
    (GraphsGiven P n v out → out.length = n ∧ (0 < n → ∀ x ∈ out, x = .none ∨ P x)) := by
  refine ⟨fun h => ⟨given_length h, fun _ x hx => ?_⟩,
    fun h => ⟨graphs_length h, fun _ x hx => ?_⟩⟩
  · cases h with
    | single h => exact (List.eq_of_mem_replicate hx) ▸ h
    | list1 h => exact (List.eq_of_mem_replicate hx) ▸ h
    | tuple1 h => exact (List.eq_of_mem_replicate hx) ▸ h
    | list hl h => exact h x hx
    | tuple hl h => exact h x hx
  · cases h with
    | none => exact Or.inl (List.eq_of_mem_replicate hx)
    | single h => exact Or.inr ((List.eq_of_mem_replicate hx) ▸ h)
    | list1 h => exact (List.eq_of_mem_replicate hx) ▸ h
    | list hl h => exact h x hx

/-! Two scales, one feature for both, a limit per scale. -/

/-- Default-like options of an AAM. -/
def usualArgs (scales : Py) : Args :=
  ⟨some 150, scales, .callable 0, .list [.cls [1], .cls [2]], .tuple [.int 5, .float (9/10)],
    .none⟩

example : aam (usualArgs (.tuple [.float (1/2), .int 1])) = .ok
    ⟨[.float (1/2), .int 1], [.callable 0, .callable 0], [.cls [1], .cls [2]],
      [.int 5, .float (9/10)], [.none, .none]⟩ := by
  rw [C111_aam _ [.float (1/2), .int 1] (.tuple (by simp) (by simp [Py.isNumber]))]
  refine ⟨fun x hx => ?_, rfl, ?_, ?_, ?_, ?_⟩
  · have : x = 150 := by simpa [usualArgs, eq_comm] using hx
    rw [this]; norm_num
  · exact Given.single (n := 2) (by constructor)
  · exact Given.list rfl (by simp [← isCallable_iff, Py.isCallable])
  · exact Given.tuple rfl (by simp [isLimit, Py.isInt, Py.isFloat])
  · exact Given.single (n := 2) (Or.inl rfl)

/-- A shape model class too many is refused. -/
example : ∀ o, aam (usualArgs (.float 1)) ≠ .ok o := by
  intro o h
  rw [C111_aam _ [.float 1] (.number rfl)] at h
  have h4 : Given Callable 1 (.list [.cls [1], .cls [2]]) o.shapeCls := h.2.2.2.1
  have hl := given_length h4
  generalize o.shapeCls = out at h4 hl
  cases h4 with
  | single h => exact absurd h (by simp [← isCallable_iff, Py.isCallable])
  | list hl' h => simp at hl

/-- **C111, partial** (ATM).  Given the scales as a list or tuple, an ATM accepts exactly the
documented options and stores the value of every scale.  Missing: a bare number. -/
theorem C111_atm_partial (a : Args) (l : List Py) (hv : a.scales = .list l ∨ a.scales = .tuple l)
    (hne : l ≠ []) (hl : ∀ x ∈ l, x.isNumber = true) (o : Opts) :
    atm a = .ok o ↔
      DiagonalGiven a.diagonal ∧ o.scales = l ∧
      Given Callable l.length a.holistic o.holistic ∧
      Given Callable l.length a.shapeCls o.shapeCls ∧
      Given isLimit l.length a.maxShape o.maxShape ∧ o.maxSecond = [] := by
  have hs : ScalesGiven a.scales l := by
    rcases hv with h | h <;> rw [h]
    · exact .list hne hl
    · exact .tuple hne hl
  have hlen : pyLen a.scales = .ok l.length := by
    rcases hv with h | h <;> rw [h] <;> rfl
  obtain ⟨hc, hn⟩ := scales_given hs
  rw [← diagonal_iff, ← callable_iff hn, ← callable_iff hn, ← max_iff hn]
  unfold atm
  simp only [bind_iff, hc, hlen, Except.ok.injEq, exists_eq_left', pure_iff]
  constructor
  · rintro ⟨d, hd, h, hh, m, hm, c, hcl, rfl⟩
    exact ⟨⟨d, hd⟩, rfl, hh, hcl, hm, rfl⟩
  · obtain ⟨sc, ho, sh, mx, m2⟩ := o
    rintro ⟨⟨d, hd⟩, rfl, hh, hcl, hm, rfl⟩
    exact ⟨d, hd, _, hh, _, hm, _, hcl, rfl⟩

/-- **C111, partial** (masked, linear masked and patch-based ATM). -/
theorem C111_patch_atm_partial (a : Args) (l : List Py)
    (hv : a.scales = .list l ∨ a.scales = .tuple l) (hne : l ≠ []) (p : PatchArg)
    (ps : List PatchArg) (hp : PatchesGiven l.length p ps) (r : List PatchArg × Opts) :
    patchAtm a p = .ok r ↔ r.1 = ps ∧ atm a = .ok r.2 := by
  have hlen : pyLen a.scales = .ok l.length := by
    rcases hv with h | h <;> rw [h] <;> rfl
  unfold patchAtm
  simp only [bind_iff, hlen, Except.ok.injEq, exists_eq_left', pure_iff,
    patches_accepted (List.length_pos_of_ne_nil hne) hp]
  constructor
  · rintro ⟨o, ho, rfl⟩; exact ⟨rfl, ho⟩
  · rintro ⟨h, ho⟩; exact ⟨_, ho, by rw [← h]⟩

/-- **C111, partial** (CLM). -/
theorem C111_clm_partial (a : ClmArgs) (l : List Py)
    (hv : a.scales = .list l ∨ a.scales = .tuple l) (hne : l ≠ [])
    (hl : ∀ x ∈ l, x.isNumber = true) (ps cs : List PatchArg)
    (hp : PatchesGiven l.length a.patchShape ps)
    (hq : PatchesGiven l.length a.contextShape cs) (r : ClmOpts) :
    clm a = .ok r ↔
      DiagonalGiven a.diagonal ∧ r.scales = l ∧ r.patchShape = ps ∧ r.contextShape = cs ∧
      Given Callable l.length a.holistic r.holistic ∧
      Given Callable l.length a.expertCls r.expertCls ∧
      Given Callable l.length a.shapeCls r.shapeCls ∧
      Given isLimit l.length a.maxShape r.maxShape := by
  have hs : ScalesGiven a.scales l := by
    rcases hv with h | h <;> rw [h]
    · exact .list hne hl
    · exact .tuple hne hl
  have hlen : pyLen a.scales = .ok l.length := by
    rcases hv with h | h <;> rw [h] <;> rfl
  obtain ⟨hc, hn⟩ := scales_given hs
  rw [← diagonal_iff, ← callable_iff hn, ← callable_iff hn, ← callable_iff hn, ← max_iff hn]
  unfold clm
  simp only [bind_iff, hc, hlen, Except.ok.injEq, exists_eq_left', pure_iff,
    patches_accepted hn hp, patches_accepted hn hq]
  constructor
  · rintro ⟨d, hd, h, hh, e, he, c, hcl, m, hm, rfl⟩
    exact ⟨⟨d, hd⟩, rfl, rfl, rfl, hh, he, hcl, hm⟩
  · obtain ⟨sc, ho, ex, sh, mxs, pt, ct⟩ := r
    rintro ⟨⟨d, hd⟩, rfl, rfl, rfl, hh, he, hcl, hm⟩
    exact ⟨d, hd, _, hh, _, he, _, hcl, _, hm, rfl⟩

example : ∃ r, clm ⟨some 150, .list [.float (1/2), .int 1], .callable 0, .cls [7], .cls [8],
    .list [.int 3], .seq [.int 17, .int 17],
    .seq [.seq [.int 34, .int 34], .seq [.int 68, .int 68]]⟩ = .ok r ∧
    r.maxShape = [.int 3, .int 3] := by
  refine ⟨⟨[.float (1/2), .int 1], [.callable 0, .callable 0], [.cls [7], .cls [7]],
    [.cls [8], .cls [8]], [.int 3, .int 3], [.seq [.int 17, .int 17], .seq [.int 17, .int 17]],
    [.seq [.int 34, .int 34], .seq [.int 68, .int 68]]⟩, ?_, rfl⟩
  rw [C111_clm_partial _ [.float (1/2), .int 1] (Or.inl rfl) (by simp) (by simp [Py.isNumber])
    _ _ (.single 17 17) (.list [(34, 34), (68, 68)] rfl)]
  refine ⟨fun x hx => ?_, rfl, rfl, rfl, Given.single (n := 2) (by constructor), Given.single (n := 2) (by constructor),
    Given.single (n := 2) (by constructor), Given.list1 (n := 2) (Or.inr (Or.inl rfl))⟩
  have : x = 150 := by simpa [eq_comm] using hx
  rw [this]; norm_num

/-- **C111, violated.**  A bare number is documented for `scales` ("If `float`, then a single
scale is assumed"), but the ATMs and the CLM take its length: whatever the other options, no
such call succeeds, and with a valid diagonal it is a `TypeError`. -/
theorem C111_one_scale_violated (v : Py) (hv : v.isNumber = true) :
    (∀ a : Args, a.scales = v → DiagonalGiven a.diagonal → atm a = .error .typeError) ∧
    (∀ (a : Args) (p : PatchArg), a.scales = v → patchAtm a p = .error .typeError) ∧
    (∀ a : ClmArgs, a.scales = v → clm a = .error .typeError) := by
  have hlen := len_number hv
  refine ⟨fun a ha hd => ?_, fun a p ha => ?_, fun a ha => ?_⟩
  · obtain ⟨d, hd⟩ := (diagonal_iff _).mpr hd
    simp [atm, hd, ha, hlen, bind, Except.bind]
  · simp [patchAtm, ha, hlen, bind, Except.bind]
  · obtain ⟨hc, -⟩ := scales_given (ScalesGiven.number hv)
    simp [clm, ha, hc, hlen, bind, Except.bind]

/-- The same number is fine for an AAM. -/
example : ∃ o, aam ⟨none, .float (1/2), .callable 0, .cls [1], .none, .none⟩ = .ok o := by
  refine ⟨⟨[.float (1/2)], [.callable 0], [.cls [1]], [.none], [.none]⟩, ?_⟩
  rw [C111_aam _ [.float (1/2)] (.number rfl)]
  exact ⟨fun x hx => by simp at hx, rfl, Given.single (n := 1) (by constructor), Given.single (n := 1) (by constructor),
    Given.single (n := 1) (by simp [isLimit, Py.isNone]),
    Given.single (n := 1) (by simp [isLimit, Py.isNone])⟩

/-- **C111, partial** (supervised descent).  Without a batch size and given an algorithm class, a
supervised descent fitter accepts exactly the documented options. -/
theorem C111_sdm_partial (a : SdmArgs) (hb : a.batchSize = none) (s : List Py)
    (hs : ScalesGiven a.scales s) (ps : List PatchArg)
    (hp : PatchesGiven s.length a.patchShape ps) (its : List Int)
    (hi : IterationsGiven s.length a.nIterations its) (r : SdmOpts) :
    sdm a = .ok r ↔
      DiagonalGiven a.diagonal ∧ r.scales = s ∧ r.patchShape = ps ∧ r.nIterations = its ∧
      Given Callable s.length a.patchFeatures r.patchFeatures ∧
      Given Callable s.length a.sdCls r.sdCls ∧
      Given Callable s.length a.holistic r.holistic := by
  obtain ⟨hc, hn⟩ := scales_given hs
  rw [← diagonal_iff, ← callable_iff hn, ← callable_iff hn, ← callable_iff hn]
  unfold sdm
  simp only [hb, Option.isSome_none, Bool.false_eq_true, if_false, bind_iff, hc, Except.ok.injEq,
    exists_eq_left', pure_iff, patches_accepted hn hp, iterations_accepted hn hi]
  constructor
  · rintro ⟨d, hd, f, hf, c, hcl, h, hh, rfl⟩
    exact ⟨⟨d, hd⟩, rfl, rfl, rfl, hf, hcl, hh⟩
  · obtain ⟨sc, pf, sd, ho, pt, ni⟩ := r
    rintro ⟨⟨d, hd⟩, rfl, rfl, rfl, hf, hcl, hh⟩
    exact ⟨d, hd, _, hf, _, hcl, _, hh, rfl⟩

/-- **C111, violated** (supervised descent).  `sd_algorithm_cls` defaults to `None` and
`batch_size` is documented, but no call that leaves out the one or gives the other succeeds. -/
theorem C111_sdm_violated (a : SdmArgs) :
    (∀ b, a.batchSize = some b → sdm a = .error .notImplementedError) ∧
    (a.sdCls = .none → ∀ r, sdm a ≠ .ok r) := by
  constructor
  · intro b hb
    simp [sdm, hb, bind, Except.bind]
  · intro hc r h
    cases hb : a.batchSize with
    | some b => simp [sdm, hb, bind, Except.bind] at h
    | none =>
      unfold sdm at h
      simp only [hb, Option.isSome_none, Bool.false_eq_true, if_false, bind_iff] at h
      obtain ⟨-, -, s, -, f, -, c, hcl, -⟩ := h
      rw [hc] at hcl
      simp [checkCallable, Py.isCallable, Py.elems?] at hcl

/-- Six iterations on two scales. -/
example : ∃ r, sdm ⟨none, none, .tuple [.float (1/2), .int 1], .callable 0, .cls [7],
    .callable 1, .seq [.int 17, .int 17], .int 6⟩ = .ok r ∧ r.nIterations = [3, 3] ∧
    r.sdCls = [.cls [7], .cls [7]] := by
  refine ⟨⟨[.float (1/2), .int 1], [.callable 0, .callable 0], [.cls [7], .cls [7]],
    [.callable 1, .callable 1], [.seq [.int 17, .int 17], .seq [.int 17, .int 17]], [3, 3]⟩,
    ?_, rfl, rfl⟩
  rw [C111_sdm_partial _ rfl [.float (1/2), .int 1] (.tuple (by simp) (by simp [Py.isNumber]))
    _ (.single 17 17) [3, 3] (.total 6 3 ⟨by norm_num, by norm_num⟩)]
  exact ⟨fun x hx => by simp at hx, rfl, rfl, rfl, Given.single (n := 2) (by constructor),
    Given.single (n := 2) (by constructor), Given.single (n := 2) (by constructor)⟩

/-- **C111, partial** (DlibERT).  With every option an integer (or a list of integers), except the
two weights, which must be floats, there is one complete set of options per scale. -/
theorem C111_dlib_partial (d : Option Rat) (v : Py) (s : List Py) (hs : ScalesGiven v s)
    (m : MaxIters) (its : List Int) (hi : IterationsGiven s.length m its) (a : DlibArgs)
    (r : List Py × List Int × List DlibLevel) :
    dlibErt d v m a = .ok r ↔
      DiagonalGiven d ∧ r.1 = s ∧ r.2.1 = its ∧ r.2.2.length = s.length ∧
      Given (·.isInt = true) s.length a.featurePadding (r.2.2.map (·.featurePadding)) ∧
      Given (·.isInt = true) s.length a.nPixelPairs (r.2.2.map (·.nPixelPairs)) ∧
      Given (·.isFloat = true) s.length a.distancePrior (r.2.2.map (·.distancePrior)) ∧
      Given (·.isFloat = true) s.length a.regularisation (r.2.2.map (·.regularisation)) ∧
      Given (·.isInt = true) s.length a.nSplitTests (r.2.2.map (·.nSplitTests)) ∧
      Given (·.isInt = true) s.length a.nTrees (r.2.2.map (·.nTrees)) ∧
      Given (·.isInt = true) s.length a.nDlibPerturbations
        (r.2.2.map (·.nDlibPerturbations)) ∧
      Given (·.isInt = true) s.length a.nTreeLevels (r.2.2.map (·.nTreeLevels)) := by
  obtain ⟨hc, hn⟩ := scales_given hs
  unfold dlibErt dlibOptions
  simp only [bind_iff, hc, Except.ok.injEq, exists_eq_left', pure_iff, iterations_accepted hn hi,
    int_iff hn, float_iff hn]
  rw [← diagonal_iff]
  constructor
  · rintro ⟨d', hd, lv, ⟨l1, h1, l2, h2, l3, h3, l4, h4, l5, h5, l6, h6, l7, h7, l8, h8, hm⟩, rfl⟩
    obtain ⟨hlen, rfl, rfl, rfl, rfl, rfl, rfl, rfl, rfl⟩ :=
      levels_of_lists _ _ _ _ _ _ _ _ (given_length h1) (given_length h2)
        (given_length h3) (given_length h4) (given_length h5) (given_length h6)
        (given_length h7) (given_length h8) hm
    exact ⟨⟨d', hd⟩, rfl, rfl, hlen, h1, h2, h3, h4, h5, h6, h7, h8⟩
  · obtain ⟨sc, is, lv⟩ := r
    rintro ⟨⟨d', hd⟩, rfl, rfl, hlen, h1, h2, h3, h4, h5, h6, h7, h8⟩
    exact ⟨d', hd, lv, ⟨_, h1, _, h2, _, h3, _, h4, _, h5, _, h6, _, h7, _, h8,
      lists_of_levels lv hlen⟩, rfl⟩

/-- **C111, violated** (DlibERT).  `feature_padding` is documented as a float, with 0.5 and -0.2
as examples, and `n_dlib_perturbations` may be `None`: both are refused, whatever the other
options. -/
theorem C111_dlib_violated (d : Option Rat) (v : Py) (m : MaxIters) (a : DlibArgs)
    (h : (∃ q, a.featurePadding = .float q) ∨ a.nDlibPerturbations = .none) :
    ∀ r, dlibErt d v m a ≠ .ok r := by
  intro r hr
  unfold dlibErt dlibOptions at hr
  simp only [bind_iff] at hr
  obtain ⟨-, -, s, -, -, -, -, ⟨l1, h1, -, -, -, -, -, -, -, -, -, -, l7, h7, -⟩, -⟩ := hr
  rcases h with ⟨q, hq⟩ | hq
  · rw [hq] at h1; simp [checkMultiScaleParam, Py.isInt, Py.elems?] at h1
  · rw [hq] at h7; simp [checkMultiScaleParam, Py.isInt, Py.elems?] at h7

example : ∃ r, dlibErt none (.tuple [.float (1/2), .int 1]) (.int 10)
    ⟨.int 0, .int 400, .float (1/10), .float (1/10), .int 20, .list [.int 500, .int 100], .int 1,
      .int 5⟩ = .ok r ∧ (r.2.2.map (·.nTrees)) = [.int 500, .int 100] ∧ r.2.1 = [5, 5] := by
  refine ⟨⟨[.float (1/2), .int 1], [5, 5],
    [⟨.int 0, .int 400, .float (1/10), .float (1/10), .int 20, .int 500, .int 1, .int 5⟩,
     ⟨.int 0, .int 400, .float (1/10), .float (1/10), .int 20, .int 100, .int 1, .int 5⟩]⟩,
    ?_, rfl, rfl⟩
  rw [C111_dlib_partial _ _ [.float (1/2), .int 1] (.tuple (by simp) (by simp [Py.isNumber]))
    _ [5, 5] (.total 10 5 ⟨by norm_num, by norm_num⟩)]
  exact ⟨fun x hx => by simp at hx, rfl, rfl, rfl, Given.single (n := 2) (by constructor),
    Given.single (n := 2) (by constructor), Given.single (n := 2) (by constructor), Given.single (n := 2) (by constructor),
    Given.single (n := 2) (by constructor), Given.list rfl (by simp [Py.isInt]), Given.single (n := 2) (by constructor),
    Given.single (n := 2) (by constructor)⟩

end Menpofit
