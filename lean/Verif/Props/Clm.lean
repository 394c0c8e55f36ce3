import Verif.Lemmas.Clm
import Verif.Props.GaussNewton
import Verif.Props.AamSolvers
/-!
# C54, C55, C56: constrained local models
-/

namespace Menpofit
open Base Stats Clm Spec Matrix

/-! ### C54 -/

/-- C54: for a non-negative response map with some mass, the mean-shift target of a landmark is a
convex combination of the pixel positions of its search window. -/
theorem C54_target (h w : Nat) (c : ℝ) (hc : 0 < c) (pt : ℝ × ℝ) (response : List ℝ)
    (hl : response.length = h * w) (h0 : ∀ v ∈ response, 0 ≤ v) (hp : ∃ v ∈ response, 0 < v) :
    rlmsTarget h w c pt response ∈ convexHull ℝ (searchWindow h w pt) := by
  unfold rlmsTarget
  apply weightedMean_mem (convex_convexHull ℝ _)
  · simp [candidates, offsets_length, hl]
  · intro v hv
    rw [List.mem_iff_getElem] at hv
    obtain ⟨k, hk, rfl⟩ := hv
    rw [List.getElem_zipWith, List.getElem_map]
    exact mul_nonneg (h0 _ (List.getElem_mem _)) (gauss_pos hc _).le
  · obtain ⟨v, hv, hpos⟩ := hp
    obtain ⟨k, hk, rfl⟩ := List.mem_iff_getElem.1 hv
    have hk2 : k < (List.zipWith (· * ·) response
        ((offsets h w).map fun g => gauss c ((g.1 : ℝ), (g.2 : ℝ)))).length := by
      simp [offsets_length, hl]; omega
    refine list_sum_pos ?_ (List.getElem_mem hk2) ?_
    · intro v hv
      rw [List.mem_iff_getElem] at hv
      obtain ⟨k, hk, rfl⟩ := hv
      rw [List.getElem_zipWith, List.getElem_map]
      exact mul_nonneg (h0 _ (List.getElem_mem _)) (gauss_pos hc _).le
    · rw [List.getElem_zipWith, List.getElem_map]
      exact mul_pos hpos (gauss_pos hc _)
  · intro q hq
    exact subset_convexHull ℝ _ (mem_candidates h w pt q hq)

/-- C54: hence a landmark is asked to move by at most half the search window along each axis. -/
theorem C54_bounded (h w : Nat) (c : ℝ) (hc : 0 < c) (pt : ℝ × ℝ) (response : List ℝ)
    (hl : response.length = h * w) (h0 : ∀ v ∈ response, 0 ≤ v) (hp : ∃ v ∈ response, 0 < v) :
    |(rlmsError h w c pt response).1| ≤ (h / 2 : Nat) ∧
    |(rlmsError h w c pt response).2| ≤ (w / 2 : Nat) := by
  have hm := C54_target h w c hc pt response hl h0 hp
  have hsub : searchWindow h w pt ⊆ {q : ℝ × ℝ | |q.1 - pt.1| ≤ (h / 2 : Nat)} ∩
      {q : ℝ × ℝ | |q.2 - pt.2| ≤ (w / 2 : Nat)} := by
    rintro q ⟨i, j, hi, hj, rfl⟩
    have a1 : (i : ℝ) ≤ 2 * (h / 2 : Nat) := by exact_mod_cast (by omega : i ≤ 2 * (h / 2))
    have a2 : (j : ℝ) ≤ 2 * (w / 2 : Nat) := by exact_mod_cast (by omega : j ≤ 2 * (w / 2))
    have b1 : (0 : ℝ) ≤ i := Nat.cast_nonneg _
    have b2 : (0 : ℝ) ≤ j := Nat.cast_nonneg _
    constructor <;> simp only [Set.mem_setOf_eq, abs_le] <;> constructor <;> linarith
  have hconv : Convex ℝ ({q : ℝ × ℝ | |q.1 - pt.1| ≤ (h / 2 : Nat)} ∩
      {q : ℝ × ℝ | |q.2 - pt.2| ≤ (w / 2 : Nat)}) := by
    intro x hx y hy a b ha hb hab
    simp only [Set.mem_inter_iff, Set.mem_setOf_eq, abs_le] at hx hy ⊢
    obtain ⟨⟨x1, x2⟩, x3, x4⟩ := hx
    obtain ⟨⟨y1, y2⟩, y3, y4⟩ := hy
    have hb' : b = 1 - a := by linarith
    subst hb'
    simp only [Prod.fst_add, Prod.snd_add, Prod.smul_fst, Prod.smul_snd, smul_eq_mul]
    refine ⟨⟨?_, ?_⟩, ?_, ?_⟩ <;> nlinarith
  exact convexHull_min hsub hconv hm

/-- C54: when the only positive response is in row `i` and column `j` of the window, the target is
that pixel. -/
theorem C54_point_mass (h w : Nat) (c : ℝ) (hc : 0 < c) (pt : ℝ × ℝ) (response : List ℝ)
    (hl : response.length = h * w) (i j : Nat) (hi : i < h) (hj : j < w)
    (v : ℝ) (hv : response[i * w + j]? = some v) (hpos : 0 < v)
    (hz : ∀ (k : Nat) u, response[k]? = some u → k ≠ i * w + j → u = 0) :
    rlmsTarget h w c pt response =
      (pt.1 + ((i : ℝ) - (h / 2 : Nat)), pt.2 + ((j : ℝ) - (w / 2 : Nat))) := by
  have hk : i * w + j < h * w := by nlinarith
  obtain ⟨ws, hws⟩ : ∃ ws, ws = List.zipWith (· * ·) response
      ((offsets h w).map fun g => gauss c ((g.1 : ℝ), (g.2 : ℝ))) := ⟨_, rfl⟩
  have hwl : ws.length = h * w := by rw [hws]; simp [hl, offsets_length]
  have zero : ∀ (k : Nat) u, ws[k]? = some u → k ≠ i * w + j → u = 0 := by
    intro k u hu hne
    obtain ⟨hk', hu⟩ := List.getElem?_eq_some_iff.1 hu
    subst hws
    rw [List.getElem_zipWith, hz k _ (List.getElem?_eq_getElem (by omega)) hne, zero_mul] at hu
    exact hu.symm
  obtain ⟨u, hu, hup⟩ : ∃ u, ws[i * w + j]? = some u ∧ 0 < u := by
    refine ⟨_, List.getElem?_eq_getElem (by omega), ?_⟩
    subst hws
    rw [List.getElem_zipWith, List.getElem_map]
    obtain ⟨hh, hv⟩ := List.getElem?_eq_some_iff.1 hv
    rw [hv]
    exact mul_pos hpos (gauss_pos hc _)
  have single : ∀ (a : List ℝ) (b : List (ℝ × ℝ)) (pr : ℝ × ℝ → ℝ) (k : Nat) (x : ℝ) (y : ℝ × ℝ),
      a.length = b.length → a[k]? = some x → b[k]? = some y →
      (∀ (m : Nat) z, a[m]? = some z → m ≠ k → z = 0) →
      a.sum = x ∧ (List.zipWith (fun v c => v * pr c) a b).sum = x * pr y := by
    intro a
    induction a with
    | nil => intro b pr k x y _ hx; simp at hx
    | cons a0 a ih =>
      intro b pr k x y hlen hx hy hzz
      cases b with
      | nil => simp at hlen
      | cons b0 b =>
        cases k with
        | zero =>
          simp only [List.getElem?_cons_zero, Option.some.injEq] at hx hy
          subst hx hy
          have all0 : ∀ z ∈ a, z = 0 := by
            intro z hz
            obtain ⟨m, hm, e⟩ := List.mem_iff_getElem.1 hz
            exact hzz (m + 1) z (by simp [List.getElem?_eq_getElem hm, e]) (by omega)
          have s0 : a.sum = 0 := List.sum_eq_zero all0
          have s1 : (List.zipWith (fun v c => v * pr c) a b).sum = 0 := by
            apply List.sum_eq_zero
            intro z hz
            obtain ⟨m, hm, e⟩ := List.mem_iff_getElem.1 hz
            rw [List.getElem_zipWith] at e
            rw [← e, all0 _ (List.getElem_mem _), zero_mul]
          simp [s0, s1]
        | succ k =>
          have h0 : a0 = 0 := hzz 0 a0 rfl (by omega)
          obtain ⟨i1, i2⟩ := ih b pr k x y (by simpa using hlen) (by simpa using hx)
            (by simpa using hy) (fun m z hm hne => hzz (m + 1) z (by simpa using hm) (by omega))
          simp [h0, i1, i2]
  have cl : ws.length = (candidates h w pt).length := by
    rw [hwl]; simp [candidates, offsets_length]
  have cg := candidates_get h w pt i j hi hj
  have tot := (single ws (candidates h w pt) Prod.fst _ u _ cl hu cg zero).1
  have div : ∀ pr : ℝ × ℝ → ℝ, (List.zipWith (fun v c => v * pr c) (ws.map (· / ws.sum))
      (candidates h w pt)).sum =
      pr (pt.1 + ((i : ℝ) - (h / 2 : Nat)), pt.2 + ((j : ℝ) - (w / 2 : Nat))) := by
    intro pr
    have := (single (ws.map (· / ws.sum)) (candidates h w pt) pr (i * w + j) 1 _
      (by simpa using cl) (by rw [List.getElem?_map, hu, tot]; simp [hup.ne']) cg (by
        intro m z hm hne
        rw [List.getElem?_map] at hm
        cases hw : ws[m]? with
        | none => rw [hw] at hm; cases hm
        | some z0 =>
          rw [hw, zero m z0 hw hne] at hm
          simp at hm
          exact hm.symm)).2
    rw [this, one_mul]
  unfold rlmsTarget weightedMean
  simp only [← hws]
  rw [div Prod.fst, div Prod.snd]

/-- C54: the parameters after one iteration are the only ones that bring the linearised shape closest
to the mean-shift targets, all of which lie in the search windows; with a prior, they trade this
distance against the prior energy of the new parameters. -/
theorem C54_update {n k : Nat} (h w : Nat) (c : ℝ) (hc : 0 < c)
    (J : Matrix (Fin (n * 2)) (Fin k) ℝ) (prior : Fin k → ℝ) (hprior : ∀ i, 0 ≤ prior i)
    (shape : (Fin k → ℝ) → Fin n → ℝ × ℝ)
    (respond : (Fin n → ℝ × ℝ) → Except PyErr (Fin n → List ℝ)) (mapInference : Bool)
    (p p' : Fin k → ℝ) (maps : Fin n → List ℝ) (hr : respond (shape p) = .ok maps)
    (hd : ∀ i, IsDistribution (maps i)) (hl : ∀ i, (maps i).length = h * w)
    (hs : rlmsStep h w c J prior shape respond mapInference p = .ok p') :
    ∃ t : Fin n → ℝ × ℝ, (∀ i, t i ∈ convexHull ℝ (searchWindow h w (shape p i))) ∧
      UniqueMin (fun q => sqNorm ((ravel t - ravel (shape p)) - J *ᵥ (q - p)) +
        (if mapInference then priorEnergy prior q else 0)) p' := by
  refine ⟨fun i => rlmsTarget h w c (shape p i) (maps i), ?_, ?_⟩
  · intro i
    refine C54_target h w c hc _ _ (hl i) (hd i).1 ?_
    by_contra hne
    push Not at hne
    have : (maps i).sum = 0 := List.sum_eq_zero fun v hv =>
      le_antisymm (hne v hv) ((hd i).1 v hv)
    rw [(hd i).2] at this
    norm_num at this
  · unfold rlmsStep at hs
    simp only [hr, bind, Except.bind, pure, Except.pure] at hs
    have er : (ravel fun i => rlmsError h w c (shape p i) (maps i)) =
        ravel (fun i => rlmsTarget h w c (shape p i) (maps i)) - ravel (shape p) := by
      funext i
      simp only [ravel, rlmsError, Pi.sub_apply]
      split <;> rfl
    rw [er] at hs
    obtain ⟨e, he⟩ : ∃ e, e = ravel (fun i => rlmsTarget h w c (shape p i) (maps i)) -
      ravel (shape p) := ⟨_, rfl⟩
    rw [← he] at hs ⊢
    cases mapInference with
    | false =>
      simp only [Bool.false_eq_true, if_false, add_zero] at hs ⊢
      cases hm : GN.clmMlStep J e with
      | error x => rw [hm] at hs; cases hs
      | ok d =>
        rw [hm] at hs
        injection hs with hs
        subst hs
        intro q
        obtain ⟨h1, h2⟩ := C77_clm J e d hm (q - p)
        simp only [add_sub_cancel_left]
        exact ⟨h1, fun heq => by rw [← h2 heq]; abel⟩
    | true =>
      simp only [if_true] at hs ⊢
      cases hm : GN.clmMapStep J prior e p with
      | error x => rw [hm] at hs; cases hs
      | ok d =>
        rw [hm] at hs
        injection hs with hs
        subst hs
        intro q
        obtain ⟨h1, h2⟩ := C17_clm_map J prior e p d hprior hm (q - p)
        simp only [add_sub_cancel_left, add_sub_cancel] at h1 h2 ⊢
        exact ⟨h1, fun heq => by rw [← h2 heq]; abel⟩

example : rlmsTarget 3 3 10 (5, 7) [0, 0, 0, 0, 0, 2, 0, 0, 0] = (5, 8) := by
  rw [C54_point_mass 3 3 10 (by norm_num) (5, 7) _ rfl 1 2 (by norm_num) (by norm_num) 2 rfl
    (by norm_num) (by
      intro k u hu hne
      match k with
      | 0 | 1 | 2 | 3 | 4 | 6 | 7 | 8 => simpa using hu.symm
      | 5 => exact absurd rfl hne
      | k + 9 => simp at hu)]
  norm_num

/-! ### C55 -/

/-- C55: a stack of response maps none of which is flat becomes a stack of probability maps in which
the values of each map keep their order.  (Missing: flat maps, see `C55_flat_violated`.) -/
theorem C55_probability_partial (h w : Nat) (maps : List (List ℝ)) (hl : ∀ m ∈ maps, m.length = h * w)
    (hf : ∀ m ∈ maps, ¬ IsFlat m) :
    ∃ out, probabilityMap h w maps = .ok out ∧
      List.Forall₂ (fun m o => IsDistribution o ∧ o.length = m.length ∧
        ∀ (i j : Nat) a b a' b', m[i]? = some a → m[j]? = some b → o[i]? = some a' →
          o[j]? = some b' → (a' ≤ b' ↔ a ≤ b)) maps out := by
  have pos : ∀ m ∈ maps, 0 < (m.map (· - npMin m)).sum := by
    intro m hm
    have hnf := hf m hm
    unfold IsFlat at hnf
    push Not at hnf
    obtain ⟨u, hu, v, hv, hne⟩ := hnf
    have nn : ∀ x ∈ m.map (· - npMin m), 0 ≤ x := by
      intro x hx
      obtain ⟨y, hy, rfl⟩ := List.mem_map.1 hx
      exact sub_nonneg.2 (npMin_le hy)
    rcases lt_or_gt_of_ne hne with hlt | hlt
    · refine list_sum_pos nn (List.mem_map.2 ⟨v, hv, rfl⟩) ?_
      have := npMin_le hu
      linarith
    · refine list_sum_pos nn (List.mem_map.2 ⟨u, hu, rfl⟩) ?_
      have := npMin_le hv
      linarith
  have hall : (maps.map fun m => m.map (· - npMin m)).all (fun m => decide (0 < m.sum)) = true := by
    rw [List.all_eq_true]
    intro x hx
    obtain ⟨m, hm, rfl⟩ := List.mem_map.1 hx
    simpa using pos m hm
  have hne : ¬ (maps.length ≠ 0 ∧ h * w = 0) := by
    rintro ⟨h1, h2⟩
    cases maps with
    | nil => simp at h1
    | cons m ms =>
      have e := hl m (by simp)
      rw [h2] at e
      have e := List.length_eq_zero_iff.1 e
      exact hf m (by simp) (by rw [e]; intro v hv; cases hv)
  refine ⟨(maps.map fun m => m.map (· - npMin m)).map fun m => m.map (· / m.sum),
    by unfold probabilityMap; rw [if_neg hne]; simp only [hall, if_true], ?_⟩
  rw [List.map_map]
  clear hall hne hl hf
  induction maps with
  | nil => exact .nil
  | cons m maps ih =>
    refine .cons ?_ (ih fun m hm => pos m (by simp [hm]))
    have hp := pos m (by simp)
    simp only [Function.comp]
    obtain ⟨t, ht⟩ : ∃ t, t = (m.map (· - npMin m)).sum := ⟨_, rfl⟩
    rw [← ht] at hp
    refine ⟨⟨?_, ?_⟩, by simp, ?_⟩
    · intro x hx
      rw [← ht] at hx
      obtain ⟨y, hy, rfl⟩ := List.mem_map.1 hx
      obtain ⟨z, hz, rfl⟩ := List.mem_map.1 hy
      exact div_nonneg (sub_nonneg.2 (npMin_le hz)) hp.le
    · rw [sum_div_list, ← ht, div_self hp.ne']
    · intro i j a b a' b' ha hb ha' hb'
      rw [← ht] at ha' hb'
      rw [List.getElem?_map, List.getElem?_map, ha] at ha'
      rw [List.getElem?_map, List.getElem?_map, hb] at hb'
      simp only [Option.map_some, Option.some.injEq] at ha' hb'
      rw [← ha', ← hb', div_le_div_iff_of_pos_right hp]
      constructor <;> intro <;> linarith

/-- C55 fails for flat maps: a stack of maps with more than one pixel in which some map is flat raises
`IndexError`, whatever the other maps are; a single-pixel map becomes one half. -/
theorem C55_flat_violated (h w : Nat) (hw : 1 < h * w) (maps : List (List ℝ))
    (hl : ∀ m ∈ maps, m.length = h * w) (m : List ℝ) (hm : m ∈ maps) (hf : IsFlat m) :
    probabilityMap h w maps = .error .indexError ∧
    (∀ v : ℝ, probabilityMap 1 1 [[v]] = .ok [[1 / 2]]) := by
  have z : (m.map (· - npMin m)).sum = 0 := by
    apply List.sum_eq_zero
    intro x hx
    obtain ⟨y, hy, rfl⟩ := List.mem_map.1 hx
    have : m ≠ [] := by intro e; rw [e] at hy; cases hy
    rw [hf y hy _ (npMin_mem this), sub_self]
  constructor
  · have hall : (maps.map fun m => m.map (· - npMin m)).all (fun m => decide (0 < m.sum)) = false := by
      rw [List.all_eq_false]
      exact ⟨_, List.mem_map.2 ⟨m, hm, rfl⟩, by simp [z]⟩
    unfold probabilityMap
    rw [if_neg (by omega)]
    simp only [hall, Bool.false_eq_true, if_false]
    rw [if_neg]
    rintro ⟨rfl, rfl⟩
    omega
  · intro v
    unfold probabilityMap
    simp [npMin]

example : ∃ out, probabilityMap 1 2 [[1, 3], [5, 2]] = .ok out := by
  obtain ⟨out, h, _⟩ := C55_probability_partial 1 2 [[1, 3], [5, 2]] (by simp) (by
    intro m hm hf
    simp only [List.mem_cons, List.not_mem_nil, or_false] at hm
    rcases hm with rfl | rfl
    · have := hf 1 (by simp) 3 (by simp); norm_num at this
    · have := hf 5 (by simp) 2 (by simp); norm_num at this)
  exact ⟨out, h⟩

/-! ### C56 -/

/-- C56: in a search window whose height and width leave the remainder 1 when divided by 4, the
displacement asked for by the active shape model has, along each axis, the sign of the offset of the
peak of the response; in particular a peak at the centre does not move the landmark.  (Missing: all
other sizes, see the two theorems below.) -/
theorem C56_peak_partial (h w : Nat) (hh : h % 4 = 1) (hw : w % 4 = 1) (c : ℝ) (hc : 0 < c)
    (pt : ℝ × ℝ) (response : List ℝ) (i j : Nat) (hp : PeaksAt h w response i j) :
    let e := asmError h w c pt response
    (e.1 = 0 ↔ i = h / 2) ∧ (0 < e.1 ↔ h / 2 < i) ∧ (e.1 < 0 ↔ i < h / 2) ∧
    (e.2 = 0 ↔ j = w / 2) ∧ (0 < e.2 ↔ w / 2 < j) ∧ (e.2 < 0 ↔ j < w / 2) := by
  have ha := argmax_peak hp
  obtain ⟨hi, hj, _, _⟩ := hp
  obtain ⟨t1, t2⟩ := asmTarget_eq hc (by omega) (by omega) pt response (h := h) (w := w)
  have pk1 : (asmPeak h w response).1 = (i : Int) - (h / 2 : Nat) := by
    unfold asmPeak roundHalf
    rw [ha, Nat.mul_comm, Nat.mul_add_div (by omega), Nat.div_eq_of_lt hj]
    rw [if_neg (by omega), if_pos (by omega)]
    simp
  have pk2 : (asmPeak h w response).2 = (j : Int) - (w / 2 : Nat) := by
    unfold asmPeak roundHalf
    simp only
    rw [ha, Nat.mul_comm, Nat.mul_add_mod, Nat.mod_eq_of_lt hj]
    rw [if_neg (by omega), if_pos (by omega)]
  have one : ∀ (n k : Nat), n % 4 = 1 → k < n → ∀ x : ℝ,
      let e := x - (x + moment c n ((k : Int) - (n / 2 : Nat)) / mass c n ((k : Int) - (n / 2 : Nat)))
      (e = 0 ↔ k = n / 2) ∧ (0 < e ↔ n / 2 < k) ∧ (e < 0 ↔ k < n / 2) := by
    intro n k hn hk x
    have ms := mass_pos (c := c) (n := n) (by omega) ((k : Int) - (n / 2 : Nat))
    obtain ⟨m1, m2, m3⟩ := moment_odd hc (n / 2) ((k : Int) - (n / 2 : Nat))
    have e2 : 2 * (n / 2) + 1 = n := by omega
    rw [e2] at m1 m2 m3
    generalize moment c n ((k : Int) - (n / 2 : Nat)) = M at *
    generalize mass c n ((k : Int) - (n / 2 : Nat)) = S at *
    have ee : x - (x + M / S) = -(M / S) := by ring
    simp only [ee]
    rcases lt_trichotomy k (n / 2) with hk' | hk' | hk'
    · have := div_pos (m3 (by omega) (by omega)) ms
      refine ⟨⟨fun h => by linarith, fun h => by omega⟩, ⟨fun h => by linarith, fun h => by omega⟩,
        ⟨fun _ => hk', fun _ => by linarith⟩⟩
    · have := m1 (by omega)
      rw [this, zero_div, neg_zero]
      refine ⟨⟨fun _ => hk', fun _ => rfl⟩, ⟨fun h => by linarith, fun h => by omega⟩,
        ⟨fun h => by linarith, fun h => by omega⟩⟩
    · have := div_neg_of_neg_of_pos (m2 (by omega) (by omega)) ms
      refine ⟨⟨fun h => by linarith, fun h => by omega⟩, ⟨fun _ => hk', fun _ => by linarith⟩,
        ⟨fun h => by linarith, fun h => by omega⟩⟩
  have o1 := one h i hh hi pt.1
  have o2 := one w j hw hj pt.2
  simp only [asmError]
  rw [t1, t2, pk1, pk2]
  exact ⟨o1.1, o1.2.1, o1.2.2, o2.1, o2.2.1, o2.2.2⟩

/-- C56 fails for windows whose height leaves the remainder 3 (such as 3, 7, 11, 15, 19): a response
that peaks at the centre of the window asks the landmark to move up. -/
theorem C56_odd_window_violated (h w : Nat) (hh : h % 4 = 3) (c : ℝ) (hc : 0 < c)
    (pt : ℝ × ℝ) (response : List ℝ) (hp : PeaksAt h w response (h / 2) (w / 2)) :
    (asmError h w c pt response).1 < 0 := by
  have ha := argmax_peak hp
  obtain ⟨hi, hj, _, _⟩ := hp
  obtain ⟨t1, t2⟩ := asmTarget_eq hc (by omega) (by omega) pt response (h := h) (w := w)
  have pk1 : (asmPeak h w response).1 = -1 := by
    unfold asmPeak roundHalf
    rw [ha, Nat.mul_comm, Nat.mul_add_div (by omega), Nat.div_eq_of_lt hj]
    rw [if_neg (by omega), if_neg (by omega)]
    push_cast
    omega
  have m3 := (moment_odd hc (h / 2) (-1)).2.2 (by omega) (by omega)
  have e2 : 2 * (h / 2) + 1 = h := by omega
  rw [e2] at m3
  have := div_pos m3 (mass_pos (c := c) (n := h) (by omega) (-1))
  simp only [asmError]
  rw [t1, pk1]
  linarith

/-- C56 fails for even windows: a response that peaks at the pixel of offset zero asks the landmark to
move down, because the window has one row more above that pixel than below. -/
theorem C56_even_window_violated (h w : Nat) (hh : h % 2 = 0) (h2 : 2 ≤ h) (c : ℝ) (hc : 0 < c)
    (pt : ℝ × ℝ) (response : List ℝ) (hp : PeaksAt h w response (h / 2) (w / 2)) :
    0 < (asmError h w c pt response).1 := by
  have ha := argmax_peak hp
  obtain ⟨hi, hj, _, _⟩ := hp
  obtain ⟨t1, t2⟩ := asmTarget_eq hc (by omega) (by omega) pt response (h := h) (w := w)
  have pk1 : (asmPeak h w response).1 = 0 := by
    unfold asmPeak roundHalf
    rw [ha, Nat.mul_comm, Nat.mul_add_div (by omega), Nat.div_eq_of_lt hj]
    rw [if_pos hh]
    simp
  have m3 := moment_even hc (h / 2) (by omega)
  have e2 : 2 * (h / 2) = h := by omega
  rw [e2] at m3
  have := div_neg_of_neg_of_pos m3 (mass_pos (c := c) (n := h) (by omega) 0)
  simp only [asmError]
  rw [t1, pk1]
  linarith

/-- Peaked responses exist for every window. -/
example (h w i j : Nat) (hi : i < h) (hj : j < w) :
    ∃ response, PeaksAt h w response i j := by
  have hk : i * w + j < h * w := by nlinarith
  refine ⟨(List.replicate (h * w) 0).set (i * w + j) 1, hi, hj, by simp, ?_⟩
  intro k v hv hne
  refine ⟨1, by simp [hk], ?_⟩
  rw [List.getElem?_set_ne (by omega)] at hv
  have := List.mem_of_getElem? hv
  rw [(List.mem_replicate.1 this).2]
  norm_num

end Menpofit
