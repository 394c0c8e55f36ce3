import Verif.Model.Clm
import Verif.Spec.Clm
import Verif.Lemmas.Stats
import Mathlib.Analysis.Convex.Combination
import Mathlib.Algebra.BigOperators.Group.List.Lemmas
import Mathlib.Algebra.BigOperators.Field
import Mathlib.Tactic.Linarith
import Mathlib.Tactic.FieldSimp
/-!
# Lemmas about constrained local models
-/

namespace Menpofit
open Base Stats Clm Spec

/-! ### Sums -/

theorem list_sum_pos {l : List ℝ} (h0 : ∀ v ∈ l, 0 ≤ v) {u : ℝ} (hu : u ∈ l) (hp : 0 < u) :
    0 < l.sum := by
  induction l with
  | nil => cases hu
  | cons v l ih =>
    rw [List.sum_cons]
    have hv := h0 v (by simp)
    have hl : 0 ≤ l.sum := List.sum_nonneg (fun x hx => h0 x (by simp [hx]))
    rcases List.mem_cons.1 hu with rfl | hu
    · linarith
    · have := ih (fun x hx => h0 x (by simp [hx])) hu
      linarith

theorem sum_div_list (l : List ℝ) (t : ℝ) : (l.map (· / t)).sum = l.sum / t := by
  induction l with
  | nil => simp
  | cons a l ih => simp [ih, add_div]

/-- A weighted mean of points of a convex set lies in the set. -/
theorem weightedMean_mem {s : Set (ℝ × ℝ)} (hs : Convex ℝ s) (ws : List ℝ) (cs : List (ℝ × ℝ))
    (hl : ws.length = cs.length) (h0 : ∀ v ∈ ws, 0 ≤ v) (ht : 0 < ws.sum) (hc : ∀ c ∈ cs, c ∈ s) :
    weightedMean ws cs ∈ s := by
  have key : ∀ (ws : List ℝ) (cs : List (ℝ × ℝ)), ws.length = cs.length →
      ∃ (z : Fin ws.length → ℝ × ℝ), (∀ i, z i ∈ cs) ∧
        (∑ i : Fin ws.length, ws.get i • z i) =
          ((List.zipWith (fun v c => v * c.1) ws cs).sum,
            (List.zipWith (fun v c => v * c.2) ws cs).sum) := by
    intro ws
    induction ws with
    | nil =>
      intro cs hl
      exact ⟨fun i => i.elim0, fun i => i.elim0, by simp; rfl⟩
    | cons v ws ih =>
      intro cs hl
      cases cs with
      | nil => simp at hl
      | cons c cs =>
        obtain ⟨z, hz, e⟩ := ih cs (by simpa using hl)
        refine ⟨Fin.cases c z, ?_, ?_⟩
        · intro i
          refine Fin.cases ?_ (fun j => ?_) i
          · simp
          · simp [hz j]
        · simp only [List.length_cons] at *
          rw [Fin.sum_univ_succ]
          simp only [Fin.cases_zero, Fin.cases_succ, List.zipWith_cons_cons, List.sum_cons]
          have : ∀ i : Fin ws.length, (v :: ws).get i.succ = ws.get i := fun _ => rfl
          simp only [this, e]
          ext <;> simp
  have hl' : (ws.map (· / ws.sum)).length = cs.length := by simpa using hl
  obtain ⟨z, hz, e⟩ := key (ws.map (· / ws.sum)) cs hl'
  unfold weightedMean
  simp only
  rw [← e]
  apply hs.sum_mem
  · intro i _
    have : (ws.map (· / ws.sum)).get i ∈ ws.map (· / ws.sum) := List.get_mem _ _
    obtain ⟨u, hu, e2⟩ := List.mem_map.1 this
    rw [← e2]
    exact div_nonneg (h0 u hu) ht.le
  · have : ∑ i, (ws.map (· / ws.sum)).get i = (ws.map (· / ws.sum)).sum := by
      rw [← List.sum_ofFn, List.ofFn_get]
    rw [this, sum_div_list, div_self ht.ne']
  · exact fun i _ => hc _ (hz i)

/-! ### The grid -/

theorem offsets_length (h w : Nat) : (offsets h w).length = h * w := by
  unfold offsets buildGrid
  simp only [List.length_flatten, List.map_map]
  have : (List.length ∘ fun y : Int => (intRange (-((w / 2 : Nat) : Int))
      (((w / 2 : Nat) : Int) + ((w % 2 : Nat) : Int))).map fun x => (y, x)) = fun _ => w := by
    funext y
    simp only [Function.comp, List.length_map, intRange, List.length_range]
    omega
  rw [this, List.map_const', List.sum_replicate]
  simp only [intRange, List.length_map, List.length_range, smul_eq_mul]
  congr 1
  omega

/-- A sum over the grid is a double sum over rows and columns. -/
theorem offsets_sum (h w : Nat) (f : Int × Int → ℝ) :
    ((offsets h w).map f).sum =
      ∑ i ∈ Finset.range h, ∑ j ∈ Finset.range w,
        f ((i : Int) - (h / 2 : Nat), (j : Int) - (w / 2 : Nat)) := by
  unfold offsets buildGrid
  simp only [List.map_flatten, List.sum_flatten, List.map_map]
  unfold intRange
  rw [List.map_map, Finset.sum_range]
  have e1 : ((((h / 2 : Nat) : Int) + ((h % 2 : Nat) : Int)) - -((h / 2 : Nat) : Int)).toNat = h := by
    omega
  have e2 : ((((w / 2 : Nat) : Int) + ((w % 2 : Nat) : Int)) - -((w / 2 : Nat) : Int)).toNat = w := by
    omega
  rw [e1, ← Finset.sum_range (fun i => ∑ j ∈ Finset.range w,
    f ((i : Int) - (h / 2 : Nat), (j : Int) - (w / 2 : Nat))), ← List.sum_toFinset _ List.nodup_range,
    List.toFinset_range]
  apply Finset.sum_congr rfl
  intro i _
  simp only [Function.comp, List.map_map, e2]
  rw [← List.sum_toFinset _ List.nodup_range, List.toFinset_range]
  apply Finset.sum_congr rfl
  intro j _
  simp only [Function.comp]
  congr 2 <;> omega

theorem mem_candidates (h w : Nat) (pt c : ℝ × ℝ) (hc : c ∈ candidates h w pt) :
    c ∈ searchWindow h w pt := by
  unfold candidates offsets buildGrid at hc
  simp only [List.mem_map, List.mem_flatten] at hc
  obtain ⟨g, ⟨l, ⟨y, hy, rfl⟩, hg⟩, rfl⟩ := hc
  simp only [List.mem_map] at hg
  obtain ⟨x, hx, rfl⟩ := hg
  simp only [intRange, List.mem_map, List.mem_range] at hy hx
  obtain ⟨i, hi, rfl⟩ := hy
  obtain ⟨j, hj, rfl⟩ := hx
  refine ⟨i, j, by omega, by omega, ?_⟩
  clear hi hj
  generalize (h / 2 : Nat) = a
  generalize (w / 2 : Nat) = b
  push_cast
  ext <;> simp <;> ring

/-- The candidate at row `i` and column `j`. -/
theorem candidates_get (h w : Nat) (pt : ℝ × ℝ) (i j : Nat) (hi : i < h) (hj : j < w) :
    (candidates h w pt)[i * w + j]? =
      some (pt.1 + ((i : ℝ) - (h / 2 : Nat)), pt.2 + ((j : ℝ) - (w / 2 : Nat))) := by
  have key : ∀ (rows : List Int) (cols : List Int), cols.length = w → ∀ (i : Nat) (y x : Int),
      rows[i]? = some y → cols[j]? = some x →
      ((rows.map fun y => cols.map fun x => (y, x)).flatten)[i * w + j]? = some (y, x) := by
    intro rows cols hc
    induction rows with
    | nil => intro i y x hy; simp at hy
    | cons r rows ih =>
      intro i y x hy hx
      rw [List.map_cons, List.flatten_cons]
      cases i with
      | zero =>
        simp only [List.getElem?_cons_zero, Option.some.injEq] at hy
        subst hy
        rw [Nat.zero_mul, Nat.zero_add, List.getElem?_append_left (by simp [hc, hj]),
          List.getElem?_map, hx]
        rfl
      | succ i =>
        rw [List.getElem?_append_right (by simp [hc]; nlinarith)]
        have : (i + 1) * w + j - (cols.map fun x => (r, x)).length = i * w + j := by
          simp only [List.length_map, hc]
          rw [Nat.succ_mul]; omega
        rw [this]
        exact ih i y x (by simpa using hy) hx
  unfold candidates offsets buildGrid
  rw [List.getElem?_map]
  simp only
  rw [key _ _ (by simp only [intRange, List.length_map, List.length_range]; omega) i
    (-((h / 2 : Nat) : Int) + i) (-((w / 2 : Nat) : Int) + j)
    (by simp only [intRange, List.getElem?_map]; rw [List.getElem?_range (by omega)]; rfl)
    (by simp only [intRange, List.getElem?_map]; rw [List.getElem?_range (by omega)]; rfl)]
  simp only [Option.map_some, Option.some.injEq]
  generalize (h / 2 : Nat) = a
  generalize (w / 2 : Nat) = b
  push_cast
  ext <;> simp <;> ring

theorem gauss_pos {c : ℝ} (hc : 0 < c) (v : ℝ × ℝ) : 0 < gauss c v := by
  unfold gauss
  have := Real.pi_pos
  positivity

/-! ### Argmax -/

theorem argmax_peak {h w : Nat} {r : List ℝ} {i j : Nat} (hp : PeaksAt h w r i j) :
    argmax r = i * w + j := by
  obtain ⟨hi, hj, hl, hm⟩ := hp
  have hlt : i * w + j < r.length := by rw [hl]; nlinarith
  have hne : r ≠ [] := by intro e; simp [e] at hlt
  obtain ⟨k, hk, ek⟩ := List.mem_iff_getElem.1 (npMax_mem hne)
  have hki : k = i * w + j := by
    by_contra hne'
    obtain ⟨u, hu, hlu⟩ := hm k _ (List.getElem?_eq_getElem hk) hne'
    have : u ∈ r := List.mem_of_getElem? hu
    have := npMax_ge this
    rw [ek] at hlu
    linarith
  unfold argmax
  rw [List.findIdx_eq hlt]
  subst hki
  refine ⟨by simp [ek], ?_⟩
  intro b hb
  simp only [decide_eq_false_iff_not]
  intro hbm
  obtain ⟨u, hu, hlu⟩ := hm b _ (List.getElem?_eq_getElem (by omega)) (by omega)
  rw [List.getElem?_eq_getElem hlt] at hu
  injection hu with hu
  rw [ek] at hu
  rw [hbm, ← hu] at hlu
  exact lt_irrefl _ hlu

/-! ### The Gaussian in a window -/

/-- First moment of a Gaussian bump at `-m` over the offsets of a window of `n` pixels. -/
noncomputable def moment (c : ℝ) (n : Nat) (m : Int) : ℝ :=
  ∑ i ∈ Finset.range n, (((i : Int) - (n / 2 : Nat) : Int) : ℝ) *
    Real.exp (-((m + ((i : Int) - (n / 2 : Nat)) : Int) : ℝ) ^ 2 / (2 * c))

/-- Mass of a Gaussian bump at `-m` over the offsets of a window of `n` pixels. -/
noncomputable def mass (c : ℝ) (n : Nat) (m : Int) : ℝ :=
  ∑ i ∈ Finset.range n, Real.exp (-((m + ((i : Int) - (n / 2 : Nat)) : Int) : ℝ) ^ 2 / (2 * c))

theorem mass_pos {c : ℝ} {n : Nat} (hn : 0 < n) (m : Int) : 0 < mass c n m := by
  unfold mass
  exact Finset.sum_pos (fun _ _ => Real.exp_pos _) ⟨0, by simp [hn]⟩

/-- The offset of the target is a quotient of moment and mass along each axis. -/
theorem asmTarget_eq {h w : Nat} {c : ℝ} (hc : 0 < c) (hh : 0 < h) (hw : 0 < w) (pt : ℝ × ℝ)
    (r : List ℝ) :
    (asmTarget h w c pt r).1 = pt.1 + moment c h (asmPeak h w r).1 / mass c h (asmPeak h w r).1 ∧
    (asmTarget h w c pt r).2 = pt.2 + moment c w (asmPeak h w r).2 / mass c w (asmPeak h w r).2 := by
  obtain ⟨m, hm⟩ : ∃ m, m = asmPeak h w r := ⟨_, rfl⟩
  have hpi := Real.pi_pos
  have zip : ∀ (l : List (Int × Int)) (a : Int × Int → ℝ) (T : ℝ) (b : Int × Int → ℝ × ℝ)
      (pr : ℝ × ℝ → ℝ), (List.zipWith (fun v c => v * pr c) ((l.map a).map (· / T)) (l.map b)).sum =
        (l.map fun g => a g / T * pr (b g)).sum := by
    intro l a T b pr
    induction l with
    | nil => rfl
    | cons g l ih => simp [ih]
  have fac : ∀ i j : Nat, gauss c
      (((m.1 + ((i : Int) - (h / 2 : Nat)) : Int) : ℝ), ((m.2 + ((j : Int) - (w / 2 : Nat)) : Int) : ℝ)) =
      Real.exp (-((m.1 + ((i : Int) - (h / 2 : Nat)) : Int) : ℝ) ^ 2 / (2 * c)) *
      Real.exp (-((m.2 + ((j : Int) - (w / 2 : Nat)) : Int) : ℝ) ^ 2 / (2 * c)) /
        (2 * Real.pi * c) := by
    intro i j
    unfold gauss
    rw [← Real.exp_add]
    congr 2
    ring
  have tot : ((offsets h w).map fun g =>
      gauss c (((m.1 + g.1 : Int) : ℝ), ((m.2 + g.2 : Int) : ℝ))).sum =
      mass c h m.1 * mass c w m.2 / (2 * Real.pi * c) := by
    rw [offsets_sum]
    unfold mass
    rw [Finset.sum_mul_sum, Finset.sum_div]
    apply Finset.sum_congr rfl
    intro i _
    rw [Finset.sum_div]
    exact Finset.sum_congr rfl (fun j _ => fac i j)
  have m1 := mass_pos (c := c) hh m.1
  have m2 := mass_pos (c := c) hw m.2
  have hT : mass c h m.1 * mass c w m.2 / (2 * Real.pi * c) ≠ 0 := by positivity
  unfold asmTarget weightedMean candidates
  simp only [← hm]
  rw [zip, zip, tot]
  constructor
  · rw [offsets_sum]
    have : ∀ i ∈ Finset.range h, ∑ j ∈ Finset.range w,
        gauss c (((m.1 + ((i : Int) - (h / 2 : Nat)) : Int) : ℝ),
          ((m.2 + ((j : Int) - (w / 2 : Nat)) : Int) : ℝ)) /
          (mass c h m.1 * mass c w m.2 / (2 * Real.pi * c)) *
          (pt.1 + (((i : Int) - (h / 2 : Nat) : Int) : ℝ)) =
        (pt.1 * Real.exp (-((m.1 + ((i : Int) - (h / 2 : Nat)) : Int) : ℝ) ^ 2 / (2 * c)) +
          (((i : Int) - (h / 2 : Nat) : Int) : ℝ) *
          Real.exp (-((m.1 + ((i : Int) - (h / 2 : Nat)) : Int) : ℝ) ^ 2 / (2 * c))) *
          mass c w m.2 / (mass c h m.1 * mass c w m.2) := by
      intro i _
      have hD : mass c h m.1 * mass c w m.2 ≠ 0 := by positivity
      generalize mass c h m.1 * mass c w m.2 = D at hD
      unfold mass
      rw [Finset.mul_sum, Finset.sum_div]
      apply Finset.sum_congr rfl
      intro j _
      rw [fac i j]
      field_simp
    rw [Finset.sum_congr rfl this, ← Finset.sum_div, ← Finset.sum_mul, Finset.sum_add_distrib,
      ← Finset.mul_sum]
    change (pt.1 * mass c h m.1 + moment c h m.1) * mass c w m.2 / _ = _
    field_simp
  · rw [offsets_sum]
    have : ∀ i ∈ Finset.range h, ∑ j ∈ Finset.range w,
        gauss c (((m.1 + ((i : Int) - (h / 2 : Nat)) : Int) : ℝ),
          ((m.2 + ((j : Int) - (w / 2 : Nat)) : Int) : ℝ)) /
          (mass c h m.1 * mass c w m.2 / (2 * Real.pi * c)) *
          (pt.2 + (((j : Int) - (w / 2 : Nat) : Int) : ℝ)) =
        Real.exp (-((m.1 + ((i : Int) - (h / 2 : Nat)) : Int) : ℝ) ^ 2 / (2 * c)) *
        ((pt.2 * mass c w m.2 + moment c w m.2) / (mass c h m.1 * mass c w m.2)) := by
      intro i _
      have e : pt.2 * mass c w m.2 + moment c w m.2 = ∑ j ∈ Finset.range w,
          (pt.2 + (((j : Int) - (w / 2 : Nat) : Int) : ℝ)) *
          Real.exp (-((m.2 + ((j : Int) - (w / 2 : Nat)) : Int) : ℝ) ^ 2 / (2 * c)) := by
        unfold mass moment
        rw [Finset.mul_sum, ← Finset.sum_add_distrib]
        exact Finset.sum_congr rfl (fun j _ => by ring)
      rw [e, Finset.sum_div, Finset.mul_sum]
      apply Finset.sum_congr rfl
      intro j _
      rw [fac i j]
      field_simp
    rw [Finset.sum_congr rfl this, ← Finset.sum_mul]
    change mass c h m.1 * _ = _
    field_simp

/-- In an odd window the moment has the sign opposite to `m`. -/
theorem moment_odd {c : ℝ} (hc : 0 < c) (q : Nat) (m : Int) :
    (m = 0 → moment c (2 * q + 1) m = 0) ∧ (0 < q → 0 < m → moment c (2 * q + 1) m < 0) ∧
    (0 < q → m < 0 → 0 < moment c (2 * q + 1) m) := by
  obtain ⟨A, hA⟩ : ∃ A : Int → ℝ, A = fun t => Real.exp (-((m + t : Int) : ℝ) ^ 2 / (2 * c)) :=
    ⟨_, rfl⟩
  have hq : (2 * q + 1) / 2 = q := by omega
  have e1 : moment c (2 * q + 1) m =
      ∑ i ∈ Finset.range (2 * q + 1), (((i : Int) - q : Int) : ℝ) * A ((i : Int) - q) := by
    unfold moment
    rw [hq, hA]
  have e2 : moment c (2 * q + 1) m =
      ∑ i ∈ Finset.range (2 * q + 1), -((((i : Int) - q : Int) : ℝ) * A (-((i : Int) - q))) := by
    rw [e1, ← Finset.sum_range_reflect]
    apply Finset.sum_congr rfl
    intro i hi
    have hi := Finset.mem_range.1 hi
    have : ((2 * q + 1 - 1 - i : Nat) : Int) - q = -((i : Int) - q) := by omega
    rw [this]
    push_cast
    ring
  have e3 : 2 * moment c (2 * q + 1) m = ∑ i ∈ Finset.range (2 * q + 1),
      (((i : Int) - q : Int) : ℝ) * (A ((i : Int) - q) - A (-((i : Int) - q))) := by
    rw [two_mul]
    nth_rw 1 [e1]
    rw [e2, ← Finset.sum_add_distrib]
    exact Finset.sum_congr rfl (fun i _ => by ring)
  have cmp : ∀ s t : Int, (m + s) ^ 2 < (m + t) ^ 2 → A t < A s := by
    intro s t h
    rw [hA]
    simp only
    apply Real.exp_lt_exp.2
    have h' : ((m + s : Int) : ℝ) ^ 2 < ((m + t : Int) : ℝ) ^ 2 := by exact_mod_cast h
    apply (div_lt_div_iff_of_pos_right (by linarith)).2
    linarith
  refine ⟨?_, ?_, ?_⟩
  · intro h0
    have : ∀ t, A t = A (-t) := by
      intro t; rw [hA, h0]; simp
    have z : 2 * moment c (2 * q + 1) m = 0 := by
      rw [e3]
      apply Finset.sum_eq_zero
      intro i _
      rw [this ((i : Int) - q)]
      ring
    linarith
  · intro hq0 hm
    have : 2 * moment c (2 * q + 1) m < 0 := by
      rw [e3]
      have term : ∀ t : Int, (t : ℝ) * (A t - A (-t)) ≤ 0 ∧
          (t ≠ 0 → (t : ℝ) * (A t - A (-t)) < 0) := by
        intro t
        rcases lt_trichotomy t 0 with ht | ht | ht
        · have := cmp t (-t) (by nlinarith)
          have ht' : (t : ℝ) < 0 := by exact_mod_cast ht
          have := mul_neg_of_neg_of_pos ht' (sub_pos.2 this)
          exact ⟨this.le, fun _ => this⟩
        · subst ht; simp
        · have := cmp (-t) t (by nlinarith)
          have ht' : (0 : ℝ) < t := by exact_mod_cast ht
          have := mul_neg_of_pos_of_neg ht' (sub_neg.2 this)
          exact ⟨this.le, fun _ => this⟩
      exact Finset.sum_neg' (fun i _ => (term _).1) ⟨0, by simp, (term _).2 (by omega)⟩
    linarith
  · intro hq0 hm
    have : 0 < 2 * moment c (2 * q + 1) m := by
      rw [e3]
      have term : ∀ t : Int, 0 ≤ (t : ℝ) * (A t - A (-t)) ∧
          (t ≠ 0 → 0 < (t : ℝ) * (A t - A (-t))) := by
        intro t
        rcases lt_trichotomy t 0 with ht | ht | ht
        · have := cmp (-t) t (by nlinarith)
          have ht' : (t : ℝ) < 0 := by exact_mod_cast ht
          have := mul_pos_of_neg_of_neg ht' (sub_neg.2 this)
          exact ⟨this.le, fun _ => this⟩
        · subst ht; simp
        · have := cmp t (-t) (by nlinarith)
          have ht' : (0 : ℝ) < t := by exact_mod_cast ht
          have := mul_pos ht' (sub_pos.2 this)
          exact ⟨this.le, fun _ => this⟩
      exact Finset.sum_pos' (fun i _ => (term _).1) ⟨0, by simp, (term _).2 (by omega)⟩
    linarith

/-- In an even window a bump at the centre has a negative moment: one row more lies before the
centre than after it. -/
theorem moment_even {c : ℝ} (hc : 0 < c) (q : Nat) (hq : 0 < q) : moment c (2 * q) 0 < 0 := by
  have h1 : 2 * q = (2 * (q - 1) + 1) + 1 := by omega
  have hz := (moment_odd hc (q - 1) 0).1 rfl
  unfold moment at hz ⊢
  have e2 : (2 * (q - 1) + 1) / 2 = q - 1 := by omega
  have e1 : 2 * q / 2 = q := by omega
  rw [e2] at hz
  rw [e1]
  nth_rw 1 [h1]
  rw [Finset.sum_range_succ']
  have : ∀ i ∈ Finset.range (2 * (q - 1) + 1),
      (((((i + 1 : Nat) : Int) - (q : Nat) : Int) : ℝ) *
        Real.exp (-((0 + (((i + 1 : Nat) : Int) - (q : Nat)) : Int) : ℝ) ^ 2 / (2 * c))) =
      (((i : Int) - (q - 1 : Nat) : Int) : ℝ) *
        Real.exp (-((0 + ((i : Int) - (q - 1 : Nat)) : Int) : ℝ) ^ 2 / (2 * c)) := by
    intro i _
    have : ((i + 1 : Nat) : Int) - (q : Nat) = (i : Int) - (q - 1 : Nat) := by omega
    rw [this]
  rw [Finset.sum_congr rfl this, hz, zero_add]
  apply mul_neg_of_neg_of_pos
  · have : ((0 : Nat) : Int) - (q : Nat) < 0 := by omega
    exact_mod_cast this
  · exact Real.exp_pos _

end Menpofit
