import Verif.Spec.Transpose
import Verif.Spec.Clm
import Verif.Lemmas.Clm
/-!
# Lemmas: response maps with rows and columns exchanged
-/

namespace Menpofit
namespace Cross
open Spec Clm Base Stats

/-- A map given by a function of row and column. -/
def grid {α : Type} (h w : Nat) (f : Nat → Nat → α) : List α :=
  (List.range h).flatMap fun y => (List.range w).map (f y)

theorem grid_map {α β : Type} (h w : Nat) (f : Nat → Nat → α) (g : α → β) :
    (grid h w f).map g = grid h w fun y x => g (f y x) := by
  unfold grid
  rw [List.map_flatMap]
  simp only [List.map_map]
  rfl

theorem grid_length {α : Type} (h w : Nat) (f : Nat → Nat → α) : (grid h w f).length = h * w := by
  unfold grid
  simp [List.length_flatMap]

theorem grid_succ {α : Type} (h w : Nat) (f : Nat → Nat → α) :
    grid (h + 1) w f = (List.range w).map (f 0) ++ grid h w fun y => f (y + 1) := by
  unfold grid
  rw [List.range_succ_eq_map, List.flatMap_cons, List.flatMap_map]

theorem grid_zip {α β γ : Type} (g : α → β → γ) (h w : Nat) (f : Nat → Nat → α) (f' : Nat → Nat → β) :
    List.zipWith g (grid h w f) (grid h w f') = grid h w fun y x => g (f y x) (f' y x) := by
  induction h generalizing f f' with
  | zero => rfl
  | succ h ih =>
    rw [grid_succ, grid_succ, grid_succ, List.zipWith_append (by simp), ih]
    congr 1
    rw [List.zipWith_map, List.zipWith_self]

theorem grid_perm {α : Type} (h w : Nat) (f : Nat → Nat → α) : (grid h w f).Perm (grid w h fun x y => f y x) := by
  unfold grid
  rw [← Multiset.coe_eq_coe, ← Multiset.coe_bind, ← Multiset.coe_bind]
  simp only [← Multiset.map_coe]
  exact Multiset.bind_map_comm _ _

theorem grid_get {α : Type} (h w : Nat) (f : Nat → Nat → α) (y x : Nat) (hy : y < h) (hx : x < w) :
    (grid h w f)[y * w + x]? = some (f y x) := by
  induction h generalizing f y with
  | zero => omega
  | succ h ih =>
    rw [grid_succ]
    cases y with
    | zero => rw [Nat.zero_mul, Nat.zero_add, List.getElem?_append_left (by simpa using hx)]; simp [hx]
    | succ y =>
      rw [Nat.succ_mul, List.getElem?_append_right (by simp; omega)]
      have e : y * w + w + x - ((List.range w).map (f 0)).length = y * w + x := by simp; omega
      rw [e, ih (fun y => f (y + 1)) y (by omega)]

theorem as_grid {h w : Nat} (l : List ℝ) (hl : l.length = h * w) : l = grid h w fun y x => l.getD (y * w + x) 0 := by
  apply List.ext_getElem?
  intro i
  by_cases hi : i < h * w
  · have hw : 0 < w := Nat.pos_of_ne_zero fun e => by simp [e] at hi
    have hy : i / w < h := Nat.div_lt_of_lt_mul (by rw [Nat.mul_comm]; exact hi)
    have hx : i % w < w := Nat.mod_lt _ hw
    have e : i / w * w + i % w = i := Nat.div_add_mod' i w
    have := grid_get h w (fun y x => l.getD (y * w + x) 0) (i / w) (i % w) hy hx
    rw [e] at this
    rw [this, List.getElem?_eq_getElem (by omega), List.getD_eq_getElem]
  · rw [List.getElem?_eq_none (by omega), List.getElem?_eq_none (by rw [grid_length]; omega)]

theorem map_eq (h w : Nat) (l : List ℝ) : transposedMap h w l = grid w h fun x y => l.getD (y * w + x) 0 := rfl

theorem map_length (h w : Nat) (l : List ℝ) : (transposedMap h w l).length = w * h := grid_length _ _ _

theorem map_perm {h w : Nat} (l : List ℝ) (hl : l.length = h * w) : (transposedMap h w l).Perm l := by
  conv_rhs => rw [as_grid l hl]
  exact grid_perm w h fun x y => l.getD (y * w + x) 0

theorem map_map {h w : Nat} (l : List ℝ) (hl : l.length = h * w) (g : ℝ → ℝ) :
    transposedMap h w (l.map g) = (transposedMap h w l).map g := by
  obtain ⟨f, rfl⟩ : ∃ f, l = grid h w f := ⟨_, as_grid l hl⟩
  have key : ∀ f : Nat → Nat → ℝ, transposedMap h w (grid h w f) = grid w h fun x y => f y x := by
    intro f
    unfold transposedMap grid
    rw [List.flatMap_def, List.flatMap_def (l := List.range w)]
    congr 1
    refine List.map_congr_left fun x hx => List.map_congr_left fun y hy => ?_
    have := grid_get h w f y x (List.mem_range.1 hy) (List.mem_range.1 hx)
    unfold grid at this
    rw [List.getD_eq_getElem?_getD, this]
    rfl
  rw [grid_map, key, key, grid_map]

theorem map_grid {h w : Nat} (f : Nat → Nat → ℝ) : transposedMap h w (grid h w f) = grid w h fun x y => f y x := by
  unfold transposedMap grid
  rw [List.flatMap_def, List.flatMap_def (l := List.range w)]
  congr 1
  refine List.map_congr_left fun x hx => List.map_congr_left fun y hy => ?_
  have := grid_get h w f y x (List.mem_range.1 hy) (List.mem_range.1 hx)
  unfold grid at this
  rw [List.getD_eq_getElem?_getD, this]
  rfl

theorem npMin_perm {l l' : List ℝ} (h : l.Perm l') : npMin l = npMin l' := by
  by_cases hl : l = []
  · subst hl
    rw [List.nil_perm.1 h]
  · refine npMin_unique ?_ fun x hx => ?_
    · have hl' : l' ≠ [] := fun e => hl (by rw [e] at h; exact List.perm_nil.1 h)
      exact h.mem_iff.2 (npMin_mem hl')
    · exact npMin_le (h.mem_iff.1 hx)

/-! ### Probability maps -/

theorem normal_map {h w : Nat} (l : List ℝ) (hl : l.length = h * w) :
    (transposedMap h w l).map (· - npMin (transposedMap h w l)) = transposedMap h w (l.map (· - npMin l)) := by
  rw [map_map l hl, npMin_perm (map_perm l hl)]

theorem probabilityMap_map {h w : Nat} (maps : List (List ℝ)) (hl : ∀ l ∈ maps, l.length = h * w) :
    probabilityMap w h (maps.map (transposedMap h w)) =
      (probabilityMap h w maps).map fun r => r.map (transposedMap h w) := by
  unfold probabilityMap
  rw [List.length_map, Nat.mul_comm w h]
  have e1 : (maps.map (transposedMap h w)).map (fun m => m.map (· - npMin m)) =
      (maps.map fun m => m.map (· - npMin m)).map (transposedMap h w) := by
    rw [List.map_map, List.map_map]
    exact List.map_congr_left fun l h => normal_map l (hl l h)
  have hl' : ∀ l ∈ maps.map (fun m : List ℝ => m.map (· - npMin m)), l.length = h * w := by
    intro l hm
    obtain ⟨l', h', rfl⟩ := List.mem_map.1 hm
    rw [List.length_map]
    exact hl l' h'
  simp only [e1]
  generalize maps.map (fun m : List ℝ => m.map (· - npMin m)) = x at hl' ⊢
  have es : ∀ l ∈ x, (transposedMap h w l).sum = l.sum := fun l h => (map_perm l (hl' l h)).sum_eq
  have ea : (x.map (transposedMap h w)).all (fun m => decide (0 < m.sum)) = x.all fun m => decide (0 < m.sum) := by
    rw [List.all_map, Bool.eq_iff_iff, List.all_eq_true, List.all_eq_true]
    refine ⟨fun H l hm => ?_, fun H l hm => ?_⟩
    · have := H l hm
      simp only [Function.comp, es l hm] at this
      exact this
    · have := H l hm
      simp only [Function.comp, es l hm]
      exact this
  rw [ea, if_congr (and_comm (a := w = 1)) rfl rfl]
  split_ifs
  · rfl
  · simp only [Except.map, List.map_map]
    congr 1
    refine List.map_congr_left fun l hm => ?_
    simp only [Function.comp]
    rw [map_map l (hl' l hm), es l hm]
  · simp only [Except.map, List.map_map]
    congr 1
    refine List.map_congr_left fun l hm => ?_
    simp only [Function.comp]
    rw [es l hm]
    split_ifs
    · rw [map_map l (hl' l hm)]
    · rw [map_map l (hl' l hm)]
  · rfl

theorem probabilityMap_length {h w : Nat} {maps r : List (List ℝ)} (hl : ∀ l ∈ maps, l.length = h * w)
    (hr : probabilityMap h w maps = .ok r) : ∀ l ∈ r, l.length = h * w := by
  unfold probabilityMap at hr
  dsimp only at hr
  split_ifs at hr
  · cases hr
    intro l hm
    simp only [List.map_map, List.mem_map, Function.comp] at hm
    obtain ⟨l', h', rfl⟩ := hm
    simp only [List.length_map]
    exact hl l' h'
  · cases hr
    intro l hm
    simp only [List.map_map, List.mem_map, Function.comp] at hm
    obtain ⟨l', h', rfl⟩ := hm
    split_ifs <;> · simp only [List.length_map]; exact hl l' h'

theorem probabilityMap_count {h w : Nat} {maps r : List (List ℝ)} (hr : probabilityMap h w maps = .ok r) :
    r.length = maps.length := by
  unfold probabilityMap at hr
  dsimp only at hr
  split_ifs at hr <;> cases hr <;> simp

/-! ### The target of a landmark -/

/-- The offsets along one axis. -/
def off (n i : Nat) : Int := -((n / 2 : Nat) : Int) + i

theorem offsets_grid (h w : Nat) : offsets h w = grid h w fun y x => (off h y, off w x) := by
  unfold offsets buildGrid grid intRange off
  have e : ∀ n : Nat, (((n / 2 : Nat) : Int) + ((n % 2 : Nat) : Int) - -((n / 2 : Nat) : Int)).toNat = n := by
    intro n; omega
  simp only [e, List.map_map, List.flatMap_def]
  rfl

theorem mean_grid (h w : Nat) (f : Nat → Nat → ℝ) (p : ℝ × ℝ) :
    weightedMean (grid w h fun x y => f y x) (candidates w h p.swap) =
      (weightedMean (grid h w f) (candidates h w p)).swap := by
  unfold weightedMean candidates
  rw [offsets_grid, offsets_grid]
  simp only [grid_map, grid_zip, (grid_perm h w f).sum_eq.symm, Prod.swap, Prod.mk.injEq]
  exact ⟨((grid_perm h w _).sum_eq.symm : _), ((grid_perm h w _).sum_eq.symm : _)⟩

theorem gauss_swap (c : ℝ) (a b : ℝ) : gauss c (a, b) = gauss c (b, a) := by
  unfold gauss
  simp only
  rw [add_comm (a ^ 2)]

theorem rlms {h w : Nat} (c : ℝ) (p : ℝ × ℝ) (l : List ℝ) (hl : l.length = h * w) :
    rlmsError w h c p.swap (transposedMap h w l) = (rlmsError h w c p l).swap := by
  have e : rlmsTarget w h c p.swap (transposedMap h w l) = (rlmsTarget h w c p l).swap := by
    obtain ⟨f, rfl⟩ : ∃ f, l = grid h w f := ⟨_, as_grid l hl⟩
    unfold rlmsTarget
    simp only [map_grid, offsets_grid, grid_map, grid_zip]
    rw [← mean_grid]
    congr 2
    funext x y
    rw [gauss_swap]
  unfold rlmsError
  simp only [e]
  rfl

theorem peaks {h w : Nat} {l : List ℝ} {y x : Nat} (hp : PeaksAt h w l y x) :
    PeaksAt w h (transposedMap h w l) x y := by
  obtain ⟨hy, hx, hl, hm⟩ := hp
  obtain ⟨f, rfl⟩ : ∃ f, l = grid h w f := ⟨_, as_grid l hl⟩
  refine ⟨hx, hy, map_length _ _ _, fun k v hk hne => ?_⟩
  rw [map_grid] at hk ⊢
  rw [grid_get w h _ x y hx hy]
  have hkl : k < w * h := by
    by_contra hh
    rw [List.getElem?_eq_none (by rw [grid_length]; omega)] at hk
    cases hk
  have hh : 0 < h := by omega
  have hkx : k / h < w := Nat.div_lt_of_lt_mul (by rw [Nat.mul_comm]; exact hkl)
  have hky : k % h < h := Nat.mod_lt _ hh
  have ek : k / h * h + k % h = k := Nat.div_add_mod' k h
  rw [← ek, grid_get w h _ _ _ hkx hky] at hk
  obtain ⟨u, hu, hlt⟩ := hm (k % h * w + k / h) v (by rw [grid_get h w _ _ _ hky hkx]; exact hk) fun e => hne (by
    have h1 : k / h = x := by
      have := congrArg (· % w) e
      simpa [Nat.add_mod, Nat.mod_eq_of_lt hkx, Nat.mod_eq_of_lt hx] using this
    have h2 : k % h = y := by
      rw [h1] at e
      exact Nat.eq_of_mul_eq_mul_right (by omega : 0 < w) (by omega)
    rw [← ek, h1, h2])
  rw [grid_get h w _ _ _ hy hx] at hu
  exact ⟨u, hu, hlt⟩

theorem asm {h w : Nat} (c : ℝ) (p : ℝ × ℝ) (l : List ℝ) {y x : Nat} (hp : PeaksAt h w l y x) :
    asmError w h c p.swap (transposedMap h w l) = (asmError h w c p l).swap := by
  have hpk : asmPeak w h (transposedMap h w l) = (asmPeak h w l).swap := by
    have hx := hp.2.1
    have hy := hp.1
    have d : ∀ {a b n : Nat}, b < n → (a * n + b) / n = a := by
      intro a b n hb
      rw [Nat.add_comm, Nat.add_mul_div_right _ _ (by omega), Nat.div_eq_of_lt hb, Nat.zero_add]
    have m : ∀ {a b n : Nat}, b < n → (a * n + b) % n = b := by
      intro a b n hb
      rw [Nat.add_comm, Nat.add_mul_mod_self_right, Nat.mod_eq_of_lt hb]
    unfold asmPeak
    rw [argmax_peak hp, argmax_peak (peaks hp), d hx, m hx, d hy, m hy]
    rfl
  have e : asmTarget w h c p.swap (transposedMap h w l) = (asmTarget h w c p l).swap := by
    unfold asmTarget
    simp only [hpk, offsets_grid, grid_map]
    rw [← mean_grid]
    congr 2
    funext x y
    rw [gauss_swap]
    rfl
  unfold asmError
  simp only [e]
  rfl

/-- A map with one peak keeps it. -/
theorem peaks_map {h w : Nat} {l : List ℝ} {y x : Nat} (hp : PeaksAt h w l y x) (g : ℝ → ℝ)
    (hg : ∀ a ∈ l, ∀ b ∈ l, a < b → g a < g b) : PeaksAt h w (l.map g) y x := by
  obtain ⟨hy, hx, hl, hm⟩ := hp
  refine ⟨hy, hx, by rw [List.length_map]; exact hl, fun k v hk hne => ?_⟩
  rw [List.getElem?_map] at hk ⊢
  cases hk' : l[k]? with
  | none => rw [hk'] at hk; cases hk
  | some v' =>
    rw [hk'] at hk
    obtain ⟨u, hu, hlt⟩ := hm k v' hk' hne
    rw [hu]
    cases hk
    exact ⟨g u, rfl, hg _ (List.mem_of_getElem? hk') _ (List.mem_of_getElem? hu) hlt⟩

theorem probabilityMap_peaks {h w : Nat} {maps r : List (List ℝ)} (hp : ∀ l ∈ maps, ∃ y x, PeaksAt h w l y x)
    (hr : probabilityMap h w maps = .ok r) : ∀ l ∈ r, ∃ y x, PeaksAt h w l y x := by
  unfold probabilityMap at hr
  dsimp only at hr
  split_ifs at hr with h1 h2 h3
  · cases hr
    intro l hm
    obtain ⟨l', h', rfl⟩ := List.mem_map.1 hm
    have hs : 0 < l'.sum := by
      have := List.all_eq_true.1 h2 l' h'
      simpa using this
    obtain ⟨l'', h'', rfl⟩ := List.mem_map.1 h'
    obtain ⟨y, x, hyx⟩ := hp l'' h''
    refine ⟨y, x, peaks_map (peaks_map hyx _ fun a _ b _ hab => sub_lt_sub_right hab _) _ fun a _ b _ hab => ?_⟩
    exact div_lt_div_of_pos_right hab hs
  · cases hr
    obtain ⟨rfl, rfl⟩ := h3
    intro l hm
    obtain ⟨l', h', rfl⟩ := List.mem_map.1 hm
    obtain ⟨l'', h'', rfl⟩ := List.mem_map.1 h'
    obtain ⟨y, x, hyx⟩ := hp l'' h''
    have hl := hyx.2.2.1
    refine ⟨0, 0, by omega, by omega, by split_ifs <;> simpa using hl, fun k v hk hne => ?_⟩
    have : k < 1 := by
      by_contra hh
      rw [List.getElem?_eq_none (by split_ifs <;> simp [hl] <;> omega)] at hk
      cases hk
    omega

end Cross
end Menpofit
