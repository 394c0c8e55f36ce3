import Verif.Spec.Mirror
import Verif.Lemmas.TransposeMaps
import Verif.Spec.Clm
import Verif.Lemmas.Clm
/-!
# Lemmas: response maps with left and right reflected
-/

namespace Menpofit
namespace Mirror
open Spec Clm Base Stats Cross

/-- Every row reversed. -/
theorem range_reverse (w : Nat) : (List.range w).map (fun x => w - 1 - x) = (List.range w).reverse := by
  apply List.ext_getElem
  · simp
  · intro i h1 h2
    simp

theorem row_perm {α : Type} (w : Nat) (f : Nat → α) :
    ((List.range w).map fun x => f (w - 1 - x)).Perm ((List.range w).map f) := by
  have : ((List.range w).map fun x => f (w - 1 - x)) = ((List.range w).map fun x => w - 1 - x).map f := by
    rw [List.map_map]; rfl
  rw [this, range_reverse]
  exact (List.reverse_perm _).map f

theorem flip_perm {α : Type} (h w : Nat) (f : Nat → Nat → α) :
    (grid h w fun y x => f y (w - 1 - x)).Perm (grid h w f) := by
  unfold grid
  exact List.Perm.flatMap_left _ fun y _ => row_perm w (f y)

theorem map_eq (h w : Nat) (l : List ℝ) : reflectedMap h w l = grid h w fun y x => l.getD (y * w + (w - 1 - x)) 0 := rfl

theorem map_length (h w : Nat) (l : List ℝ) : (reflectedMap h w l).length = h * w := grid_length _ _ _

theorem map_grid {h w : Nat} (f : Nat → Nat → ℝ) : reflectedMap h w (grid h w f) = grid h w fun y x => f y (w - 1 - x) := by
  unfold reflectedMap
  rw [List.flatMap_def]
  unfold grid
  rw [List.flatMap_def (l := List.range h) (f := fun y => (List.range w).map fun x => f y (w - 1 - x))]
  congr 1
  refine List.map_congr_left fun y hy => List.map_congr_left fun x hx => ?_
  have hx' := List.mem_range.1 hx
  have := grid_get h w f y (w - 1 - x) (List.mem_range.1 hy) (by omega)
  unfold grid at this
  rw [List.getD_eq_getElem?_getD, this]
  rfl

theorem map_perm {h w : Nat} (l : List ℝ) (hl : l.length = h * w) : (reflectedMap h w l).Perm l := by
  conv_rhs => rw [as_grid l hl]
  exact flip_perm h w fun y x => l.getD (y * w + x) 0

theorem map_map {h w : Nat} (l : List ℝ) (hl : l.length = h * w) (g : ℝ → ℝ) :
    reflectedMap h w (l.map g) = (reflectedMap h w l).map g := by
  obtain ⟨f, rfl⟩ : ∃ f, l = grid h w f := ⟨_, as_grid l hl⟩
  rw [grid_map, map_grid, map_grid, grid_map]

/-! ### Probability maps -/

theorem normal_map {h w : Nat} (l : List ℝ) (hl : l.length = h * w) :
    (reflectedMap h w l).map (· - npMin (reflectedMap h w l)) = reflectedMap h w (l.map (· - npMin l)) := by
  rw [map_map l hl, npMin_perm (map_perm l hl)]

theorem probabilityMap_map {h w : Nat} (maps : List (List ℝ)) (hl : ∀ l ∈ maps, l.length = h * w) :
    probabilityMap h w (maps.map (reflectedMap h w)) =
      (probabilityMap h w maps).map fun r => r.map (reflectedMap h w) := by
  unfold probabilityMap
  rw [List.length_map]
  have e1 : (maps.map (reflectedMap h w)).map (fun m => m.map (· - npMin m)) =
      (maps.map fun m => m.map (· - npMin m)).map (reflectedMap h w) := by
    rw [List.map_map, List.map_map]
    exact List.map_congr_left fun l h => normal_map l (hl l h)
  have hl' : ∀ l ∈ maps.map (fun m : List ℝ => m.map (· - npMin m)), l.length = h * w := by
    intro l hm
    obtain ⟨l', h', rfl⟩ := List.mem_map.1 hm
    rw [List.length_map]
    exact hl l' h'
  simp only [e1]
  generalize maps.map (fun m : List ℝ => m.map (· - npMin m)) = x at hl' ⊢
  have es : ∀ l ∈ x, (reflectedMap h w l).sum = l.sum := fun l h => (map_perm l (hl' l h)).sum_eq
  have ea : (x.map (reflectedMap h w)).all (fun m => decide (0 < m.sum)) = x.all fun m => decide (0 < m.sum) := by
    rw [List.all_map, Bool.eq_iff_iff, List.all_eq_true, List.all_eq_true]
    refine ⟨fun H l hm => ?_, fun H l hm => ?_⟩
    · have := H l hm
      simp only [Function.comp, es l hm] at this
      exact this
    · have := H l hm
      simp only [Function.comp, es l hm]
      exact this
  rw [ea]
  split_ifs
  · rfl
  · simp only [Except.map, List.map_map]
    congr 1
    refine List.map_congr_left fun l hm => ?_
    simp only [Function.comp]
    rw [map_map l (hl' l hm), es l hm]
  · simp only [Except.map, List.map_map]
    congr 1
    refine List.map_congr_left fun l hm => ?_
    simp only [Function.comp]
    rw [es l hm]
    split_ifs
    · rw [map_map l (hl' l hm)]
    · rw [map_map l (hl' l hm)]
  · rfl

/-! ### The target of a landmark -/

theorem off_flip {w x : Nat} (hw : w % 2 = 1) (hx : x < w) : off w (w - 1 - x) = -off w x := by
  unfold off
  omega

/-- A pair in a mirror. -/
def flip (p : ℝ × ℝ) : ℝ × ℝ := (p.1, -p.2)

theorem grid_congr {α : Type} {h w : Nat} {f g : Nat → Nat → α} (hf : ∀ y x, x < w → f y x = g y x) : grid h w f = grid h w g := by
  unfold grid
  rw [List.flatMap_def, List.flatMap_def]
  congr 1
  exact List.map_congr_left fun y _ => List.map_congr_left fun x hx => hf y x (List.mem_range.1 hx)

theorem grid_neg (h w : Nat) (f : Nat → Nat → ℝ) : (grid h w fun y x => -f y x).sum = -(grid h w f).sum := by
  rw [← grid_map h w f fun x => -x]
  induction grid h w f with
  | nil => simp
  | cons a l ih => rw [List.map_cons, List.sum_cons, List.sum_cons, ih]; ring

theorem mean_grid (h w : Nat) (hw : w % 2 = 1) (f : Nat → Nat → ℝ) (p : ℝ × ℝ) :
    weightedMean (grid h w fun y x => f y (w - 1 - x)) (candidates h w (flip p)) =
      flip (weightedMean (grid h w f) (candidates h w p)) := by
  unfold weightedMean candidates
  rw [offsets_grid]
  simp only [grid_map, grid_zip, (flip_perm h w f).sum_eq, flip, Prod.mk.injEq]
  generalize (grid h w f).sum = S
  constructor
  · exact (flip_perm h w fun y x => f y x / S * (p.1 + ((off h y : Int) : ℝ))).sum_eq
  · rw [← grid_neg]
    refine Eq.trans ?_ (flip_perm h w fun y x => -(f y x / S * (p.2 + ((off w x : Int) : ℝ)))).sum_eq
    congr 1
    refine grid_congr fun y x hx => ?_
    rw [off_flip hw hx]
    push_cast
    ring

theorem gauss_flip (c : ℝ) (a b : ℝ) : gauss c (a, -b) = gauss c (a, b) := by
  unfold gauss
  simp only [neg_sq]

theorem rlms {h w : Nat} (hw : w % 2 = 1) (c : ℝ) (p : ℝ × ℝ) (l : List ℝ) (hl : l.length = h * w) :
    rlmsError h w c (flip p) (reflectedMap h w l) = flip (rlmsError h w c p l) := by
  have e : rlmsTarget h w c (flip p) (reflectedMap h w l) = flip (rlmsTarget h w c p l) := by
    obtain ⟨f, rfl⟩ : ∃ f, l = grid h w f := ⟨_, as_grid l hl⟩
    unfold rlmsTarget
    simp only [map_grid, offsets_grid, grid_map, grid_zip]
    rw [← mean_grid h w hw]
    congr 1
    refine grid_congr fun y x hx => ?_
    rw [off_flip hw hx]
    push_cast
    rw [gauss_flip]
  unfold rlmsError
  rw [e]
  simp only [flip, Prod.mk.injEq, true_and]
  ring

theorem peaks {h w : Nat} {l : List ℝ} {y x : Nat} (hp : PeaksAt h w l y x) :
    PeaksAt h w (reflectedMap h w l) y (w - 1 - x) := by
  obtain ⟨hy, hx, hl, hm⟩ := hp
  obtain ⟨f, rfl⟩ : ∃ f, l = grid h w f := ⟨_, as_grid l hl⟩
  refine ⟨hy, by omega, map_length _ _ _, fun k v hk hne => ?_⟩
  rw [map_grid] at hk ⊢
  rw [grid_get h w _ y (w - 1 - x) hy (by omega)]
  have hkl : k < h * w := by
    by_contra hh
    rw [List.getElem?_eq_none (by rw [grid_length]; omega)] at hk
    cases hk
  have hw : 0 < w := by omega
  have hky : k / w < h := Nat.div_lt_of_lt_mul (by rw [Nat.mul_comm]; exact hkl)
  have hkx : k % w < w := Nat.mod_lt _ hw
  have ek : k / w * w + k % w = k := Nat.div_add_mod' k w
  rw [← ek, grid_get h w _ _ _ hky hkx] at hk
  obtain ⟨u, hu, hlt⟩ := hm (k / w * w + (w - 1 - k % w)) v (by rw [grid_get h w _ _ _ hky (by omega)]; exact hk) fun e => hne (by
    have h1 : w - 1 - k % w = x := by
      have hlt : w - 1 - k % w < w := by omega
      have := congrArg (· % w) e
      simpa [Nat.add_mod, Nat.mod_eq_of_lt hlt, Nat.mod_eq_of_lt hx] using this
    have h2 : k / w = y := by
      rw [h1] at e
      exact Nat.eq_of_mul_eq_mul_right hw (by omega)
    rw [← ek, h2]
    omega)
  rw [grid_get h w _ _ _ hy hx] at hu
  refine ⟨u, ?_, hlt⟩
  rw [← hu]
  congr 2
  omega

theorem asm {h w : Nat} (hw : w % 4 = 1) (c : ℝ) (p : ℝ × ℝ) (l : List ℝ) {y x : Nat} (hp : PeaksAt h w l y x) :
    asmError h w c (flip p) (reflectedMap h w l) = flip (asmError h w c p l) := by
  have hpk : asmPeak h w (reflectedMap h w l) = ((asmPeak h w l).1, -(asmPeak h w l).2) := by
    have hx := hp.2.1
    have hy := hp.1
    have d : ∀ {a b n : Nat}, b < n → (a * n + b) / n = a := by
      intro a b n hb
      rw [Nat.add_comm, Nat.add_mul_div_right _ _ (by omega), Nat.div_eq_of_lt hb, Nat.zero_add]
    have m : ∀ {a b n : Nat}, b < n → (a * n + b) % n = b := by
      intro a b n hb
      rw [Nat.add_comm, Nat.add_mul_mod_self_right, Nat.mod_eq_of_lt hb]
    have hx' : w - 1 - x < w := by omega
    have hr : 2 * roundHalf w = w - 1 := by unfold roundHalf; split <;> [omega; split <;> omega]
    unfold asmPeak
    rw [argmax_peak hp, argmax_peak (peaks hp), d hx, m hx, d hx', m hx']
    simp only [Prod.mk.injEq, true_and]
    omega
  have e : asmTarget h w c (flip p) (reflectedMap h w l) = flip (asmTarget h w c p l) := by
    unfold asmTarget
    simp only [hpk, offsets_grid, grid_map]
    rw [← mean_grid h w (by omega)]
    congr 1
    refine grid_congr fun y x hx => ?_
    rw [off_flip (by omega) hx]
    have : -(asmPeak h w l).2 + off w x = -((asmPeak h w l).2 + -off w x) := by ring
    rw [this]
    push_cast
    rw [gauss_flip]
  unfold asmError
  rw [e]
  simp only [flip, Prod.mk.injEq, true_and]
  ring

end Mirror
end Menpofit
