import Verif.Lemmas.Dlib
/-!
# C62, C90: conversions to dlib
-/

namespace Menpofit
open Dlib

/-- C62: a rectangle converted to a bounding box and back is unchanged if it is not empty in either
direction.  (Missing: empty rectangles, see `C62_empty_rectangle_violated`.) -/
theorem C62_rectangle_partial (r : Rect) (h1 : r.left ≤ r.right) (h2 : r.top ≤ r.bottom) :
    toRect (ofRect r) = .ok r := by
  have hl : ((r.left : ℝ)) ≤ r.right := by exact_mod_cast h1
  have ht : ((r.top : ℝ)) ≤ r.bottom := by exact_mod_cast h2
  obtain ⟨e1, e2, e3, e4⟩ := box_bounds ((r.top : ℝ), (r.left : ℝ)) ((r.bottom : ℝ), (r.right : ℝ))
    ht hl
  unfold toRect ofRect
  rw [if_neg (by simp [boxOf]), e1, e2, e3, e4]
  simp only [pyInt_cast]

/-- C62 fails for an empty rectangle, which is how dlib represents "no area": its edges come back
swapped. -/
theorem C62_empty_rectangle_violated :
    toRect (ofRect ⟨0, 0, -1, -1⟩) = .ok ⟨-1, -1, 0, 0⟩ := by
  unfold toRect ofRect
  simp only [boxOf, List.length_cons, List.length_nil, List.map_cons, List.map_nil, Stats.npMin,
    Stats.npMax, List.foldl_cons, List.foldl_nil]
  norm_num
  have h : pyInt (-1) = -1 := by
    have := pyInt_cast (-1)
    push_cast at this
    exact this
  have h0 : pyInt 0 = 0 := by
    have := pyInt_cast 0
    push_cast at this
    exact this
  simp [h, h0]

/-- C62: a bounding box (its corners in menpo's order: closest to the origin, along the first axis, opposite, along the
second axis) converted to dlib and back is a bounding box each edge of which moved by less than a pixel, towards zero; a
box with integer coordinates is unchanged. -/
theorem C62_box (a b : ℝ × ℝ) (h1 : a.1 ≤ b.1) (h2 : a.2 ≤ b.2) :
    ∃ (r : Rect) (a' b' : ℝ × ℝ), toRect [(a.1, a.2), (b.1, a.2), (b.1, b.2), (a.1, b.2)] = .ok r ∧
      ofRect r = [(a'.1, a'.2), (b'.1, a'.2), (b'.1, b'.2), (a'.1, b'.2)] ∧
      |a'.1 - a.1| < 1 ∧ |a'.2 - a.2| < 1 ∧ |b'.1 - b.1| < 1 ∧ |b'.2 - b.2| < 1 ∧
      r.left ≤ r.right ∧ r.top ≤ r.bottom ∧
      (∀ y0 x0 y1 x1 : ℤ, a = ((y0 : ℝ), (x0 : ℝ)) → b = ((y1 : ℝ), (x1 : ℝ)) →
        ofRect r = [(a.1, a.2), (b.1, a.2), (b.1, b.2), (a.1, b.2)]) := by
  obtain ⟨e1, e2, e3, e4⟩ := box_bounds a b h1 h2
  refine ⟨⟨pyInt a.2, pyInt a.1, pyInt b.2, pyInt b.1⟩, (pyInt a.1, pyInt a.2),
    (pyInt b.1, pyInt b.2), ?_, rfl, pyInt_close _, pyInt_close _, pyInt_close _, pyInt_close _,
    pyInt_mono h2, pyInt_mono h1, ?_⟩
  · change toRect (boxOf a b) = _
    unfold toRect
    rw [if_neg (by simp [boxOf]), e1, e2, e3, e4]
  · intro y0 x0 y1 x1 ha hb
    subst ha hb
    simp only [ofRect, boxOf, pyInt_cast]

/-- C62: the rectangle of any shape is within a pixel of its bounds: every point is inside the
rectangle up to less than one pixel, and every edge is within a pixel of some point. -/
theorem C62_shape_rectangle (pc : List (ℝ × ℝ)) (hne : pc ≠ []) :
    ∃ r, toRect pc = .ok r ∧
      (∀ p ∈ pc, (r.left : ℝ) < p.2 + 1 ∧ p.2 < r.right + 1 ∧
        (r.top : ℝ) < p.1 + 1 ∧ p.1 < r.bottom + 1) ∧
      (∃ p ∈ pc, |(r.left : ℝ) - p.2| < 1) ∧ (∃ p ∈ pc, |(r.right : ℝ) - p.2| < 1) ∧
      (∃ p ∈ pc, |(r.top : ℝ) - p.1| < 1) ∧ (∃ p ∈ pc, |(r.bottom : ℝ) - p.1| < 1) := by
  have hf : pc.map Prod.fst ≠ [] := by simpa using hne
  have hs : pc.map Prod.snd ≠ [] := by simpa using hne
  refine ⟨_, by unfold toRect; rw [if_neg (by simpa using hne)], ?_, ?_, ?_, ?_, ?_⟩
  · intro p hp
    have m1 := npMin_le (List.mem_map_of_mem (f := Prod.snd) hp)
    have m2 := npMax_ge (List.mem_map_of_mem (f := Prod.snd) hp)
    have m3 := npMin_le (List.mem_map_of_mem (f := Prod.fst) hp)
    have m4 := npMax_ge (List.mem_map_of_mem (f := Prod.fst) hp)
    have c1 := abs_lt.1 (pyInt_close (Stats.npMin (pc.map Prod.snd)))
    have c2 := abs_lt.1 (pyInt_close (Stats.npMax (pc.map Prod.snd)))
    have c3 := abs_lt.1 (pyInt_close (Stats.npMin (pc.map Prod.fst)))
    have c4 := abs_lt.1 (pyInt_close (Stats.npMax (pc.map Prod.fst)))
    simp only
    refine ⟨?_, ?_, ?_, ?_⟩ <;> linarith [c1.1, c1.2, c2.1, c2.2, c3.1, c3.2, c4.1, c4.2]
  · obtain ⟨p, hp, e⟩ := List.mem_map.1 (npMin_mem hs)
    exact ⟨p, hp, by rw [← e]; exact pyInt_close _⟩
  · obtain ⟨p, hp, e⟩ := List.mem_map.1 (npMax_mem hs)
    exact ⟨p, hp, by rw [← e]; exact pyInt_close _⟩
  · obtain ⟨p, hp, e⟩ := List.mem_map.1 (npMin_mem hf)
    exact ⟨p, hp, by rw [← e]; exact pyInt_close _⟩
  · obtain ⟨p, hp, e⟩ := List.mem_map.1 (npMax_mem hf)
    exact ⟨p, hp, by rw [← e]; exact pyInt_close _⟩

/-- C62: the points of a non-empty shape converted to dlib parts and back each move by less than a
pixel in each direction, in the same order; parts converted to points and back are unchanged. -/
theorem C62_parts (pc : List (ℝ × ℝ)) (hne : pc ≠ []) (parts : List Point) (hp : parts ≠ []) :
    (∃ pc', ofParts (toParts pc) = .ok pc' ∧
      List.Forall₂ (fun p q => |q.1 - p.1| < 1 ∧ |q.2 - p.2| < 1) pc pc') ∧
    (∃ pc', ofParts parts = .ok pc' ∧ toParts pc' = parts) := by
  constructor
  · refine ⟨_, by unfold ofParts; rw [if_neg (by simpa [toParts] using hne)], ?_⟩
    clear hne
    induction pc with
    | nil => exact .nil
    | cons p pc ih => exact .cons ⟨pyInt_close _, pyInt_close _⟩ ih
  · refine ⟨_, by unfold ofParts; rw [if_neg (by simpa using hp)], ?_⟩
    unfold toParts
    rw [List.map_map]
    conv_rhs => rw [← List.map_id parts]
    apply List.map_congr_left
    intro p _
    simp [pyInt_cast]

example : ∃ r, toRect (boxOf (10.5, -3.25) (20, 7.75)) = .ok r ∧ r.top = 10 ∧ r.left = -3 := by
  obtain ⟨e1, e2, e3, e4⟩ := box_bounds ((10.5 : ℝ), (-3.25 : ℝ)) (20, 7.75) (by norm_num)
    (by norm_num)
  refine ⟨_, by unfold toRect; rw [if_neg (by simp [boxOf])], ?_, ?_⟩
  · simp only [e2]
    unfold pyInt
    rw [if_pos (by norm_num), Int.floor_eq_iff]
    norm_num
  · simp only [e1]
    unfold pyInt
    rw [if_neg (by norm_num), Int.ceil_eq_iff]
    norm_num

/-! ### C90 -/

/-- C90: after any sequence of changes of `n_iterations` the cascade depth of the algorithm is
its number of iterations, and all its other options are those it was made with. -/
theorem C90_options {A : Type} (hidden : String → Bool) (names : List String)
    (fresh options : Options A) (n : A) (changes : List A) :
    let a := changes.foldl setIterations (newAlg hidden names fresh options n)
    a.nIterations = (changes.getLast?).getD n ∧ a.options "cascade_depth" = a.nIterations ∧
    ∀ name ∈ names, hidden name = false → name ≠ "cascade_depth" →
      a.options name = options name := by
  have key : ∀ (changes : List A) (b : Alg A), b.options "cascade_depth" = b.nIterations →
      (∀ name ∈ names, hidden name = false → name ≠ "cascade_depth" →
        b.options name = options name) →
      (changes.foldl setIterations b).nIterations = (changes.getLast?).getD b.nIterations ∧
      (changes.foldl setIterations b).options "cascade_depth" =
        (changes.foldl setIterations b).nIterations ∧
      ∀ name ∈ names, hidden name = false → name ≠ "cascade_depth" →
        (changes.foldl setIterations b).options name = options name := by
    intro changes
    induction changes with
    | nil => intro b h1 h2; exact ⟨rfl, h1, h2⟩
    | cons v vs ih =>
      intro b h1 h2
      rw [List.foldl_cons]
      obtain ⟨i1, i2, i3⟩ := ih (setIterations b v) (by simp [setIterations]) (by
        intro name hn hh hc
        simp only [setIterations]
        rw [Function.update_of_ne hc]
        exact h2 name hn hh hc)
      refine ⟨?_, i2, i3⟩
      rw [i1]
      cases vs with
      | nil => rfl
      | cons w ws => rw [List.getLast?_cons_cons]; simp [List.getLast?_cons]
  refine key changes _ (by simp [newAlg]) ?_
  intro name hn hh hc
  simp only [newAlg]
  rw [Function.update_of_ne hc, copyOptions_get, if_pos ⟨hn, hh⟩]

example : (newAlg (fun s => s = "__class__") ["__class__", "cascade_depth", "nu"] (fun _ => 0)
    (fun s => if s = "nu" then 5 else 7) 3).options "nu" = 5 := by decide

end Menpofit
