import Verif.Lemmas.Perturb
import Verif.Lemmas.Stats
/-!
# C51: generation of perturbed bounding boxes
-/

namespace Menpofit
open Perturb Spec

variable {S P : Type}

/-- C51: after a successful call every image carries, numbered consecutively from 0, the boxes of
one block per provided box (the ground truth box if no glob is given, the boxes of the
matching groups otherwise); all other groups are as before, in the same order.  If the image
had no group of that name pattern, the returned function lists exactly these boxes in order. -/
theorem C51_boxes (g : Geom S P) (perturb : Nat → S → S → Except PyErr S) (nPert : Nat)
    (gtGroup : Option String) (glob : Option (String → Bool)) (images images' : List (Im S P))
    (h : generate g perturb nPert gtGroup glob images = (images', none)) :
    List.Forall₂ (fun im im' => ∃ s gt provided blocks,
      getGroup im gtGroup = .ok s ∧ g.bb s = .ok gt ∧
      (match glob with
        | none => provided = [gt]
        | some gl => List.Forall₂ (fun (x : String × S) b => g.bb x.2 = .ok b)
            (im.lms.filter fun x => gl x.1) provided) ∧
      List.Forall₂ (BlockOf g perturb nPert glob.isSome im.px gt) provided blocks ∧
      blocks.flatten.length = provided.length * (nPert + if glob.isSome then 1 else 0) ∧
      im'.px = im.px ∧
      (∀ k, k < blocks.flatten.length →
        lookup im'.lms ("__generated_bb_" ++ toString k) = blocks.flatten[k]?) ∧
      (im'.lms.filter fun x => !isGen x.1) = (im.lms.filter fun x => !isGen x.1) ∧
      ((∀ x ∈ im.lms, isGen x.1 = false) → generatedBoxes im' = blocks.flatten)) images images' := by
  refine (generate_ok h).imp ?_
  rintro im im' ⟨c, c', hi⟩
  obtain ⟨s, gt, bbs, blocks, h1, h2, h3, h4, rfl⟩ := perturbImage_ok hi
  refine ⟨s, gt, bbs, blocks, h1, h2, ?_, h4, ?_, rfl, ?_, filter_assignFrom _ _ _, ?_⟩
  · cases glob with
    | none =>
      simp only [boxes, h1, h2, bind, Except.bind] at h3
      injection h3 with h3
      exact h3.symm
    | some gl =>
      simp only [boxes, matching] at h3
      simp only
      generalize (im.lms.filter fun x => gl x.1) = l at h3
      clear h4
      induction l generalizing bbs with
      | nil =>
        rw [List.map_nil, mapM_nil_ok] at h3
        rw [h3]; exact .nil
      | cons a l ih =>
        rw [List.map_cons] at h3
        obtain ⟨b, r, hb, hr, rfl⟩ := mapM_cons_ok.mp h3
        exact .cons hb (ih r hr)
  · clear h3 hi
    induction h4 with
    | nil => simp
    | cons hb _ ih =>
      obtain ⟨ps, hl, -, rfl⟩ := hb
      rw [List.flatten_cons, List.length_append, ih, List.length_cons]
      have : ∀ y : S, (if glob.isSome = true then ps ++ [y] else ps).length =
          nPert + if glob.isSome = true then 1 else 0 := fun y => by
        split <;> simp [hl]
      rw [this]; ring
  · intro k hk
    have := lookup_assignFrom blocks.flatten im.lms 0 k hk
    rwa [Nat.zero_add] at this
  · intro hf
    have := gen_assignFrom blocks.flatten im.lms 0 (fun x hx i _ he => by
      have := hf x hx
      rw [he, isGen_genName] at this
      cases this)
    unfold generatedBoxes matching
    rw [this, List.filter_eq_nil_iff.2 (fun x hx => by simp [hf x hx])]
    rfl

/-- C51: every generated box lies inside the image. -/
theorem C51_inside (perturb : Nat → List (ℝ × ℝ) → List (ℝ × ℝ) → Except PyErr (List (ℝ × ℝ)))
    (nPert : Nat) (gtGroup : Option String) (glob : Option (String → Bool))
    (images images' : List (Im (List (ℝ × ℝ)) (Nat × Nat)))
    (h : generate pointGeom perturb nPert gtGroup glob images = (images', none))
    (hp : ∀ im ∈ images, 1 ≤ im.px.1 ∧ 1 ≤ im.px.2)
    (hf : ∀ im ∈ images, ∀ x ∈ im.lms, isGen x.1 = false) :
    ∀ im' ∈ images', ∀ b ∈ generatedBoxes im', InsideImage im'.px b := by
  have key : ∀ (px : Nat × Nat), 1 ≤ px.1 → 1 ≤ px.2 → ∀ s, InsideImage px (pointGeom.clamp px s) := by
    intro px h1 h2 s p hp
    obtain ⟨q, -, rfl⟩ := List.mem_map.1 hp
    have e1 : (0 : ℝ) ≤ (px.1 : ℝ) - 1 := by
      have : (1 : ℝ) ≤ px.1 := by exact_mod_cast h1
      linarith
    have e2 : (0 : ℝ) ≤ (px.2 : ℝ) - 1 := by
      have : (1 : ℝ) ≤ px.2 := by exact_mod_cast h2
      linarith
    exact ⟨le_min (le_max_right _ _) e1, min_le_right _ _, le_min (le_max_right _ _) e2,
      min_le_right _ _⟩
  have hb := C51_boxes pointGeom perturb nPert gtGroup glob images images' h
  clear h
  induction hb with
  | nil => simp
  | cons hb _ ih =>
    intro im' him'
    rcases List.mem_cons.1 him' with rfl | him'
    · rename_i im _ _ _
      obtain ⟨s, gt, provided, blocks, -, -, -, h4, -, h6, -, -, h9⟩ := hb
      rw [h9 (hf im (by simp)), h6]
      intro b hbm
      obtain ⟨block, hbl, hbb⟩ := List.mem_flatten.1 hbm
      have hpx := hp im (by simp)
      clear h9 h6 hbm
      induction h4 with
      | nil => simp at hbl
      | cons hblk _ ih' =>
        rcases List.mem_cons.1 hbl with rfl | hbl
        · obtain ⟨ps, -, hps, he⟩ := hblk
          have hm : b ∈ ps ∨ ∃ x, b = pointGeom.clamp im.px x := by
            rw [he] at hbb
            split at hbb
            · rcases List.mem_append.1 hbb with hbb | hbb
              · exact .inl hbb
              · exact .inr ⟨_, List.mem_singleton.1 hbb⟩
            · exact .inl hbb
          rcases hm with hm | ⟨x, rfl⟩
          · obtain ⟨_, _, q, -, -, rfl⟩ := hps b hm
            exact key _ hpx.1 hpx.2 _
          · exact key _ hpx.1 hpx.2 _
        · exact ih' hbl
    · exact ih (fun im h => hp im (List.mem_cons_of_mem _ h))
        (fun im h => hf im (List.mem_cons_of_mem _ h)) im' him'

/-- C51: if no group of the first image matches the glob, `ValueError` is raised and no image is
modified; with a glob and no images `IndexError`. -/
theorem C51_no_box (g : Geom S P) (perturb : Nat → S → S → Except PyErr S) (nPert : Nat)
    (gtGroup : Option String) (gl : String → Bool) (im : Im S P) (images : List (Im S P))
    (h : ∀ x ∈ im.lms, gl x.1 = false) :
    generate g perturb nPert gtGroup (some gl) (im :: images) =
      (im :: images, some .valueError) ∧
    generate g perturb nPert gtGroup (some gl) ([] : List (Im S P)) = ([], some .indexError) := by
  constructor
  · have : matching gl im = [] := by
      unfold matching
      rw [List.filter_eq_nil_iff.2 (fun x hx => by simp [h x hx])]
      rfl
    simp [generate, this, pure, Except.pure]
  · rfl

/-- C51: without a group the image must have exactly one group of landmarks, which is the ground truth; a
group that is named must exist.  Otherwise an exception is raised and no image is modified. -/
theorem C51_group (g : Geom S P) (perturb : Nat → S → S → Except PyErr S) (nPert : Nat) (im : Im S P)
    (images : List (Im S P)) :
    (im.lms.length ≠ 1 → generate g perturb nPert none none (im :: images) =
      (im :: images, some .valueError)) ∧
    (∀ n, (∀ x ∈ im.lms, x.1 ≠ n) → generate g perturb nPert (some n) none (im :: images) =
      (im :: images, some .keyError)) ∧
    (∀ n s, im.lms = [(n, s)] → generate g perturb nPert none none [im] =
      generate g perturb nPert (some n) none [im]) := by
  have one : ∀ n s, im.lms = [(n, s)] → getGroup im none = getGroup im (some n) := by
    intro n s h
    unfold getGroup lookup
    simp [h]
  have same : ∀ n s, im.lms = [(n, s)] → generate g perturb nPert none none [im] =
      generate g perturb nPert (some n) none [im] := by
    intro n s h
    simp only [generate, imageLoop, perturbImage, boxes, one n s h]
  refine ⟨fun h => ?_, fun n h => ?_, same⟩
  · have : getGroup im none = .error .valueError := by
      unfold getGroup
      match hl : im.lms with
      | [] => rfl
      | [x] => rw [hl] at h; exact absurd rfl h
      | _ :: _ :: _ => rfl
    simp only [generate, imageLoop, perturbImage, this, bind, Except.bind]
  · have : getGroup im (some n) = .error .keyError := by
      unfold getGroup lookup
      have : (im.lms.find? fun x => x.1 = n) = none := by
        rw [List.find?_eq_none]; intro x hx; simpa using h x hx
      simp only [this, Option.map_none]
    simp only [generate, imageLoop, perturbImage, this, bind, Except.bind]

/-- C51: what the returned function lists are the groups whose names begin with `__generated_bb_`, and only
those. -/
theorem C51_listed (im : Im S P) :
    ∃ named : List (String × S), named.Sublist im.lms ∧ generatedBoxes im = named.map Prod.snd ∧
      ∀ x ∈ im.lms, (x ∈ named ↔ ∃ rest, x.1 = "__generated_bb_" ++ rest) := by
  refine ⟨im.lms.filter fun x => isGen x.1, List.filter_sublist, rfl, fun x hx => ?_⟩
  rw [List.mem_filter]
  simp only [hx, true_and, isGen, List.isPrefixOf_iff_prefix]
  constructor
  · rintro ⟨t, ht⟩
    exact ⟨String.ofList t, by apply String.toList_inj.mp; simp [String.toList_append, ← ht]⟩
  · rintro ⟨r, hr⟩
    exact ⟨r.toList, by rw [hr, String.toList_append]⟩

/-- A toy: shapes are numbers, every operation is visible in the result. -/
def numberGeom : Geom Nat Nat := ⟨fun s => .ok (s + 1000), fun px s => min s px⟩

example : generate numberGeom (fun c gt bb => .ok (100 * c + gt + bb)) 2 (some "PTS")
    (some fun s => s = "bb") [⟨[("PTS", 1), ("bb", 2)], 9999⟩] =
    ([⟨[("PTS", 1), ("bb", 2), ("__generated_bb_0", 3003), ("__generated_bb_1", 3103),
      ("__generated_bb_2", 1002)], 9999⟩], none) := by decide +kernel

/-- C51 fails for later images: only the first image is checked, so a later image without matching
boxes silently gets none. -/
theorem C51_later_image_violated :
    ∃ images', generate numberGeom (fun c gt bb => .ok (100 * c + gt + bb)) 2 (some "PTS")
      (some fun s => s = "bb")
      [⟨[("PTS", 1), ("bb", 2)], 9999⟩, ⟨[("PTS", 1)], 9999⟩] = (images', none) ∧
      images'.map (fun im => (generatedBoxes im).length) = [3, 0] := by
  exact ⟨_, rfl, by decide +kernel⟩

/-- C51: boxes generated earlier with a larger number of perturbations stay and are listed with the
new ones. -/
theorem C51_stale_boxes_violated :
    ∃ images', generate numberGeom (fun c gt bb => .ok (100 * c + gt + bb)) 1 (some "PTS") none
      [⟨[("PTS", 1), ("__generated_bb_0", 7), ("__generated_bb_1", 8)], 9999⟩] = (images', none) ∧
      images'.map generatedBoxes = [[3002, 8]] := by
  exact ⟨_, rfl, by decide +kernel⟩

/-- Two points in a 10 by 10 image; the perturbation moves the box partly outside. -/
example : ∃ images', generate pointGeom (fun _ gt _ => .ok (gt.map fun p => (p.1 + 8, p.2 - 8))) 1
    (some "PTS") none [⟨[("PTS", [((1 : ℝ), (2 : ℝ)), (3, 4)])], (10, 10)⟩] = (images', none) :=
  ⟨_, rfl⟩

end Menpofit
