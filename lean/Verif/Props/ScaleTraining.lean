import Verif.Lemmas.ScaleTraining
import Verif.Props.Perturb
/-!
# C53, C89: training over several scales
-/

namespace Menpofit
open ScaleTrain Perturb Spec

variable {S P T : Type}

/-- The number of boxes generated for each image. -/
theorem generated_counts {g : Geom S P} {perturb : Nat → S → S → Except PyErr S} {nPert : Nat}
    {group : String} {glob : Option (String → Bool)} {images batch : List (Im S P)}
    (h : generate g perturb nPert (some group) glob images = (batch, none))
    (hf : ∀ im ∈ images, ∀ x ∈ im.lms, isGen x.1 = false) :
    batch.map (fun im => (generatedBoxes im).length) = images.map fun im =>
      match (generalizing := false) glob with
      | none => nPert
      | some gl => (matching gl im).length * (nPert + 1) := by
  have hb := C51_boxes g perturb nPert (some group) glob images batch h
  clear h
  induction hb with
  | nil => rfl
  | cons hb _ ih =>

    obtain ⟨s, gt, provided, blocks, -, -, h3, -, h5, -, -, -, h9⟩ := hb
    rw [List.map_cons, List.map_cons, ih fun i hi => hf i (by simp [hi]),
      h9 (hf _ (by simp)), h5]
    congr 1
    cases glob with
    | none =>
      simp only at h3
      rw [h3]
      simp
    | some gl =>
      have := h3.length_eq
      simp only [Option.isSome_some, if_true, matching, List.length_map]
      rw [this]

/-- C53, without provided boxes: at every scale each image has `nPert` shapes, and the shapes that
come out of one scale all go into the next, at the same place in the image.  (Missing: training with
provided boxes, see `C53_provided_boxes_violated`.) -/
theorem C53_sdm_partial (g : Geom S P) (perturb : Nat → S → S → Except PyErr S) (ops : Ops S P T)
    (inv : T → S → S) (hm : MovesLandmarks ops inv) (hc : KeepsCounts ops) (group : String)
    (nPert n : Nat) (images : List (Im S P))
    (hf : ∀ im ∈ images, ∀ x ∈ im.lms, isGen x.1 = false)
    (r : List (Scale S P T) × List (Im S P))
    (h : trainSdm g perturb ops group none nPert n images = .ok r) :
    r.1.length = n ∧ (∀ a ∈ r.1, ∀ l ∈ a.input, l.length = nPert) ∧
    List.IsChain (Carried ops.apply inv) r.1 := by
  unfold trainSdm at h
  split at h
  · cases h
  · rename_i batch hg
    cases n with
    | zero =>
      injection h with h
      subst h
      simp
    | succ n =>
      have hm' : MovesLandmarks { ops with key := sdmKey } inv := ⟨hm.feature, hm.rescale⟩
      obtain ⟨a, tr, e1, e2, e3, e4, e5⟩ := scaleLoop_ok hm' hc (fun j k h => numbered_inj h)
        n 0 batch none r h (by simp)
      have hcnt := first_counts hm' e3
      have hgen : ((nextFeatures { ops with key := sdmKey } 0 batch none).getD batch).map
          (fun im => (generatedBoxes im).length) = batch.map fun im => (generatedBoxes im).length := by
        unfold nextFeatures
        split
        · rfl
        · rw [if_pos (.inl rfl), Option.getD_some, List.map_map]
          apply List.map_congr_left
          intro im _
          simp only [Function.comp, generatedBoxes, matching, hm.feature]
      rw [hgen, generated_counts hg hf] at hcnt
      have ha : ∀ l ∈ a.input, l.length = nPert := by
        intro l hl
        have : l.length ∈ a.input.map List.length := List.mem_map_of_mem hl
        rw [hcnt] at this
        obtain ⟨_, -, e⟩ := List.mem_map.1 this
        exact e.symm
      rw [e1]
      refine ⟨by simp [e2], ?_, e5 ha⟩
      intro b hb
      rcases List.mem_cons.1 hb with rfl | hb
      · exact ha
      · exact e4 b hb

/-- C53, dlib fitter without provided boxes: the same for the bounding boxes. -/
theorem C53_ert_partial (g : Geom S P) (perturb : Nat → S → S → Except PyErr S) (ops : Ops S P T)
    (inv : T → S → S) (hm : MovesLandmarks ops inv) (hc : KeepsCounts ops) (group : String)
    (nPert n : Nat) (images : List (Im S P))
    (hf : ∀ im ∈ images, ∀ x ∈ im.lms, isGen x.1 = false)
    (r : List (Scale S P T) × List (Im S P))
    (h : trainErt g perturb ops group none nPert n images = .ok r) :
    r.1.length = n ∧ (∀ a ∈ r.1, ∀ l ∈ a.input, l.length = nPert) ∧
    List.IsChain (Carried ops.apply inv) r.1 := by
  unfold trainErt at h
  split at h
  · cases h
  · rename_i batch hg
    cases n with
    | zero =>
      injection h with h
      subst h
      simp
    | succ n =>
      have hm' : MovesLandmarks { ops with key := ertKey, align := id } inv :=
        ⟨hm.feature, hm.rescale⟩
      obtain ⟨a, tr, e1, e2, e3, e4, e5⟩ := ertLoop_ok hm' hc (fun j k h => numbered_inj h)
        n 0 batch r h
      have hcnt := first_counts hm' e3
      rw [generated_counts hg hf] at hcnt
      have ha : ∀ l ∈ a.input, l.length = nPert := by
        intro l hl
        have : l.length ∈ a.input.map List.length := List.mem_map_of_mem hl
        rw [hcnt] at this
        obtain ⟨_, -, e⟩ := List.mem_map.1 this
        exact e.symm
      rw [e1]
      refine ⟨by simp [e2], ?_, e5 ha⟩
      intro b hb
      rcases List.mem_cons.1 hb with rfl | hb
      · exact ha
      · exact e4 b hb

/-- C53 fails whenever boxes are provided: the lowest scale trains on `nPert + 1` shapes per provided
box, every higher scale only on the first `nPert` shapes of each image. -/
theorem C53_provided_boxes_violated (g : Geom S P) (perturb : Nat → S → S → Except PyErr S)
    (ops : Ops S P T) (inv : T → S → S) (hm : MovesLandmarks ops inv) (hc : KeepsCounts ops)
    (group : String) (gl : String → Bool) (nPert n : Nat) (images : List (Im S P))
    (hf : ∀ im ∈ images, ∀ x ∈ im.lms, isGen x.1 = false)
    (r : List (Scale S P T) × List (Im S P))
    (h : trainSdm g perturb ops group (some gl) nPert (n + 1) images = .ok r ∨
      trainErt g perturb ops group (some gl) nPert (n + 1) images = .ok r) :
    ∃ first later, r.1 = first :: later ∧ later.length = n ∧
      first.input.map List.length = images.map (fun im => (matching gl im).length * (nPert + 1)) ∧
      ∀ a ∈ later, ∀ l ∈ a.input, l.length = nPert := by
  rcases h with h | h
  · unfold trainSdm at h
    split at h
    · cases h
    · rename_i batch hg
      have hm' : MovesLandmarks { ops with key := sdmKey } inv := ⟨hm.feature, hm.rescale⟩
      obtain ⟨a, tr, e1, e2, e3, e4, e5⟩ := scaleLoop_ok hm' hc (fun j k h => numbered_inj h)
        n 0 batch none r h (by simp)
      have hcnt := first_counts hm' e3
      have hgen : ((nextFeatures { ops with key := sdmKey } 0 batch none).getD batch).map
          (fun im => (generatedBoxes im).length) = batch.map fun im => (generatedBoxes im).length := by
        unfold nextFeatures
        split
        · rfl
        · rw [if_pos (.inl rfl), Option.getD_some, List.map_map]
          apply List.map_congr_left
          intro im _
          simp only [Function.comp, generatedBoxes, matching, hm.feature]
      rw [hgen, generated_counts hg hf] at hcnt
      exact ⟨a, tr, e1, e2, hcnt, e4⟩
  · unfold trainErt at h
    split at h
    · cases h
    · rename_i batch hg
      have hm' : MovesLandmarks { ops with key := ertKey, align := id } inv :=
        ⟨hm.feature, hm.rescale⟩
      obtain ⟨a, tr, e1, e2, e3, e4, e5⟩ := ertLoop_ok hm' hc (fun j k h => numbered_inj h)
        n 0 batch r h
      have hcnt := first_counts hm' e3
      rw [generated_counts hg hf] at hcnt
      exact ⟨a, tr, e1, e2, hcnt, e4⟩

/-! A toy: shapes are numbers, scale `j` adds `10 * j` to everything on the image. -/

def numberScaleOps : Ops Nat Nat Nat where
  rescale j im := .ok (⟨im.lms.map fun x => (x.1, x.2 - 10 * j), im.px⟩, j)
  apply j s := s + 10 * j
  feature _ im := im
  noOp := true
  same _ := true
  align := id
  algo _ _ _ cur := .ok (cur.map fun l => l.map (· + 1))
  key := sdmKey

example : MovesLandmarks numberScaleOps (fun j s => s - 10 * j) :=
  ⟨fun _ _ => rfl, fun j im im' t h => by
    simp only [numberScaleOps, Except.ok.injEq, Prod.mk.injEq] at h
    rw [← h.1, ← h.2]⟩

example : KeepsCounts numberScaleOps := by
  intro j ims gts cur out h
  simp only [numberScaleOps, Except.ok.injEq] at h
  rw [← h, List.map_map]
  apply List.map_congr_left
  intro x _
  simp

example : ∃ r, trainSdm numberGeom (fun c gt bb => .ok (100 * c + gt + bb)) numberScaleOps "PTS" none 2 3
    [⟨[("PTS", 51)], 9999⟩] = .ok r ∧
    r.1.map Scale.input = [[[3102, 3202]], [[3093, 3193]], [[3084, 3184]]] ∧
    r.1.map Scale.output = [[[3103, 3203]], [[3094, 3194]], [[3085, 3185]]] := by
  refine ⟨_, rfl, ?_, ?_⟩ <;> decide +kernel

/-- With a provided box, three shapes at the lowest scale and two at the next. -/
example : ∃ r, trainSdm numberGeom (fun c gt bb => .ok (100 * c + gt + bb)) numberScaleOps "PTS"
    (some fun s => s = "bb") 2 2 [⟨[("PTS", 51), ("bb", 60)], 9999⟩] = .ok r ∧
    r.1.map (fun a => a.input.map List.length) = [[3], [2]] := by
  refine ⟨_, rfl, ?_⟩; decide +kernel

/-! ### C89 -/

/-- C89: when the preparation of dlib training succeeds, the caller's images are as before, provided
none of them has a landmark group called `__gt_bb`.  (Missing: failures, and
images with such a group, see `C89_error_violated` and `C89_own_group_violated`.) -/
theorem C89_images_restored_partial (bb : S → Except PyErr S) (refShape : List S → Except PyErr S)
    (rescale : S → Im S P → Except PyErr (Im S P)) (known : Option S) (group : Option String)
    (images after scaled : List (Im S P))
    (h : prepareErt bb refShape rescale known group images = (after, .ok scaled))
    (hf : ∀ im ∈ images, ∀ x ∈ im.lms, x.1 ≠ "__gt_bb") : after = images := by
  unfold prepareErt at h
  split at h
  · simp at h
  · split at h
    · simp at h
    · rename_i marked hs
      split at h
      · simp at h
      · split at h
        · simp at h
        · rename_i sc hsc
          split at h
          · simp at h
          · rename_i a b hd
            simp only [Prod.mk.injEq] at h
            rw [← h.1]
            exact deleteBoxes_ok hd (mapM_length hsc).symm (setBoxes_ok hs hf) hf

/-- C89: at the end of supervised descent training over several scales without provided boxes, the images have no
temporary shapes left: they are as they were when the perturbed boxes had been generated.  (Missing:
provided boxes.) -/
theorem C89_sdm_shapes_partial (g : Geom S P) (perturb : Nat → S → S → Except PyErr S) (ops : Ops S P T)
    (inv : T → S → S) (hm : MovesLandmarks ops inv) (hc : KeepsCounts ops) (group : String)
    (nPert n : Nat) (images batch : List (Im S P))
    (hf : ∀ im ∈ images, ∀ x ∈ im.lms, isGen x.1 = false)
    (hg : generate g perturb nPert (some group) none images = (batch, none))
    (hk : ∀ im ∈ batch, ∀ x ∈ im.lms, ∀ k, x.1 ≠ sdmKey k)
    (r : List (Scale S P T) × List (Im S P))
    (h : trainSdm g perturb ops group none nPert n images = .ok r) : r.2 = batch := by
  unfold trainSdm at h
  rw [hg] at h
  simp only at h
  cases n with
  | zero =>
    injection h with h
    rw [← h]
  | succ n =>
    have hm' : MovesLandmarks { ops with key := sdmKey } inv := ⟨hm.feature, hm.rescale⟩
    have hcnt := generated_counts hg hf
    have hno : ∀ im ∈ batch, ∀ k, sdmKey k ∉ im.lms.map Prod.fst := by
      intro im him k hmem
      obtain ⟨x, hx, e⟩ := List.mem_map.1 hmem
      exact hk im him x hx k e
    refine scaleLoop_restores hm' hc n 0 batch none r h (by simp) (fun _ im him => ?_) ?_
      (.inl fun im him k _ => hno im him k)
    · have : (generatedBoxes im).length ∈ batch.map fun im => (generatedBoxes im).length :=
        List.mem_map.2 ⟨im, him, rfl⟩
      rw [hcnt] at this
      obtain ⟨_, -, e⟩ := List.mem_map.1 this
      exact e.symm
    · refine List.forall₂_same.2 fun im him => ⟨rfl, List.filter_eq_self.2 fun x hx => ?_⟩
      simp only [List.mem_map, List.mem_range, not_exists, not_and, decide_eq_true_eq]
      intro k _ e
      exact hk im him x hx k e.symm

/-- The temporary shapes are removed after the second of two scales. -/
example : ∃ r, trainSdm numberGeom (fun c gt bb => .ok (100 * c + gt + bb)) numberScaleOps "PTS" none 2 2
    [⟨[("PTS", 51)], 9999⟩] = .ok r ∧
    r.2.map (fun im => im.lms.map Prod.fst) = [["PTS", "__generated_bb_0", "__generated_bb_1"]] := by
  refine ⟨_, rfl, ?_⟩; decide +kernel

/-- C89: what the images are rescaled to when dlib training is prepared.  Every image is given the bounding box of
its shape as the group `__gt_bb`, is rescaled with respect to the reference shape, and loses that group again.
The reference shape is the given one, or else that computed from all the bounding boxes. -/
theorem C89_reference (bb : S → Except PyErr S) (refShape : List S → Except PyErr S)
    (rescale : S → Im S P → Except PyErr (Im S P)) (known : Option S) (group : String)
    (images after scaled : List (Im S P))
    (h : prepareErt bb refShape rescale known (some group) images = (after, .ok scaled)) :
    ∃ marked out ref, List.Forall₂ (fun im im' => ∃ s b, lookup im.lms group = some s ∧ bb s = .ok b ∧
        im' = { im with lms := assign im.lms "__gt_bb" b }) images marked ∧
      (match (generalizing := false) known with
        | some r => ref = r
        | none => ∃ bs, marked.mapM (fun im => getGroup im (some "__gt_bb")) = .ok bs ∧ refShape bs = .ok ref) ∧
      marked.mapM (rescale ref) = .ok out ∧
      scaled = out.map fun im => { im with lms := im.lms.filter fun x => x.1 ∉ ["__gt_bb"] } := by
  unfold prepareErt at h
  simp only at h
  split at h
  · simp at h
  · rename_i marked hs
    split at h
    · simp at h
    · rename_i ref href
      split at h
      · simp at h
      · rename_i sc hsc
        split at h
        · simp at h
        · rename_i a b hd
          simp only [Prod.mk.injEq, Except.ok.injEq] at h
          refine ⟨marked, sc, ref, setBoxes_marks hs, ?_, hsc, ?_⟩
          · cases known with
            | some r =>
              simp only [Except.ok.injEq] at href
              exact href.symm
            | none => exact bind_ok href
          · rw [← h.2]
            exact deleteBoxes_scaled hd (mapM_length hsc).symm

example : prepareErt numberGeom.bb (fun _ => .ok 0) (fun r im => .ok { im with px := r }) (some 7) none
      [⟨[("PTS", 1), ("other", 3)], 9999⟩] =
      ([⟨[("PTS", 1), ("other", 3)], 9999⟩], .ok [⟨[("PTS", 1), ("other", 3)], 7⟩]) := by
  decide +kernel

/-- The first image of two has the group, the second has not. -/
def oneAnnotated : List (Im Nat Nat) := [⟨[("PTS", 1)], 9999⟩, ⟨[("other", 1)], 9999⟩]

/-- C89 fails when an exception is raised: with an image without the landmark group, dlib training
raises `KeyError` and leaves the group `__gt_bb` on the images before it. -/
theorem C89_error_violated :
    prepareErt numberGeom.bb (fun _ => .ok 0) (fun _ im => .ok im) none (some "PTS") oneAnnotated =
      ([⟨[("PTS", 1), ("__gt_bb", 1001)], 9999⟩, ⟨[("other", 1)], 9999⟩], .error .keyError) := by
  decide +kernel

/-- C89 fails for images that have a group called `__gt_bb`: it is lost. -/
theorem C89_own_group_violated :
    prepareErt numberGeom.bb (fun _ => .ok 0) (fun _ im => .ok im) none (some "PTS")
      [⟨[("__gt_bb", 5), ("PTS", 1)], 9999⟩] =
      ([⟨[("PTS", 1)], 9999⟩], .ok [⟨[("PTS", 1)], 9999⟩]) := by
  decide +kernel

example : prepareErt numberGeom.bb (fun _ => .ok 0) (fun r im => .ok { im with px := r }) none none
      [⟨[("PTS", 1), ("other", 3)], 9999⟩] =
      ([⟨[("PTS", 1), ("other", 3)], 9999⟩], .ok [⟨[("PTS", 1), ("other", 3)], 0⟩]) := by
  decide +kernel

end Menpofit
