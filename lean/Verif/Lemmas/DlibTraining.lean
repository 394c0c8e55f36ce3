import Verif.Spec.DlibTraining
import Verif.Lemmas.Dlib
import Verif.Lemmas.Error
import Verif.Lemmas.ScaleTraining
/-!
# Helper lemmas for training and running dlib's predictors
-/

namespace Menpofit
namespace Dlib
open Stats Spec ScaleTrain

noncomputable section

variable {Pix M : Type}

theorem npMin_le_npMax {l : List ℝ} (h : l ≠ []) : npMin l ≤ npMax l :=
  npMin_le (npMax_mem h)

theorem boundingBox_ok {pc b : Shape} (h : boundingBox pc = .ok b) :
    pc ≠ [] ∧ b = boxOf (npMin (pc.map Prod.fst), npMin (pc.map Prod.snd))
      (npMax (pc.map Prod.fst), npMax (pc.map Prod.snd)) := by
  unfold boundingBox at h
  split at h
  · cases h
  · rename_i hne
    injection h with h
    exact ⟨by simpa using hne, h.symm⟩

/-- A scaled bounding box has the rectangle of the scaled shape. -/
theorem toRect_scaleBy {pc b : Shape} {c : ℝ × ℝ} (h1 : 0 < c.1) (h2 : 0 < c.2)
    (h : boundingBox pc = .ok b) : toRect (scaleBy c b) = toRect (scaleBy c pc) := by
  obtain ⟨hne, rfl⟩ := boundingBox_ok h
  have hf : pc.map Prod.fst ≠ [] := by simpa using hne
  have hs : pc.map Prod.snd ≠ [] := by simpa using hne
  have m1 : Monotone fun x => c.1 * x := fun x y hxy => mul_le_mul_of_nonneg_left hxy h1.le
  have m2 : Monotone fun x => c.2 * x := fun x y hxy => mul_le_mul_of_nonneg_left hxy h2.le
  have key : ∀ q : Shape, q ≠ [] → toRect (scaleBy c q) = .ok
      ⟨pyInt (c.2 * npMin (q.map Prod.snd)), pyInt (c.1 * npMin (q.map Prod.fst)),
        pyInt (c.2 * npMax (q.map Prod.snd)), pyInt (c.1 * npMax (q.map Prod.fst))⟩ := by
    intro q hq
    have e1 : (scaleBy c q).map Prod.fst = q.map fun p => c.1 * p.1 := by simp [scaleBy]
    have e2 : (scaleBy c q).map Prod.snd = q.map fun p => c.2 * p.2 := by simp [scaleBy]
    unfold toRect
    rw [if_neg (by simpa [scaleBy] using hq), e1, e2, npMin_map Prod.fst _ m1 q hq,
      npMin_map Prod.snd _ m2 q hq, npMax_map Prod.fst _ m1 q hq, npMax_map Prod.snd _ m2 q hq]
  rw [key pc hne, key _ (by simp [boxOf])]
  obtain ⟨e1, e2, e3, e4⟩ := box_bounds (npMin (pc.map Prod.fst), npMin (pc.map Prod.snd))
    (npMax (pc.map Prod.fst), npMax (pc.map Prod.snd)) (npMin_le_npMax hf) (npMin_le_npMax hs)
  rw [e1, e2, e3, e4]

theorem scaleBy_one (s : Shape) : scaleBy (1, 1) s = s := by simp [scaleBy]

theorem scaleBy_scaleBy (c d : ℝ × ℝ) (s : Shape) :
    scaleBy c (scaleBy d s) = scaleBy (c.1 * d.1, c.2 * d.2) s := by
  simp [scaleBy, Function.comp_def, mul_assoc]

theorem toRect_boundingBox {pc b : Shape} (h : boundingBox pc = .ok b) : toRect b = toRect pc := by
  have := toRect_scaleBy (c := (1, 1)) one_pos one_pos h
  rwa [scaleBy_one, scaleBy_one] at this

theorem toDetection_ok {bb gt : Shape} {d : Detection} (h : toDetection bb gt = .ok d) :
    toRect bb = .ok d.rect ∧ d.parts = toParts gt := by
  unfold toDetection at h
  obtain ⟨b, h1, h⟩ := bind_ok h
  obtain ⟨r, h2, h⟩ := bind_ok h
  injection h with h
  subst h
  exact ⟨by rw [← toRect_boundingBox h1]; exact h2, rfl⟩

theorem mapM_detections {gt : Shape} : ∀ {bbs : List Shape} {d : List Detection},
    bbs.mapM (fun bb => toDetection bb gt) = .ok d →
    List.Forall₂ (fun bb (x : Detection) => toRect bb = .ok x.rect ∧ x.parts = toParts gt) bbs d
  | [], d, h => by
    cases h
    exact .nil
  | b :: bbs, d, h => by
    rw [List.mapM_cons] at h
    obtain ⟨x, h1, h⟩ := bind_ok h
    obtain ⟨xs, h2, h⟩ := bind_ok h
    cases h
    exact .cons (toDetection_ok h1) (mapM_detections h2)

theorem detections_ok {I : Type} : ∀ {bs : List (List Shape)} {ims : List I} {gts : List Shape}
    {ds : List (List Detection)}, detections bs ims gts = .ok ds → ims.length = bs.length →
    gts.length = bs.length → ds.length = bs.length ∧
    ∀ (k : Nat) (bbs : List Shape) (gt : Shape), bs[k]? = some bbs → gts[k]? = some gt →
      ∃ d, ds[k]? = some d ∧
        List.Forall₂ (fun bb (x : Detection) => toRect bb = .ok x.rect ∧ x.parts = toParts gt) bbs d
  | [], ims, gts, ds, h, _, _ => by
    unfold detections at h
    cases h
    simp
  | b :: bs, [], gts, ds, h, h1, _ => by simp at h1
  | b :: bs, i :: ims, [], ds, h, _, h2 => by simp at h2
  | b :: bs, i :: ims, gt :: gts, ds, h, h1, h2 => by
    unfold detections at h
    obtain ⟨d, e1, h⟩ := bind_ok h
    obtain ⟨ds', e2, h⟩ := bind_ok h
    cases h
    obtain ⟨l1, l2⟩ := detections_ok e2 (by simpa using h1) (by simpa using h2)
    refine ⟨by simp [l1], fun k bbs g hb hg => ?_⟩
    cases k with
    | zero =>
      simp only [List.getElem?_cons_zero, Option.some.injEq] at hb hg
      subst hb hg
      exact ⟨d, rfl, mapM_detections e1⟩
    | succ k => exact l2 k bbs g (by simpa using hb) (by simpa using hg)

theorem updateBoxes_length {lib : Lib Pix M} {m : M} {pix : Pix} : ∀ {bbs : List Shape}
    {ds : List Detection} {out : List Shape}, updateBoxes lib m pix bbs ds = .ok out →
    out.length = bbs.length
  | [], ds, out, h => by
    unfold updateBoxes at h
    cases h
    rfl
  | b :: bbs, [], out, h => by
    unfold updateBoxes at h
    cases h
    rfl
  | b :: bbs, d :: ds, out, h => by
    unfold updateBoxes at h
    obtain ⟨_, _, h⟩ := bind_ok h
    obtain ⟨_, _, h⟩ := bind_ok h
    obtain ⟨rest, e, h⟩ := bind_ok h
    cases h
    simp [updateBoxes_length e]

theorem updateAll_lengths {lib : Lib Pix M} {m : M} : ∀ {bs : List (List Shape)} {ps : List Pix}
    {ds : List (List Detection)} {out : List (List Shape)}, updateAll lib m bs ps ds = .ok out →
    out.map List.length = bs.map List.length
  | [], ps, ds, out, h => by
    unfold updateAll at h
    cases h
    rfl
  | b :: bs, [], ds, out, h => by
    unfold updateAll at h
    cases h
    rfl
  | b :: bs, p :: ps, [], out, h => by
    unfold updateAll at h
    cases h
    rfl
  | b :: bs, p :: ps, d :: ds, out, h => by
    unfold updateAll at h
    obtain ⟨o, e1, h⟩ := bind_ok h
    obtain ⟨rest, e2, h⟩ := bind_ok h
    cases h
    simp [updateBoxes_length e1, updateAll_lengths e2]

theorem updateBoxes_ok {lib : Lib Pix M} {m : M} {pix : Pix} {gt : Shape} : ∀ {bbs : List Shape}
    {ds : List Detection} {out : List Shape}, updateBoxes lib m pix bbs ds = .ok out →
    List.Forall₂ (fun bb (x : Detection) => toRect bb = .ok x.rect ∧ x.parts = toParts gt) bbs ds →
    List.Forall₂ (fun bb o => ∃ s, runAlg lib m pix bb = .ok s ∧ boundingBox s = .ok o) bbs out
  | [], ds, out, h, _ => by
    unfold updateBoxes at h
    cases h
    exact .nil
  | b :: bbs, [], out, h, hd => by cases hd
  | b :: bbs, d :: ds, out, h, hd => by
    unfold updateBoxes at h
    obtain ⟨s, e1, h⟩ := bind_ok h
    obtain ⟨o, e2, h⟩ := bind_ok h
    obtain ⟨rest, e, h⟩ := bind_ok h
    cases h
    cases hd with
    | cons h1 h2 =>
      refine .cons ⟨s, ?_, e2⟩ (updateBoxes_ok e h2)
      unfold runAlg
      rw [h1.1]
      exact e1

theorem updateAll_ok {lib : Lib Pix M} {m : M} : ∀ {bs : List (List Shape)} {ps : List Pix}
    {gts : List Shape} {ds : List (List Detection)} {out : List (List Shape)},
    updateAll lib m bs ps ds = .ok out → gts.length = bs.length → ds.length = bs.length →
    (∀ (k : Nat) (bbs : List Shape) (gt : Shape), bs[k]? = some bbs → gts[k]? = some gt →
      ∃ d, ds[k]? = some d ∧
        List.Forall₂ (fun bb (x : Detection) => toRect bb = .ok x.rect ∧ x.parts = toParts gt)
          bbs d) →
    ∀ (k : Nat) (bbs : List Shape) (pix : Pix), bs[k]? = some bbs → ps[k]? = some pix →
      ∃ o, out[k]? = some o ∧
        List.Forall₂ (fun bb o => ∃ s, runAlg lib m pix bb = .ok s ∧ boundingBox s = .ok o) bbs o
  | [], ps, gts, ds, out, _, _, _, _ => by
    intro k bbs pix hb
    simp at hb
  | b :: bs, [], gts, ds, out, _, _, _, _ => by
    intro k bbs pix _ hp
    simp at hp
  | b :: bs, p :: ps, gts, [], out, _, _, hd, _ => by simp at hd
  | b :: bs, p :: ps, [], d :: ds, out, _, hg, _, _ => by simp at hg
  | b :: bs, p :: ps, gt :: gts, d :: ds, out, h, hg, hd, hds => by
    unfold updateAll at h
    obtain ⟨o, e1, h⟩ := bind_ok h
    obtain ⟨rest, e2, h⟩ := bind_ok h
    cases h
    intro k bbs pix hb hp
    cases k with
    | zero =>
      simp only [List.getElem?_cons_zero, Option.some.injEq] at hb hp
      subst hb hp
      obtain ⟨d', hd', hf⟩ := hds 0 b gt rfl rfl
      simp only [List.getElem?_cons_zero, Option.some.injEq] at hd'
      subst hd'
      exact ⟨o, rfl, updateBoxes_ok e1 hf⟩
    | succ k =>
      exact updateAll_ok e2 (by simpa using hg) (by simpa using hd)
        (fun k bbs gt hb hg => hds (k + 1) bbs gt (by simpa using hb) (by simpa using hg))
        k bbs pix (by simpa using hb) (by simpa using hp)

theorem trainAlg_counts {lib : Lib Pix M} {j : Nat} {ps : List Pix} {gts : List Shape}
    {bs : List (List Shape)} {r : M × List (List Shape)} (h : trainAlg lib j ps gts bs = .ok r) :
    r.2.map List.length = bs.map List.length := by
  unfold trainAlg at h
  obtain ⟨ds, _, h⟩ := bind_ok h
  obtain ⟨m, _, h⟩ := bind_ok h
  obtain ⟨out, e, h⟩ := bind_ok h
  cases h
  exact updateAll_lengths e

theorem ertOps_counts {P : Type} (lib : Lib Pix M) (pixels : P → Pix)
    (rescale : Nat → Perturb.Im Shape P → Except PyErr (Perturb.Im Shape P × (ℝ × ℝ))) :
    KeepsCounts (ertOps lib pixels rescale) := by
  intro j ims gts cur out h
  simp only [ertOps] at h
  obtain ⟨r, e, h⟩ := bind_ok h
  cases h
  exact trainAlg_counts e

/-- What one scale of the training establishes. -/
def Established {P : Type} (lib : Lib Pix M) (pixels : P → Pix) (j : Nat)
    (a : Scale Shape P (ℝ × ℝ)) (m : M) : Prop :=
  TrainedOn lib pixels j a m ∧
  ∀ (k : Nat) (bbs : List Shape) (im : Perturb.Im Shape P), a.input[k]? = some bbs →
    a.images[k]? = some im →
    ∃ o, a.output[k]? = some o ∧
      List.Forall₂ (fun bb o => ∃ s, runAlg lib m (pixels im.px) bb = .ok s ∧
        boundingBox s = .ok o) bbs o

theorem established {P : Type} {lib : Lib Pix M} {pixels : P → Pix}
    {rescale : Nat → Perturb.Im Shape P → Except PyErr (Perturb.Im Shape P × (ℝ × ℝ))}
    {group : String} {n j : Nat} {src : List (Perturb.Im Shape P)} {a : Scale Shape P (ℝ × ℝ)}
    {key : Nat → String} {align : Shape → Shape}
    (h : atScale { ertOps lib pixels rescale with key := key, align := align } group n j src = .ok a) :
    ∃ m, Established lib pixels j a m := by
  unfold atScale at h
  obtain ⟨scaled, h1, h⟩ := bind_ok h
  obtain ⟨gts, h2, h⟩ := bind_ok h
  obtain ⟨cur, h3, h⟩ := bind_ok h
  obtain ⟨out, h4, h⟩ := bind_ok h
  cases h
  have l1 := input_length h3
  have l2 := mapM_length h2
  simp only [ertOps] at h4
  obtain ⟨r, e, h4⟩ := bind_ok h4
  cases h4
  unfold trainAlg at e
  obtain ⟨ds, e1, e⟩ := bind_ok e
  obtain ⟨m, e2, e⟩ := bind_ok e
  obtain ⟨out, e3, e⟩ := bind_ok e
  cases e
  obtain ⟨d1, d2⟩ := detections_ok e1 (by simpa using l1.symm) (by rw [l2, l1])
  refine ⟨m, ⟨ds, e2, d1, d2⟩, ?_⟩
  intro k bbs im hb hi
  exact updateAll_ok e3 (by rw [l2, l1]) d1 d2 k bbs (pixels im.px) hb (by
    simp only at hi
    rw [List.getElem?_map, hi]
    rfl)

theorem ert_scales {S P T : Type} {ops : Ops S P T} {group : String} {n : Nat} :
    ∀ (m j : Nat) (batch : List (Perturb.Im S P)) (r : List (Scale S P T) × List (Perturb.Im S P)),
      ertLoop ops group n m j batch = .ok r →
      ∀ i a, r.1[i]? = some a → ∃ src, atScale ops group n (j + i) src = .ok a
  | 0, j, batch, r, h => by
    unfold ertLoop at h
    obtain ⟨sc, h1, h⟩ := bind_ok h
    cases h
    intro i a hi
    cases i with
    | zero =>
      simp only [List.getElem?_cons_zero, Option.some.injEq] at hi
      subst hi
      exact ⟨_, h1⟩
    | succ i => simp at hi
  | m + 1, j, batch, r, h => by
    unfold ertLoop at h
    obtain ⟨sc, h1, h⟩ := bind_ok h
    obtain ⟨st, h2, h⟩ := bind_ok h
    obtain ⟨rest, h3, h⟩ := bind_ok h
    cases h
    intro i a hi
    cases i with
    | zero =>
      simp only [List.getElem?_cons_zero, Option.some.injEq] at hi
      subst hi
      exact ⟨_, h1⟩
    | succ i =>
      obtain ⟨src, hs⟩ := ert_scales m (j + 1) st rest h3 i a (by simpa using hi)
      exact ⟨src, by rw [← hs]; congr 1; omega⟩

theorem exists_list {α β : Type} {Q : Nat → α → β → Prop} : ∀ (l : List α) (j : Nat),
    (∀ i a, l[i]? = some a → ∃ b, Q (j + i) a b) →
    ∃ bs : List β, bs.length = l.length ∧
      ∀ i a b, l[i]? = some a → bs[i]? = some b → Q (j + i) a b
  | [], j, _ => ⟨[], rfl, by simp⟩
  | a :: l, j, h => by
    obtain ⟨b, hb⟩ := h 0 a rfl
    obtain ⟨bs, h1, h2⟩ := exists_list l (j + 1) (fun i x hx => by
      obtain ⟨y, hy⟩ := h (i + 1) x (by simpa using hx)
      exact ⟨y, by rwa [show j + 1 + i = j + (i + 1) by omega]⟩)
    refine ⟨b :: bs, by simp [h1], ?_⟩
    intro i x y hx hy
    cases i with
    | zero =>
      simp only [List.getElem?_cons_zero, Option.some.injEq] at hx hy
      subst hx hy
      exact hb
    | succ i =>
      have := h2 i x y (by simpa using hx) (by simpa using hy)
      rwa [show j + 1 + i = j + (i + 1) by omega] at this

/-- The other direction of rescaling. -/
def unscale (t : ℝ × ℝ) (s : Shape) : Shape := scaleBy (t.1⁻¹, t.2⁻¹) s

theorem perm_symm_scale {p : Equiv.Perm Shape} {t : ℝ × ℝ} (h1 : 0 < t.1) (h2 : 0 < t.2)
    (h : ∀ s, p s = scaleBy t s) (s : Shape) : p⁻¹ s = unscale t s := by
  rw [Equiv.Perm.inv_eq_iff_eq, h, unscale, scaleBy_scaleBy, mul_inv_cancel₀ h1.ne',
    mul_inv_cancel₀ h2.ne', scaleBy_one]

theorem forall₂_getElem? {α β : Type} {R : α → β → Prop} {l : List α} {r : List β}
    (h : List.Forall₂ R l r) (i : Nat) (x : α) (hi : l[i]? = some x) :
    ∃ y, r[i]? = some y ∧ R x y := by
  induction h generalizing i with
  | nil => simp at hi
  | cons h _ ih =>
    cases i with
    | zero =>
      simp only [List.getElem?_cons_zero, Option.some.injEq] at hi
      subst hi
      exact ⟨_, rfl, h⟩
    | succ i => exact ih i (by simpa using hi)

/-- Box `l` of image `k` goes from one scale to the next. -/
def CarriedAt {S P T : Type} (apply inv : T → S → S) (k l : Nat) (a b : Scale S P T) : Prop :=
  ∀ o x t t', a.output[k]? = some o → o[l]? = some x → a.transforms[k]? = some t →
    b.transforms[k]? = some t' →
    ∃ bbs, b.input[k]? = some bbs ∧ bbs[l]? = some (inv t' (apply t x))

theorem carriedAt_of {S P T : Type} {ops : Ops S P T} {inv : T → S → S}
    (hm : MovesLandmarks ops inv) {group : String} {n j k l : Nat} (hl : l < n)
    {src' : List (Perturb.Im S P)} {a b : Scale S P T}
    (hb : atScale ops group n (j + 1) src' = .ok b)
    (hh : List.Forall₂ (Holds ops.key) src'
      (List.zipWith (fun t o => o.map (ops.apply t)) a.transforms a.output)) :
    CarriedAt ops.apply inv k l a b := by
  intro o x t t' ho hx ht ht'
  obtain ⟨sb, b1, b2, b3, b4, b5, -⟩ := atScale_ok hb
  unfold startShapes at b5
  rw [if_neg (Nat.succ_ne_zero j), b2] at b5
  rw [b3, List.getElem?_map] at ht'
  cases hq : sb[k]? with
  | none => rw [hq] at ht'; cases ht'
  | some q =>
    rw [hq] at ht'
    cases ht'
    have hk : k < src'.length := by
      have := (List.getElem?_eq_some_iff.1 hq).1
      omega
    obtain ⟨y, hy1, hy2⟩ := mapM_get b1 k src'[k] (by simp [hk])
    rw [hq] at hy2
    cases hy2
    obtain ⟨z, hz1, hz2⟩ := forall₂_getElem? hh k src'[k] (by simp [hk])
    rw [List.getElem?_zipWith, ht, ho] at hz1
    cases hz1
    obtain ⟨bbs, e1, e2⟩ := mapM_get b5 k q.1 (by rw [List.getElem?_map, hq]; rfl)
    refine ⟨bbs, e2, ?_⟩
    obtain ⟨w, w1, w2⟩ := mapM_get e1 l l (by rw [List.getElem?_range hl])
    have hw := hz2 l (ops.apply t x) (by rw [List.getElem?_map, hx]; rfl)
    simp only [Perturb.getGroup, hm.rescale _ _ _ _ hy1, lookup_map, hw, Option.map_some] at w1
    cases w1
    exact w2

theorem ertLoop_carried {S P T : Type} {ops : Ops S P T} {inv : T → S → S}
    (hm : MovesLandmarks ops inv) (hc : KeepsCounts ops)
    (hk : ∀ j k, ops.key j = ops.key k → j = k) {group : String} {n k l : Nat} (hl : l < n) :
    ∀ (m j : Nat) (batch : List (Perturb.Im S P)) (r : List (Scale S P T) × List (Perturb.Im S P)),
      ertLoop ops group n m j batch = .ok r →
      ∃ a tr, r.1 = a :: tr ∧ tr.length = m ∧ atScale ops group n j batch = .ok a ∧
        List.IsChain (CarriedAt ops.apply inv k l) (a :: tr)
  | 0, j, batch, r, h => by
    unfold ertLoop at h
    obtain ⟨sc, h1, h⟩ := bind_ok h
    cases h
    exact ⟨sc, [], rfl, rfl, h1, by simp⟩
  | m + 1, j, batch, r, h => by
    unfold ertLoop at h
    obtain ⟨sc, h1, h⟩ := bind_ok h
    obtain ⟨st, h2, h⟩ := bind_ok h
    obtain ⟨rest, h3, h⟩ := bind_ok h
    cases h
    obtain ⟨sa, a1, a2, a3, a4, a5, a6⟩ := atScale_ok h1
    have hal := hc _ _ _ _ _ a6
    have hol : sc.output.length = batch.length := by
      rw [show sc.output.length = sc.input.length by simpa using congrArg List.length hal,
        input_length a5, a2, List.length_map, a4]
    have htl : sc.transforms.length = batch.length := by
      rw [a3, List.length_map, a4]
    obtain ⟨a, tr, e1, e2, e3, e4⟩ := ertLoop_carried hm hc hk hl m (j + 1) st rest h3
    refine ⟨sc, a :: tr, by rw [e1], by simp [e2], h1, ?_⟩
    exact List.IsChain.cons_cons (carriedAt_of hm hl e3 (attachAll_ok hk h2 hol htl)) e4

/-- Fitting a training image from a shape with the rectangle of a training box retraces the training
of that box. -/
theorem retrace {P F : Type} [DecidableEq F] {lib : Lib Pix M} {pixels : P → Pix} {k l : Nat} :
    ∀ (j : Nat) (as : List (Scale Shape P (ℝ × ℝ))) (ms : List M)
      (levels : List (Fitter.Level Shape P F Shape)) (x : Shape),
      ms.length = as.length → levels.length = as.length →
      (∀ i a m, as[i]? = some a → ms[i]? = some m → Established lib pixels (j + i) a m) →
      (∀ (i : Nat) a m L, as[i]? = some a → ms[i]? = some m → levels[i]? = some L →
        LevelOf lib pixels k a m L) →
      (∀ L ∈ levels, ∀ L' ∈ levels, L.feature = L'.feature) →
      (∀ L ∈ levels, ∀ L' ∈ levels, L.sc = L'.sc → L.scale = L'.scale) →
      (∀ a ∈ as, ∀ t ∈ a.transforms, 0 < t.1 ∧ 0 < t.2) →
      List.IsChain (CarriedAt scaleBy unscale k l) as →
      (∀ a, as[0]? = some a → ∃ bbs b, a.input[k]? = some bbs ∧ bbs[l]? = some b ∧
        toRect x = toRect b) →
      ∃ shapes, Fitter.fitLoop id x levels = .ok shapes ∧ shapes.length = as.length ∧
        ∀ (i : Nat) (a : Scale Shape P (ℝ × ℝ)) (s : Shape), as[i]? = some a → shapes[i]? = some s →
          ∃ o b, a.output[k]? = some o ∧ o[l]? = some b ∧ boundingBox s = .ok b
  | j, [], ms, levels, x, _, hl, _, _, _, _, _, _, _ => by
    have : levels = [] := by simpa using hl
    subst this
    exact ⟨[], rfl, rfl, by simp⟩
  | j, a :: as, [], levels, x, hm, _, _, _, _, _, _, _, _ => by simp at hm
  | j, a :: as, m :: ms, [], x, _, hl, _, _, _, _, _, _, _ => by simp at hl
  | j, a :: as, m :: ms, L :: levels, x, hm, hl, hE, hL, hF, hS, hp, hc, hx => by
    obtain ⟨bbs, b, hi, hb, hr⟩ := hx a rfl
    have hL0 := hL 0 a m L rfl rfl rfl
    obtain ⟨im, him, hpx⟩ := hL0.image
    obtain ⟨t, ht, hts⟩ := hL0.scale
    obtain ⟨o, ho, hf⟩ := (hE 0 a m rfl rfl).2 k bbs im hi him
    obtain ⟨ob, hob, s, hrun, hbox⟩ := forall₂_getElem? hf l b hb
    have htp := hp a (by simp) t (List.mem_of_getElem? ht)
    have halg : L.alg L.image x L.gt L.iters = .ok s := by
      rw [hL0.alg, ← hpx, ← hrun]
      unfold runAlg
      rw [hr]
    have hrest : ∃ shapes, (match levels with
        | [] => .ok []
        | L' :: _ => Fitter.fitLoop id (Fitter.carry L L' (id s)) levels :
          Except PyErr (List Shape)) = .ok shapes ∧ shapes.length = as.length ∧
        ∀ (i : Nat) (a : Scale Shape P (ℝ × ℝ)) (s : Shape), as[i]? = some a → shapes[i]? = some s →
          ∃ o b, a.output[k]? = some o ∧ o[l]? = some b ∧ boundingBox s = .ok b := by
      cases levels with
      | nil =>
        have : as = [] := by simpa using hl.symm
        subst this
        exact ⟨[], rfl, rfl, by simp⟩
      | cons L' levels =>
        cases as with
        | nil => simp at hl
        | cons a' as =>
          cases ms with
          | nil => simp at hm
          | cons m' ms =>
            have hL1 := hL 1 a' m' L' rfl rfl rfl
            obtain ⟨t', ht', hts'⟩ := hL1.scale
            have htp' := hp a' (by simp) t' (List.mem_of_getElem? ht')
            have hcar : CarriedAt scaleBy unscale k l a a' := (List.isChain_cons_cons.1 hc).1
            refine retrace (lib := lib) (pixels := pixels) (j + 1) (a' :: as) (m' :: ms) (L' :: levels) _ (by simpa using hm)
              (by simpa using hl) ?_ ?_ (fun A hA B hB => hF A (by simp [hA]) B (by simp [hB]))
              (fun A hA B hB => hS A (by simp [hA]) B (by simp [hB]))
              (fun A hA => hp A (by simp [hA])) (List.isChain_cons_cons.1 hc).2 ?_
            · intro i A B hA hB
              rw [show j + 1 + i = j + (i + 1) by omega]
              exact hE (i + 1) A B (by simpa using hA) (by simpa using hB)
            · intro i A B C hA hB hC
              exact hL (i + 1) A B C (by simpa using hA) (by simpa using hB) (by simpa using hC)
            · intro A hA
              simp only [List.getElem?_cons_zero, Option.some.injEq] at hA
              subst hA
              obtain ⟨bbs', q1, q2⟩ := hcar o ob t t' ho hob ht ht'
              refine ⟨bbs', unscale t' (scaleBy t ob), q1, q2, ?_⟩
              · have hcarry : Fitter.carry L L' (id s) = unscale t' (scaleBy t s) := by
                  unfold Fitter.carry
                  have e := hF L' (by simp) L (by simp)
                  rw [if_neg (by simp [e])]
                  split
                  · rw [Equiv.Perm.mul_apply, id, hts, perm_symm_scale htp'.1 htp'.2 hts']
                  · rename_i hne
                    have hsc : L.sc = L'.sc := by
                      by_contra hh
                      exact hne ⟨e, hh⟩
                    have := hS L (by simp) L' (by simp) hsc
                    rw [← perm_symm_scale htp'.1 htp'.2 hts', ← this, ← hts]
                    simp
                rw [hcarry]
                unfold unscale
                rw [scaleBy_scaleBy, scaleBy_scaleBy]
                exact (toRect_scaleBy (mul_pos (inv_pos.2 htp'.1) htp.1)
                  (mul_pos (inv_pos.2 htp'.2) htp.2) hbox).symm
    obtain ⟨shapes, e1, e2, e3⟩ := hrest
    refine ⟨s :: shapes, ?_, by simp [e2], ?_⟩
    · unfold Fitter.fitLoop
      rw [halg]
      cases levels with
      | nil =>
        cases e1
        rfl
      | cons L' rest =>
        have e1' : Fitter.fitLoop id (Fitter.carry L L' (id s)) (L' :: rest) = .ok shapes := e1
        simp only [bind, Except.bind, e1']
        rfl
    · intro i A S hA hSs
      cases i with
      | zero =>
        simp only [List.getElem?_cons_zero, Option.some.injEq] at hA hSs
        subst hA hSs
        exact ⟨o, ob, ho, hob, hbox⟩
      | succ i => exact e3 i A S (by simpa using hA) (by simpa using hSs)

end

end Dlib
end Menpofit
