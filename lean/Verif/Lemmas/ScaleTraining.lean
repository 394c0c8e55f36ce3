import Verif.Spec.ScaleTraining
import Verif.Lemmas.Perturb
/-!
# Lemmas about training over several scales
-/

namespace Menpofit
open ScaleTrain Perturb Spec

variable {S P T : Type}

theorem numbered_inj {p : String} {j k : Nat} (h : p ++ toString j = p ++ toString k) : j = k := by
  have h1 : toString j = toString k := by
    have := congrArg String.toList h
    rw [String.toList_append, String.toList_append] at this
    exact String.toList_injective (List.append_cancel_left this)
  have h2 := Nat.toNat?_repr j
  have h3 := Nat.toNat?_repr k
  have e : Nat.repr j = Nat.repr k := h1
  rw [e, h3] at h2
  exact (Option.some.inj h2).symm

theorem lookup_attach_other (ops : Ops S P T) (t : T) (x : String) :
    ∀ (ss : List S) (lms : List (String × S)) (k : Nat),
      (∀ i, i < ss.length → x ≠ ops.key (k + i)) →
      lookup (attachShapes ops t lms k ss) x = lookup lms x
  | [], _, _, _ => rfl
  | s :: ss, lms, k, h => by
    rw [attachShapes, lookup_attach_other ops t x ss _ _ (fun i hi => by
      have := h (i + 1) (by simpa using hi)
      rwa [show k + (i + 1) = k + 1 + i by omega] at this), lookup_assign,
      if_neg (by simpa using h 0 (by simp))]

theorem lookup_attach (ops : Ops S P T) (hk : ∀ j k, ops.key j = ops.key k → j = k) (t : T) :
    ∀ (ss : List S) (lms : List (String × S)) (k i : Nat) (s : S), ss[i]? = some s →
      lookup (attachShapes ops t lms k ss) (ops.key (k + i)) = some (ops.apply t s)
  | [], _, _, _, _, h => by simp at h
  | a :: ss, lms, k, i, s, h => by
    cases i with
    | zero =>
      simp only [List.getElem?_cons_zero, Option.some.injEq] at h
      subst h
      rw [attachShapes, lookup_attach_other _ _ _ _ _ _ (fun i _ he => by
        have := hk _ _ he; omega), lookup_assign, if_pos (by rw [Nat.add_zero])]
    | succ i =>
      rw [List.getElem?_cons_succ] at h
      rw [attachShapes, show k + (i + 1) = k + 1 + i by omega,
        lookup_attach ops hk t ss _ _ _ _ h]

/-- The image carries these shapes under the numbered keys. -/
def Holds (key : Nat → String) (im : Im S P) (o : List S) : Prop :=
  ∀ (k : Nat) (s : S), o[k]? = some s → lookup im.lms (key k) = some s

theorem attachAll_ok {ops : Ops S P T} (hk : ∀ j k, ops.key j = ops.key k → j = k) :
    ∀ {ims : List (Im S P)} {ts : List T} {os : List (List S)} {r : List (Im S P)},
      attachAll ops ims ts os = .ok r → os.length = ims.length → ts.length = ims.length →
      List.Forall₂ (Holds ops.key) r (List.zipWith (fun t o => o.map (ops.apply t)) ts os)
  | [], ts, [], r, h, _, _ => by
    simp only [attachAll] at h
    injection h with h
    subst h
    simp
  | [], _, _ :: _, _, _, h, _ => by simp at h
  | _ :: _, _, [], _, _, h, _ => by simp at h
  | _ :: _, [], _ :: _, _, _, _, h => by simp at h
  | im :: ims, t :: ts, o :: os, r, h, h1, h2 => by
    simp only [attachAll] at h
    obtain ⟨q, hq, h⟩ := bind_ok h
    injection h with h
    subst h
    rw [List.zipWith_cons_cons]
    refine .cons ?_ (attachAll_ok hk hq (by simpa using h1) (by simpa using h2))
    intro k s hs
    rw [List.getElem?_map] at hs
    cases ho : o[k]? with
    | none => rw [ho] at hs; cases hs
    | some x =>
      rw [ho] at hs
      injection hs with hs
      subst hs
      have := lookup_attach ops hk t o im.lms 0 k x ho
      rwa [Nat.zero_add] at this

theorem attachAll_length {ops : Ops S P T} :
    ∀ {ims : List (Im S P)} {ts : List T} {os : List (List S)} {r : List (Im S P)},
      attachAll ops ims ts os = .ok r → r.length = ims.length
  | ims, ts, [], r, h => by
    simp only [attachAll] at h
    injection h with h
    rw [h]
  | [], _, _ :: _, _, h => by simp [attachAll] at h
  | _ :: _, [], _ :: _, _, h => by simp [attachAll] at h
  | im :: ims, t :: ts, o :: os, r, h => by
    simp only [attachAll] at h
    obtain ⟨q, hq, h⟩ := bind_ok h
    injection h with h
    subst h
    simp [attachAll_length hq]

theorem lookup_map (lms : List (String × S)) (f : S → S) (x : String) :
    lookup (lms.map fun y => (y.1, f y.2)) x = (lookup lms x).map f := by
  induction lms with
  | nil => rfl
  | cons a l ih =>
    rw [List.map_cons, lookup_cons, lookup_cons, ih]
    by_cases h : a.1 = x <;> simp [h]

theorem generatedBoxes_map {im im' : Im S P} {f : S → S}
    (h : im'.lms = im.lms.map fun y => (y.1, f y.2)) :
    generatedBoxes im' = (generatedBoxes im).map f := by
  unfold generatedBoxes matching
  rw [h]
  induction im.lms with
  | nil => rfl
  | cons a l ih =>
    rw [List.map_cons, List.filter_cons, List.filter_cons]
    by_cases ha : isGen a.1 = true
    · simp only [ha, if_true, List.map_cons, ih]
    · simp only [ha, Bool.false_eq_true, if_false, ih]

theorem getKeys_ok {key : Nat → String} {im : Im S P} {n : Nat} {l o : List S} {f : S → S}
    (h : (List.range n).mapM (fun k => getGroup im (some (key k))) = .ok l)
    (ho : o.length = n) (hh : Holds key im (o.map f)) : l = o.map f := by
  apply List.ext_getElem?
  intro i
  have hl := mapM_length h
  rw [List.length_range] at hl
  by_cases hi : i < n
  · obtain ⟨y, hy, hly⟩ := mapM_get h i i (by rw [List.getElem?_range hi])
    have hs : (o.map f)[i]? = some ((o.map f)[i]'(by simp; omega)) :=
      List.getElem?_eq_getElem _
    have := hh i _ hs
    simp only [getGroup, this] at hy
    injection hy with hy
    rw [hly, hs, hy]
  · rw [List.getElem?_eq_none (by omega), List.getElem?_eq_none (by simp; omega)]

/-- The shapes later scales start with. -/
theorem start_later {ops : Ops S P T} {inv : T → S → S} (hm : MovesLandmarks ops inv) {n j : Nat} :
    ∀ {src : List (Im S P)} {scaled : List (Im S P × T)} {shapes inp : List (List S)},
      List.Forall₂ (Holds ops.key) src shapes → (∀ o ∈ shapes, o.length = n) →
      src.mapM (ops.rescale j) = .ok scaled →
      (scaled.map Prod.fst).mapM (fun ii => (List.range n).mapM fun k =>
        getGroup ii (some (ops.key k))) = .ok inp →
      inp = List.zipWith (fun t o => o.map (inv t)) (scaled.map Prod.snd) shapes ∧
      inp.length = shapes.length
  | [], scaled, _, inp, .nil, _, h1, h2 => by
    rw [mapM_nil_ok] at h1
    subst h1
    rw [List.map_nil, mapM_nil_ok] at h2
    subst h2
    simp
  | im :: src, scaled, _, inp, .cons (b := o) (l₂ := shapes) hh hhs, hn, h1, h2 => by
    obtain ⟨b, r, e1, e2, rfl⟩ := mapM_cons_ok.1 h1
    rw [List.map_cons] at h2
    obtain ⟨c, q, e3, e4, rfl⟩ := mapM_cons_ok.1 h2
    obtain ⟨i1, i2⟩ := start_later hm hhs (fun o ho => hn o (by simp [ho])) e2 e4
    have hb : Holds ops.key b.1 (o.map (inv b.2)) := by
      intro k s hs
      rw [List.getElem?_map] at hs
      cases ho : o[k]? with
      | none => rw [ho] at hs; cases hs
      | some x =>
        rw [ho] at hs
        rw [hm.rescale j im b.1 b.2 e1, lookup_map, hh k x ho]
        exact hs
    refine ⟨?_, by simp [i2]⟩
    rw [List.map_cons, List.zipWith_cons_cons, ← i1, getKeys_ok e3 (hn o (by simp)) hb]

theorem atScale_ok {ops : Ops S P T} {group : String} {n j : Nat} {src : List (Im S P)}
    {sc : Scale S P T} (h : atScale ops group n j src = .ok sc) :
    ∃ scaled, src.mapM (ops.rescale j) = .ok scaled ∧ sc.images = scaled.map Prod.fst ∧
      sc.transforms = scaled.map Prod.snd ∧ scaled.length = src.length ∧
      startShapes ops n j sc.images = .ok sc.input ∧
      ops.algo j sc.images sc.gts sc.input = .ok sc.output := by
  unfold atScale at h
  obtain ⟨scaled, h1, h⟩ := bind_ok h
  obtain ⟨gts, h2, h⟩ := bind_ok h
  obtain ⟨cur, h3, h⟩ := bind_ok h
  obtain ⟨out, h4, h⟩ := bind_ok h
  injection h with h
  subst h
  exact ⟨scaled, h1, rfl, rfl, mapM_length h1, h3, h4⟩

/-- Every scale starts with one list of shapes per image. -/
theorem input_length {ops : Ops S P T} {n j : Nat} {ims : List (Im S P)} {inp : List (List S)}
    (h : startShapes ops n j ims = .ok inp) : inp.length = ims.length := by
  unfold startShapes at h
  split at h
  · injection h with h
    rw [← h, List.length_map]
  · exact mapM_length h

/-- Every later scale starts with `n` shapes for every image. -/
theorem input_counts {ops : Ops S P T} {n j : Nat} {ims : List (Im S P)} {inp : List (List S)}
    (hj : j ≠ 0) (h : startShapes ops n j ims = .ok inp) : ∀ l ∈ inp, l.length = n := by
  unfold startShapes at h
  rw [if_neg hj] at h
  induction ims generalizing inp with
  | nil => rw [mapM_nil_ok] at h; subst h; simp
  | cons im ims ih =>
    obtain ⟨a, r, h1, h2, rfl⟩ := mapM_cons_ok.1 h
    intro l hl
    rcases List.mem_cons.1 hl with rfl | hl
    · rw [mapM_length h1, List.length_range]
    · exact ih h2 l hl

theorem zipWith_counts (f : T → List S → List S) (hf : ∀ t o, (f t o).length = o.length) :
    ∀ (ts : List T) (os : List (List S)), ts.length = os.length →
      (List.zipWith f ts os).map List.length = os.map List.length
  | [], [], _ => rfl
  | [], _ :: _, h => by simp at h
  | _ :: _, [], h => by simp at h
  | t :: ts, o :: os, h => by
    rw [List.zipWith_cons_cons, List.map_cons, List.map_cons, hf,
      zipWith_counts f hf ts os (by simpa using h)]

theorem forall_length_of_map {A : Type} {n : Nat} {l l' : List (List A)}
    (h : l.map List.length = l'.map List.length) (hl : ∀ o ∈ l', o.length = n) :
    ∀ o ∈ l, o.length = n := by
  intro o ho
  have : o.length ∈ l.map List.length := List.mem_map_of_mem ho
  rw [h] at this
  obtain ⟨x, hx, e⟩ := List.mem_map.1 this
  rw [← e, hl x hx]

/-- A scale followed by a scale whose images carry the shapes of the first. -/
theorem carried_of {ops : Ops S P T} {inv : T → S → S} (hm : MovesLandmarks ops inv)
    (hc : KeepsCounts ops) {group : String} {n j : Nat} {src src' : List (Im S P)}
    {a b : Scale S P T} (ha : atScale ops group n j src = .ok a)
    (hn : ∀ o ∈ a.input, o.length = n) (hlen : src'.length = src.length)
    (hb : atScale ops group n (j + 1) src' = .ok b)
    (hh : List.Forall₂ (Holds ops.key) src'
      (List.zipWith (fun t o => o.map (ops.apply t)) a.transforms a.output)) :
    Carried ops.apply inv a b := by
  obtain ⟨sa, a1, a2, a3, a4, a5, a6⟩ := atScale_ok ha
  obtain ⟨sb, b1, b2, b3, b4, b5, b6⟩ := atScale_ok hb
  have hal := hc _ _ _ _ _ a6
  have hal' : a.output.length = a.input.length := by simpa using congrArg List.length hal
  have hta : a.transforms.length = a.output.length := by
    rw [hal', input_length a5, a2, a3]; simp
  have hcount := zipWith_counts (fun (t : T) (o : List S) => o.map (ops.apply t)) (by simp)
    a.transforms a.output hta
  have hb5 := b5
  unfold startShapes at hb5
  rw [if_neg (Nat.succ_ne_zero j), b2] at hb5
  obtain ⟨s1, s2⟩ := start_later hm hh
    (forall_length_of_map hcount (forall_length_of_map hal hn)) b1 hb5
  refine ⟨by rw [b3]; exact s1, ?_⟩
  rw [s1, zipWith_counts _ (by simp), hcount]
  rw [List.length_map, b4, hlen, List.length_zipWith, hta, Nat.min_self, hal', input_length a5, a2,
    List.length_map, a4]

theorem feats_length {ops : Ops S P T} {j : Nat} {batch : List (Im S P)}
    {feats : Option (List (Im S P))} (h : ∀ f, feats = some f → f.length = batch.length) :
    ∀ f, nextFeatures ops j batch feats = some f → f.length = batch.length := by
  intro f hf
  unfold nextFeatures at hf
  split at hf
  · cases hf
  · split at hf
    · injection hf with hf
      rw [← hf, List.length_map]
    · exact h f hf

theorem getD_length {batch : List (Im S P)} {feats : Option (List (Im S P))}
    (h : ∀ f, feats = some f → f.length = batch.length) :
    (feats.getD batch).length = batch.length := by
  cases feats with
  | none => rfl
  | some f => exact h f rfl

/-- All scales of the loop. -/
theorem scaleLoop_ok {ops : Ops S P T} {inv : T → S → S} (hm : MovesLandmarks ops inv)
    (hc : KeepsCounts ops) (hk : ∀ j k, ops.key j = ops.key k → j = k) {group : String} {n : Nat} :
    ∀ (m j : Nat) (batch : List (Im S P)) (feats : Option (List (Im S P)))
      (r : List (Scale S P T) × List (Im S P)),
      scaleLoop ops group n m j batch feats = .ok r →
      (∀ f, feats = some f → f.length = batch.length) →
      ∃ a tr, r.1 = a :: tr ∧ tr.length = m ∧
        atScale ops group n j ((nextFeatures ops j batch feats).getD batch) = .ok a ∧
        (∀ b ∈ tr, ∀ l ∈ b.input, l.length = n) ∧
        ((∀ o ∈ a.input, o.length = n) → List.IsChain (Carried ops.apply inv) (a :: tr))
  | 0, j, batch, feats, r, h, hf => by
    unfold scaleLoop at h
    obtain ⟨sc, h1, h⟩ := bind_ok h
    obtain ⟨b, h2, h⟩ := bind_ok h
    injection h with h
    subst h
    exact ⟨sc, [], rfl, rfl, h1, by simp, fun _ => by simp⟩
  | m + 1, j, batch, feats, r, h, hf => by
    unfold scaleLoop at h
    obtain ⟨sc, h1, h⟩ := bind_ok h
    obtain ⟨st, h2, h⟩ := bind_ok h
    obtain ⟨rest, h3, h⟩ := bind_ok h
    injection h with h
    subst h
    have hfl := feats_length (ops := ops) (j := j) hf
    have hgl := getD_length hfl
    obtain ⟨sa, a1, a2, a3, a4, a5, a6⟩ := atScale_ok h1
    have hal := hc _ _ _ _ _ a6
    have hol : sc.output.length = batch.length := by
      rw [show sc.output.length = sc.input.length by simpa using congrArg List.length hal,
        input_length a5, a2, List.length_map, a4, hgl]
    have htl : sc.transforms.length = batch.length := by
      rw [a3, List.length_map, a4, hgl]
    have key : (∀ f, st.2 = some f → f.length = st.1.length) ∧ st.1.length = batch.length ∧
        List.Forall₂ (Holds ops.key) ((nextFeatures ops (j + 1) st.1 st.2).getD st.1)
          (List.zipWith (fun t o => o.map (ops.apply t)) sc.transforms sc.output) := by
      by_cases hs : ops.same (j + 1) = false
      · rw [if_pos hs] at h2
        obtain ⟨b, h4, h2⟩ := bind_ok h2
        injection h2 with h2
        subst h2
        have hbl := attachAll_length h4
        have := attachAll_ok hk h4 hol htl
        refine ⟨fun f hf => by rw [hbl]; exact hfl f hf, hbl, ?_⟩
        unfold nextFeatures
        rw [if_neg (by simp), if_pos (.inr hs), Option.getD_some, List.forall₂_map_left_iff]
        refine this.imp ?_
        intro im o h k s hks
        rw [hm.feature]
        exact h k s hks
      · rw [if_neg hs] at h2
        have e : nextFeatures ops (j + 1) st.1 st.2 = st.2 := by
          unfold nextFeatures
          rw [if_neg (by simp), if_neg (by simp [hs])]
        rw [e]
        cases hft : nextFeatures ops j batch feats with
        | none =>
          rw [hft] at h2
          obtain ⟨b, h4, h2⟩ := bind_ok h2
          injection h2 with h2
          subst h2
          exact ⟨by simp, attachAll_length h4, attachAll_ok hk h4 hol htl⟩
        | some f =>
          rw [hft] at h2
          obtain ⟨b, h4, h2⟩ := bind_ok h2
          injection h2 with h2
          subst h2
          have hfb := hfl f hft
          refine ⟨?_, rfl, attachAll_ok hk h4 (by rw [hol, hfb]) (by rw [htl, hfb])⟩
          intro f' hf'
          injection hf' with hf'
          rw [← hf', attachAll_length h4, hfb]
    obtain ⟨k1, k2, k3⟩ := key
    obtain ⟨a, tr, e1, e2, e3, e4, e5⟩ := scaleLoop_ok hm hc hk m (j + 1) st.1 st.2 rest h3 k1
    obtain ⟨_, _, _, _, _, c5, _⟩ := atScale_ok e3
    have hcnt := input_counts (Nat.succ_ne_zero j) c5
    refine ⟨sc, a :: tr, by rw [e1], by simp [e2], h1, ?_, ?_⟩
    · intro b hb
      rcases List.mem_cons.1 hb with rfl | hb
      · exact hcnt
      · exact e4 b hb
    · intro hn
      refine List.IsChain.cons_cons (carried_of hm hc h1 hn ?_ e3 k3) (e5 hcnt)
      rw [getD_length (feats_length k1), k2, hgl]

theorem ertLoop_ok {ops : Ops S P T} {inv : T → S → S} (hm : MovesLandmarks ops inv)
    (hc : KeepsCounts ops) (hk : ∀ j k, ops.key j = ops.key k → j = k) {group : String} {n : Nat} :
    ∀ (m j : Nat) (batch : List (Im S P)) (r : List (Scale S P T) × List (Im S P)),
      ertLoop ops group n m j batch = .ok r →
      ∃ a tr, r.1 = a :: tr ∧ tr.length = m ∧ atScale ops group n j batch = .ok a ∧
        (∀ b ∈ tr, ∀ l ∈ b.input, l.length = n) ∧
        ((∀ o ∈ a.input, o.length = n) → List.IsChain (Carried ops.apply inv) (a :: tr))
  | 0, j, batch, r, h => by
    unfold ertLoop at h
    obtain ⟨sc, h1, h⟩ := bind_ok h
    injection h with h
    subst h
    exact ⟨sc, [], rfl, rfl, h1, by simp, fun _ => by simp⟩
  | m + 1, j, batch, r, h => by
    unfold ertLoop at h
    obtain ⟨sc, h1, h⟩ := bind_ok h
    obtain ⟨st, h2, h⟩ := bind_ok h
    obtain ⟨rest, h3, h⟩ := bind_ok h
    injection h with h
    subst h
    obtain ⟨sa, a1, a2, a3, a4, a5, a6⟩ := atScale_ok h1
    have hal := hc _ _ _ _ _ a6
    have hol : sc.output.length = batch.length := by
      rw [show sc.output.length = sc.input.length by simpa using congrArg List.length hal,
        input_length a5, a2, List.length_map, a4]
    have htl : sc.transforms.length = batch.length := by
      rw [a3, List.length_map, a4]
    obtain ⟨a, tr, e1, e2, e3, e4, e5⟩ := ertLoop_ok hm hc hk m (j + 1) st rest h3
    obtain ⟨_, _, _, _, _, c5, _⟩ := atScale_ok e3
    have hcnt := input_counts (Nat.succ_ne_zero j) c5
    refine ⟨sc, a :: tr, by rw [e1], by simp [e2], h1, ?_, ?_⟩
    · intro b hb
      rcases List.mem_cons.1 hb with rfl | hb
      · exact hcnt
      · exact e4 b hb
    · intro hn
      exact List.IsChain.cons_cons
        (carried_of hm hc h1 hn (attachAll_length h2) e3 (attachAll_ok hk h2 hol htl)) (e5 hcnt)

/-- The shapes the first scale starts with. -/
theorem start_first {ops : Ops S P T} {inv : T → S → S} (hm : MovesLandmarks ops inv) {n : Nat}
    {group : String} {src : List (Im S P)} {a : Scale S P T}
    (h : atScale ops group n 0 src = .ok a) :
    a.input = List.zipWith (fun t im => ((generatedBoxes im).map (inv t)).map ops.align)
      a.transforms src := by
  obtain ⟨sa, a1, a2, a3, a4, a5, a6⟩ := atScale_ok h
  unfold startShapes at a5
  rw [if_pos rfl] at a5
  injection a5 with a5
  rw [← a5, a2, a3]
  clear a2 a3 a4 a5 a6 h
  induction src generalizing sa with
  | nil => rw [mapM_nil_ok] at a1; subst a1; simp
  | cons im src ih =>
    obtain ⟨b, r, h1, h2, rfl⟩ := mapM_cons_ok.1 a1
    rw [List.map_cons, List.map_cons, List.map_cons, List.zipWith_cons_cons, ih r h2,
      generatedBoxes_map (hm.rescale _ _ _ _ h1)]

theorem first_counts {ops : Ops S P T} {inv : T → S → S} (hm : MovesLandmarks ops inv) {n : Nat}
    {group : String} {src : List (Im S P)} {a : Scale S P T}
    (h : atScale ops group n 0 src = .ok a) :
    a.input.map List.length = src.map fun im => (generatedBoxes im).length := by
  rw [start_first hm h]
  obtain ⟨sa, a1, a2, a3, a4, a5, a6⟩ := atScale_ok h
  have hl : a.transforms.length = src.length := by rw [a3, List.length_map, a4]
  generalize a.transforms = ts at hl
  clear a1 a2 a3 a4 a5 a6 h
  induction src generalizing ts with
  | nil => simp
  | cons im src ih =>
    cases ts with
    | nil => simp at hl
    | cons t ts =>
      rw [List.zipWith_cons_cons, List.map_cons, List.map_cons, ih ts (by simpa using hl)]
      simp

/-! ### The temporary group -/

theorem assign_fresh {lms : List (String × S)} {name : String} (s : S)
    (h : ∀ x ∈ lms, x.1 ≠ name) : assign lms name s = lms ++ [(name, s)] := by
  unfold assign
  rw [if_neg]
  intro hh
  obtain ⟨x, hx, e⟩ := List.any_eq_true.1 hh
  exact h x hx (by simpa using e)

theorem remove_fresh {lms : List (String × S)} {name : String} (s : S)
    (h : ∀ x ∈ lms, x.1 ≠ name) : remove (lms ++ [(name, s)]) name = .ok lms := by
  unfold remove
  rw [if_pos (by simp), List.filter_append, List.filter_eq_self.2 (by simpa using h)]
  simp

theorem setBoxes_ok {bb : S → Except PyErr S} {group : String} :
    ∀ {ims marked : List (Im S P)}, setBoxes bb group ims = (marked, none) →
      (∀ im ∈ ims, ∀ x ∈ im.lms, x.1 ≠ "__gt_bb") →
      List.Forall₂ (fun im im' => ∃ b, im' = { im with lms := im.lms ++ [("__gt_bb", b)] }) ims
        marked
  | [], marked, h, _ => by
    simp only [setBoxes, Prod.mk.injEq, and_true] at h
    rw [← h]; exact .nil
  | im :: ims, marked, h, hf => by
    unfold setBoxes at h
    cases hg : getGroup im (some group) >>= bb with
    | error e => rw [hg] at h; simp at h
    | ok b =>
      rw [hg] at h
      simp only [Prod.mk.injEq] at h
      rw [← h.1]
      refine .cons ⟨b, ?_⟩ (setBoxes_ok (Prod.ext rfl h.2) fun i hi => hf i (by simp [hi]))
      rw [assign_fresh b (hf im (by simp))]

theorem deleteBoxes_ok : ∀ {ims marked scaled a b : List (Im S P)},
    deleteBoxes marked scaled = ((a, b), none) → marked.length = scaled.length →
    List.Forall₂ (fun im im' => ∃ b, im' = { im with lms := im.lms ++ [("__gt_bb", b)] }) ims
        marked → (∀ im ∈ ims, ∀ x ∈ im.lms, x.1 ≠ "__gt_bb") → a = ims := by
  intro ims marked scaled a b h hl hm
  induction hm generalizing scaled a b with
  | nil =>
    intro _
    cases scaled with
    | nil =>
      simp only [deleteBoxes, Prod.mk.injEq] at h
      exact h.1.1.symm
    | cons x y => simp at hl
  | cons h1 h2 ih =>
    rename_i im im' ims marked
    intro hf
    cases scaled with
    | nil => simp at hl
    | cons x y =>
      obtain ⟨bx, rfl⟩ := h1
      simp only [deleteBoxes, remove_fresh bx (hf im (by simp))] at h
      cases hr : remove x.lms "__gt_bb" with
      | error e => rw [hr] at h; simp at h
      | ok l2 =>
        rw [hr] at h
        simp only [Prod.mk.injEq] at h
        rw [← h.1.1, ih (Prod.ext (Prod.ext rfl rfl) h.2) (by simpa using hl)
          fun i hi => hf i (by simp [hi])]

/-! ### The temporary shapes -/

/-- Removing all landmark groups with these names. -/
def without (names : List String) (lms : List (String × S)) : List (String × S) :=
  lms.filter fun x => x.1 ∉ names

theorem without_assign {names : List String} {name : String} (h : name ∈ names) (lms : List (String × S))
    (s : S) : without names (assign lms name s) = without names lms := by
  unfold assign without
  split
  · clear * - h
    induction lms with
    | nil => rfl
    | cons a l ih =>
      rw [List.map_cons]
      by_cases ha : a.1 = name
      · simp only [ha, if_true]
        rw [List.filter_cons_of_neg (by simpa using h), List.filter_cons_of_neg (by simpa [ha] using h)]
        exact ih
      · rw [if_neg ha, List.filter_cons, List.filter_cons, ih]
  · rw [List.filter_append, List.filter_cons_of_neg (by simpa using h), List.filter_nil, List.append_nil]

theorem mem_names_assign {lms : List (String × S)} {name n : String} {s : S} :
    n ∈ (assign lms name s).map Prod.fst ↔ n = name ∨ n ∈ lms.map Prod.fst := by
  unfold assign
  split
  · next h =>
    have e : (lms.map fun x => if x.1 = name then (name, s) else x).map Prod.fst = lms.map Prod.fst := by
      rw [List.map_map]
      refine List.map_congr_left fun x _ => ?_
      simp only [Function.comp]
      split
      · next hx => exact hx.symm
      · rfl
    rw [e]
    obtain ⟨x, hx, hn⟩ := List.any_eq_true.1 h
    have hn : x.1 = name := by simpa using hn
    constructor
    · exact .inr
    · rintro (rfl | h')
      · exact List.mem_map.2 ⟨x, hx, hn⟩
      · exact h'
  · simp only [List.map_append, List.map_cons, List.map_nil, List.mem_append, List.mem_singleton]
    exact or_comm

theorem without_attach (ops : Ops S P T) (t : T) {names : List String} :
    ∀ (ss : List S) (lms : List (String × S)) (k : Nat), (∀ i, i < ss.length → ops.key (k + i) ∈ names) →
      without names (attachShapes ops t lms k ss) = without names lms
  | [], _, _, _ => rfl
  | s :: ss, lms, k, h => by
    rw [attachShapes, without_attach ops t ss _ _ (fun i hi => by
      have := h (i + 1) (by simpa using hi)
      rwa [show k + (i + 1) = k + 1 + i by omega] at this),
      without_assign (by simpa using h 0 (by simp))]

theorem names_attach (ops : Ops S P T) (t : T) :
    ∀ (ss : List S) (lms : List (String × S)) (k i : Nat), i < ss.length →
      ops.key (k + i) ∈ (attachShapes ops t lms k ss).map Prod.fst := by
  have keep : ∀ (ss : List S) (lms : List (String × S)) (k : Nat) (n : String), n ∈ lms.map Prod.fst →
      n ∈ (attachShapes ops t lms k ss).map Prod.fst := by
    intro ss
    induction ss with
    | nil => intro lms k n h; exact h
    | cons s ss ih =>
      intro lms k n h
      rw [attachShapes]
      exact ih _ _ _ (mem_names_assign.2 (.inr h))
  intro ss
  induction ss with
  | nil => intro lms k i h; simp at h
  | cons s ss ih =>
    intro lms k i h
    rw [attachShapes]
    cases i with
    | zero => exact keep _ _ _ _ (mem_names_assign.2 (.inl rfl))
    | succ i =>
      rw [show k + (i + 1) = k + 1 + i by omega]
      exact ih _ _ _ (by simpa using h)

/-- The image is the original one with the groups in `names` added or changed. -/
def AddsTo (names : List String) (orig im : Im S P) : Prop :=
  im.px = orig.px ∧ without names im.lms = orig.lms

theorem attachAll_adds {ops : Ops S P T} {n : Nat} {orig : List (Im S P)} :
    ∀ {ims : List (Im S P)} {ts : List T} {os : List (List S)} {r : List (Im S P)},
      attachAll ops ims ts os = .ok r → os.length = ims.length → (∀ o ∈ os, o.length = n) →
      List.Forall₂ (AddsTo ((List.range n).map ops.key)) orig ims →
      List.Forall₂ (AddsTo ((List.range n).map ops.key)) orig r ∧
      ∀ im ∈ r, ∀ k, k < n → ops.key k ∈ im.lms.map Prod.fst := by
  intro ims ts os r h hl hn ho
  induction ho generalizing ts os r with
  | nil =>
    cases os with
    | cons _ _ => simp at hl
    | nil =>
      simp only [attachAll] at h
      injection h with h
      subst h
      exact ⟨.nil, by simp⟩
  | cons h1 h2 ih =>
    rename_i o0 im origs ims
    cases os with
    | nil => simp at hl
    | cons o os =>
      cases ts with
      | nil => simp [attachAll] at h
      | cons t ts =>
        simp only [attachAll] at h
        obtain ⟨q, hq, h⟩ := bind_ok h
        injection h with h
        subst h
        obtain ⟨i1, i2⟩ := ih hq (by simpa using hl) fun o ho => hn o (by simp [ho])
        have ho := hn o (by simp)
        refine ⟨.cons ⟨h1.1, ?_⟩ i1, ?_⟩
        · simp only
          rw [without_attach ops t o im.lms 0 (fun i hi => by
            rw [Nat.zero_add]
            exact List.mem_map.2 ⟨i, by rw [List.mem_range]; omega, rfl⟩)]
          exact h1.2
        · intro im' him k hk
          rcases List.mem_cons.1 him with rfl | him
          · have := names_attach ops t o im.lms 0 k (by omega)
            rwa [Nat.zero_add] at this
          · exact i2 im' him k hk

theorem removeKeys_ok {key : Nat → String} : ∀ {ks : List Nat} {lms r : List (String × S)},
    removeKeys key lms ks = .ok r → r = without (ks.map key) lms
  | [], lms, r, h => by
    injection h with h
    rw [← h]
    simp [without]
  | k :: ks, lms, r, h => by
    simp only [removeKeys] at h
    obtain ⟨l, hl, h⟩ := bind_ok h
    rw [removeKeys_ok h]
    unfold remove at hl
    split at hl
    · injection hl with hl
      rw [← hl]
      unfold without
      rw [List.filter_filter]
      refine List.filter_congr fun x _ => ?_
      by_cases h1 : x.1 = key k
      · simp [h1]
      · have h2 : key k ≠ x.1 := fun e => h1 e.symm
        simp [List.mem_cons, h1]
    · cases hl

/-- The clean-up at the end restores the images. -/
theorem cleanUp_ok {key : Nat → String} {n : Nat} {orig ims r : List (Im S P)}
    (h : cleanUp key n ims = .ok r) (ho : List.Forall₂ (AddsTo ((List.range n).map key)) orig ims)
    (hu : (∀ im ∈ ims, ∀ k, k < n → key k ∉ im.lms.map Prod.fst) ∨
      ∀ im ∈ ims, ∀ k, k < n → key k ∈ im.lms.map Prod.fst) : r = orig := by
  have fresh : (∀ im ∈ ims, ∀ k, k < n → key k ∉ im.lms.map Prod.fst) → ims = orig := by
    intro hf
    clear hu h
    induction ho with
    | nil => rfl
    | cons h1 h2 ih =>
      rename_i o im os ims
      rw [ih fun i hi => hf i (by simp [hi])]
      congr 1
      obtain ⟨e1, e2⟩ := h1
      have : without ((List.range n).map key) im.lms = im.lms := by
        refine List.filter_eq_self.2 fun x hx => ?_
        simp only [List.mem_map, List.mem_range, not_exists, not_and, decide_eq_true_eq]
        intro k hk e
        exact hf im (by simp) k hk (List.mem_map.2 ⟨x, hx, e.symm⟩)
      rw [this] at e2
      cases im; cases o
      simp only at e1 e2
      rw [e1, e2]
  cases ims with
  | nil => simp [cleanUp] at h
  | cons im ims =>
    simp only [cleanUp] at h
    split at h
    · clear hu fresh
      generalize im :: ims = l at h ho
      clear * - h ho
      induction ho generalizing r with
      | nil => rw [mapM_nil_ok] at h; exact h
      | cons h1 h2 ih =>
        obtain ⟨b, q, e1, e2, rfl⟩ := mapM_cons_ok.1 h
        rw [ih e2]
        congr 1
        obtain ⟨lms, e3, e1⟩ := bind_ok e1
        injection e1 with e1
        rw [← e1, removeKeys_ok e3, h1.2, h1.1]
    · next hk =>
      injection h with h
      subst h
      refine fresh ?_
      rcases hu with hu | hu
      · exact hu
      · intro i hi k hkn
        exfalso
        apply hk
        obtain ⟨x, hx, e⟩ := List.mem_map.1 (hu im (by simp) 0 (by omega))
        exact List.any_eq_true.2 ⟨x, hx, by simpa using e⟩

theorem scaleLoop_restores {ops : Ops S P T} {inv : T → S → S} (hm : MovesLandmarks ops inv)
    (hc : KeepsCounts ops) {group : String} {n : Nat} {orig : List (Im S P)} :
    ∀ (m j : Nat) (batch : List (Im S P)) (feats : Option (List (Im S P)))
      (r : List (Scale S P T) × List (Im S P)),
      scaleLoop ops group n m j batch feats = .ok r →
      (∀ f, feats = some f → f.length = batch.length) →
      (j = 0 → ∀ im ∈ batch, (generatedBoxes im).length = n) →
      List.Forall₂ (AddsTo ((List.range n).map ops.key)) orig batch →
      ((∀ im ∈ batch, ∀ k, k < n → ops.key k ∉ im.lms.map Prod.fst) ∨
        ∀ im ∈ batch, ∀ k, k < n → ops.key k ∈ im.lms.map Prod.fst) → r.2 = orig
  | 0, j, batch, feats, r, h, hf, hg, ho, hu => by
    unfold scaleLoop at h
    obtain ⟨sc, h1, h⟩ := bind_ok h
    obtain ⟨b, h2, h⟩ := bind_ok h
    injection h with h
    subst h
    exact cleanUp_ok h2 ho hu
  | m + 1, j, batch, feats, r, h, hf, hg, ho, hu => by
    unfold scaleLoop at h
    obtain ⟨sc, h1, h⟩ := bind_ok h
    obtain ⟨st, h2, h⟩ := bind_ok h
    obtain ⟨rest, h3, h⟩ := bind_ok h
    injection h with h
    subst h
    have hfl := feats_length (ops := ops) (j := j) hf
    have hgl := getD_length hfl
    obtain ⟨sa, a1, a2, a3, a4, a5, a6⟩ := atScale_ok h1
    have hal := hc _ _ _ _ _ a6
    have hol : sc.output.length = batch.length := by
      rw [show sc.output.length = sc.input.length by simpa using congrArg List.length hal,
        input_length a5, a2, List.length_map, a4, hgl]
    have hin : ∀ l ∈ sc.input, l.length = n := by
      by_cases hj : j = 0
      · subst hj
        have hcnt := first_counts hm h1
        intro l hl
        have : l.length ∈ sc.input.map List.length := List.mem_map_of_mem hl
        rw [hcnt] at this
        obtain ⟨im, him, e⟩ := List.mem_map.1 this
        rw [← e]
        have : ∃ im' ∈ batch, (generatedBoxes im).length = (generatedBoxes im').length := by
          unfold nextFeatures at him
          split at him
          · exact ⟨im, him, rfl⟩
          · rw [if_pos (.inl rfl), Option.getD_some, List.mem_map] at him
            obtain ⟨im', h', rfl⟩ := him
            refine ⟨im', h', ?_⟩
            simp only [generatedBoxes, matching, hm.feature]
        obtain ⟨im', h', e'⟩ := this
        rw [e', hg rfl im' h']
      · exact input_counts hj a5
    have hout := forall_length_of_map hal hin
    have key : (∀ f, st.2 = some f → f.length = st.1.length) ∧
        List.Forall₂ (AddsTo ((List.range n).map ops.key)) orig st.1 ∧
        ((∀ im ∈ st.1, ∀ k, k < n → ops.key k ∉ im.lms.map Prod.fst) ∨
        ∀ im ∈ st.1, ∀ k, k < n → ops.key k ∈ im.lms.map Prod.fst) := by
      split at h2
      · obtain ⟨b, h4, h2⟩ := bind_ok h2
        injection h2 with h2
        subst h2
        obtain ⟨i1, i2⟩ := attachAll_adds h4 hol hout ho
        exact ⟨fun f hf => by rw [attachAll_length h4]; exact hfl f hf, i1, .inr i2⟩
      · cases hft : nextFeatures ops j batch feats with
        | none =>
          rw [hft] at h2
          obtain ⟨b, h4, h2⟩ := bind_ok h2
          injection h2 with h2
          subst h2
          obtain ⟨i1, i2⟩ := attachAll_adds h4 hol hout ho
          exact ⟨by simp, i1, .inr i2⟩
        | some f =>
          rw [hft] at h2
          obtain ⟨b, h4, h2⟩ := bind_ok h2
          injection h2 with h2
          subst h2
          refine ⟨?_, ho, hu⟩
          intro f' hf'
          injection hf' with hf'
          rw [← hf', attachAll_length h4, hfl f hft]
    exact scaleLoop_restores hm hc m (j + 1) st.1 st.2 rest h3 key.1 (by omega) key.2.1 key.2.2

theorem setBoxes_marks {bb : S → Except PyErr S} {group : String} :
    ∀ {ims marked : List (Im S P)}, setBoxes bb group ims = (marked, none) →
      List.Forall₂ (fun im im' => ∃ s b, lookup im.lms group = some s ∧ bb s = .ok b ∧
        im' = { im with lms := assign im.lms "__gt_bb" b }) ims marked
  | [], marked, h => by
    simp only [setBoxes, Prod.mk.injEq, and_true] at h
    rw [← h]; exact .nil
  | im :: ims, marked, h => by
    unfold setBoxes at h
    cases hg : getGroup im (some group) >>= bb with
    | error e => rw [hg] at h; simp at h
    | ok b =>
      rw [hg] at h
      simp only [Prod.mk.injEq] at h
      rw [← h.1]
      refine .cons ?_ (setBoxes_marks (Prod.ext rfl h.2))
      obtain ⟨s, hs, hb⟩ := bind_ok hg
      unfold getGroup at hs
      cases hl : lookup im.lms group with
      | none => simp [hl] at hs
      | some s' =>
        simp only [hl] at hs
        injection hs with hs
        subst hs
        exact ⟨s', b, rfl, hb, rfl⟩

theorem deleteBoxes_scaled : ∀ {marked scaled a b : List (Im S P)},
    deleteBoxes marked scaled = ((a, b), none) → marked.length = scaled.length →
    b = scaled.map fun im => { im with lms := without ["__gt_bb"] im.lms }
  | [], [], a, b, h, _ => by
    simp only [deleteBoxes, Prod.mk.injEq] at h
    rw [← h.1.2]
    rfl
  | [], _ :: _, _, _, _, h => by simp at h
  | _ :: _, [], _, _, _, h => by simp at h
  | i :: is, i2 :: is2, a, b, h, hl => by
    unfold deleteBoxes at h
    cases h1 : remove i.lms "__gt_bb" with
    | error e => rw [h1] at h; simp at h
    | ok l =>
      cases h2 : remove i2.lms "__gt_bb" with
      | error e => rw [h1, h2] at h; simp at h
      | ok l2 =>
        rw [h1, h2] at h
        simp only [Prod.mk.injEq] at h
        rw [← h.1.2, deleteBoxes_scaled (Prod.ext (Prod.ext rfl rfl) h.2) (by simpa using hl), List.map_cons]
        congr 1
        unfold remove at h2
        split at h2
        · injection h2 with h2
          rw [← h2]
          congr 1
          unfold without
          refine List.filter_congr fun x _ => ?_
          simp
        · cases h2

end Menpofit
