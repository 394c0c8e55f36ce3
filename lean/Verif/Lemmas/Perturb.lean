import Verif.Spec.Perturb
import Verif.Lemmas.Training
import Std.Data.String.ToNat
/-!
# Lemmas about the generated bounding boxes
-/

namespace Menpofit
open Perturb Spec

variable {S P : Type}

theorem genName_inj {j k : Nat} (h : genName j = genName k) : j = k := by
  unfold genName at h
  have h1 : toString j = toString k := by
    have := congrArg String.toList h
    rw [String.toList_append, String.toList_append] at this
    exact String.toList_injective (List.append_cancel_left this)
  have h2 := Nat.toNat?_repr j
  have h3 := Nat.toNat?_repr k
  have e : Nat.repr j = Nat.repr k := h1
  rw [e, h3] at h2
  exact (Option.some.inj h2).symm

theorem isGen_genName (k : Nat) : isGen (genName k) = true := by
  unfold isGen genName
  rw [String.toList_append]
  simp

theorem lookup_nil (x : String) : lookup ([] : List (String × S)) x = none := rfl

theorem lookup_cons (a : String × S) (l : List (String × S)) (x : String) :
    lookup (a :: l) x = if a.1 = x then some a.2 else lookup l x := by
  unfold lookup
  rw [List.find?_cons]
  by_cases h : a.1 = x <;> simp [h]

theorem lookup_append (l l' : List (String × S)) (x : String) :
    lookup (l ++ l') x = (lookup l x).or (lookup l' x) := by
  induction l with
  | nil => simp [lookup_nil]
  | cons a l ih =>
    rw [List.cons_append, lookup_cons, lookup_cons, ih]
    by_cases h : a.1 = x <;> simp [h]

theorem lookup_assign (lms : List (String × S)) (name : String) (s : S) (x : String) :
    lookup (assign lms name s) x = if x = name then some s else lookup lms x := by
  unfold assign
  by_cases h : lms.any fun x => x.1 = name
  · rw [if_pos h]
    induction lms with
    | nil => simp at h
    | cons a l ih =>
      rw [List.map_cons, lookup_cons, lookup_cons]
      by_cases ha : a.1 = name
      · rw [if_pos ha]
        by_cases hx : x = name
        · rw [if_pos hx, if_pos hx.symm]
        · rw [if_neg hx, if_neg (Ne.symm hx), ha, if_neg (Ne.symm hx)]
          clear ih h
          induction l with
          | nil => rfl
          | cons b l ih =>
            rw [List.map_cons, lookup_cons, lookup_cons, ih]
            by_cases hb : b.1 = name
            · rw [if_pos hb, if_neg (Ne.symm hx), hb, if_neg (Ne.symm hx)]
            · rw [if_neg hb]
      · rw [if_neg ha]
        have h' : (l.any fun x => x.1 = name) = true := by
          simpa [ha] using h
        rw [ih h']
        by_cases hx : x = name
        · rw [if_pos hx, if_neg (hx ▸ ha), if_pos hx]
        · rw [if_neg hx, if_neg hx]
  · rw [if_neg h, lookup_append, lookup_cons, lookup_nil]
    by_cases hx : x = name
    · subst hx
      rw [if_pos rfl, if_pos rfl]
      have : lookup lms x = none := by
        induction lms with
        | nil => rfl
        | cons a l ih =>
          rw [lookup_cons]
          simp only [List.any_cons, Bool.or_eq_true, decide_eq_true_eq, not_or] at h
          rw [if_neg h.1, ih h.2]
      rw [this]; rfl
    · rw [if_neg hx, if_neg (Ne.symm hx), Option.or_none]

theorem filter_assign (lms : List (String × S)) (name : String) (s : S) (f : String → Bool)
    (h : f name = false) :
    (assign lms name s).filter (fun x => f x.1) = lms.filter fun x => f x.1 := by
  unfold assign
  split
  · clear * - h
    induction lms with
    | nil => rfl
    | cons a l ih =>
      rw [List.map_cons, List.filter_cons, List.filter_cons, ih]
      by_cases ha : a.1 = name
      · simp [ha, h]
      · simp [ha]
  · simp [h]

/-- The boxes assigned to consecutive names from `k` on. -/
def assignFrom (lms : List (String × S)) (k : Nat) : List S → List (String × S)
  | [] => lms
  | b :: bs => assignFrom (assign lms (genName k) b) (k + 1) bs

theorem assignFrom_append (lms : List (String × S)) (k : Nat) (bs cs : List S) :
    assignFrom lms k (bs ++ cs) = assignFrom (assignFrom lms k bs) (k + bs.length) cs := by
  induction bs generalizing lms k with
  | nil => rfl
  | cons b bs ih =>
    rw [List.cons_append, assignFrom, ih, assignFrom, List.length_cons]
    congr 1
    omega

theorem lookup_assignFrom_other (bs : List S) : ∀ (lms : List (String × S)) (k : Nat) (x : String),
    (∀ i, i < bs.length → x ≠ genName (k + i)) →
    lookup (assignFrom lms k bs) x = lookup lms x := by
  induction bs with
  | nil => intro _ _ _ _; rfl
  | cons b bs ih =>
    intro lms k x h
    rw [assignFrom, ih _ _ _ (fun i hi => by
      have := h (i + 1) (by simpa using hi)
      rwa [show k + (i + 1) = k + 1 + i by omega] at this), lookup_assign,
      if_neg (by simpa using h 0 (by simp))]

theorem lookup_assignFrom (bs : List S) : ∀ (lms : List (String × S)) (k i : Nat),
    i < bs.length → lookup (assignFrom lms k bs) (genName (k + i)) = bs[i]? := by
  induction bs with
  | nil => intro _ _ i h; simp at h
  | cons b bs ih =>
    intro lms k i h
    cases i with
    | zero =>
      rw [assignFrom, lookup_assignFrom_other _ _ _ _ (fun i _ he => by
        have := genName_inj he; omega), lookup_assign, if_pos (by rw [Nat.add_zero])]
      rfl
    | succ i =>
      rw [assignFrom, show k + (i + 1) = k + 1 + i by omega, ih _ _ _ (by simpa using h)]
      rfl

theorem filter_assignFrom (bs : List S) : ∀ (lms : List (String × S)) (k : Nat),
    (assignFrom lms k bs).filter (fun x => !isGen x.1) = lms.filter fun x => !isGen x.1 := by
  induction bs with
  | nil => intro _ _; rfl
  | cons b bs ih =>
    intro lms k
    rw [assignFrom, ih, filter_assign _ _ _ (fun x => !isGen x) (by simp [isGen_genName])]

theorem gen_assignFrom (bs : List S) : ∀ (lms : List (String × S)) (k : Nat),
    (∀ x ∈ lms, ∀ i, k ≤ i → x.1 ≠ genName i) →
    ((assignFrom lms k bs).filter fun x => isGen x.1).map Prod.snd =
      ((lms.filter fun x => isGen x.1).map Prod.snd) ++ bs := by
  induction bs with
  | nil => intro lms k _; simp [assignFrom]
  | cons b bs ih =>
    intro lms k h
    have e : assign lms (genName k) b = lms ++ [(genName k, b)] := by
      unfold assign
      rw [if_neg]
      simp only [List.any_eq_true, decide_eq_true_eq, not_exists, not_and]
      intro x hx
      exact h x hx k le_rfl
    rw [assignFrom, e, ih]
    · simp [isGen_genName]
    · intro x hx i hi
      rcases List.mem_append.1 hx with hx | hx
      · exact h x hx i (by omega)
      · rw [List.mem_singleton.1 hx]
        intro he
        have := genName_inj he
        omega

theorem perturbLoop_ok (g : Geom S P) (perturb : Nat → S → S → Except PyErr S) (gt bb : S) :
    ∀ (m : Nat) (im : Im S P) (k c : Nat) (im' : Im S P) (k' c' : Nat),
    perturbLoop g perturb gt bb m im k c = ((im', k', c'), none) →
    ∃ ps : List S, ps.length = m ∧
      (∀ p ∈ ps, ∃ c q b, perturb c gt bb = .ok q ∧ g.bb q = .ok b ∧ p = g.clamp im.px b) ∧
      im' = { im with lms := assignFrom im.lms k ps } ∧ k' = k + m := by
  intro m
  induction m with
  | zero =>
    intro im k c im' k' c' h
    simp only [perturbLoop, Prod.mk.injEq] at h
    exact ⟨[], rfl, by simp, h.1.1.symm, by omega⟩
  | succ m ih =>
    intro im k c im' k' c' h
    unfold perturbLoop at h
    cases h1 : perturb c gt bb with
    | error e => rw [h1] at h; simp at h
    | ok q =>
      rw [h1] at h
      simp only at h
      cases h2 : g.bb q with
      | error e => rw [h2] at h; simp at h
      | ok b =>
        rw [h2] at h
        obtain ⟨ps, hl, hp, rfl, rfl⟩ := ih _ _ _ _ _ _ h
        refine ⟨g.clamp im.px b :: ps, by simp [hl], ?_, rfl, by omega⟩
        intro p hp'
        rcases List.mem_cons.1 hp' with rfl | hp'
        · exact ⟨c, q, b, h1, h2, rfl⟩
        · exact hp p hp'

theorem boxLoop_ok (g : Geom S P) (perturb : Nat → S → S → Except PyErr S) (nPert : Nat)
    (addBox : Bool) (gt : S) : ∀ (bbs : List S) (im : Im S P) (k c : Nat) (im' : Im S P)
      (k' c' : Nat), boxLoop g perturb nPert addBox gt bbs im k c = ((im', k', c'), none) →
    ∃ blocks : List (List S),
      List.Forall₂ (fun bb block => BlockOf g perturb nPert addBox im.px gt bb block) bbs blocks ∧
      im' = { im with lms := assignFrom im.lms k blocks.flatten } := by
  intro bbs
  induction bbs with
  | nil =>
    intro im k c im' k' c' h
    simp only [boxLoop, Prod.mk.injEq] at h
    exact ⟨[], .nil, h.1.1.symm⟩
  | cons bb bbs ih =>
    intro im k c im' k' c' h
    unfold boxLoop at h
    obtain ⟨⟨⟨im1, k1, c1⟩, o⟩, hr⟩ : ∃ r, r = perturbLoop g perturb gt bb nPert im k c := ⟨_, rfl⟩
    rw [← hr] at h
    cases o with
    | some e => simp at h
    | none =>
      obtain ⟨ps, hl, hp, rfl, rfl⟩ := perturbLoop_ok g perturb gt bb _ _ _ _ _ _ _ hr.symm
      simp only at h
      cases addBox with
      | true =>
        simp only [if_true] at h
        obtain ⟨blocks, hb, rfl⟩ := ih _ _ _ _ _ _ h
        refine ⟨(ps ++ [g.clamp im.px bb]) :: blocks, .cons ⟨ps, hl, hp, rfl⟩ hb, ?_⟩
        rw [List.flatten_cons, assignFrom_append, assignFrom_append, hl]
        simp [assignFrom, hl]
        rfl
      | false =>
        simp only [Bool.false_eq_true, if_false] at h
        obtain ⟨blocks, hb, rfl⟩ := ih _ _ _ _ _ _ h
        refine ⟨ps :: blocks, .cons ⟨ps, hl, hp, rfl⟩ hb, ?_⟩
        rw [List.flatten_cons, assignFrom_append, hl]

theorem perturbImage_ok {g : Geom S P} {perturb : Nat → S → S → Except PyErr S} {nPert : Nat}
    {gtGroup : Option String} {glob : Option (String → Bool)} {im im' : Im S P} {c c' : Nat}
    (h : perturbImage g perturb nPert gtGroup glob im c = ((im', c'), none)) :
    ∃ s gt bbs blocks, getGroup im gtGroup = .ok s ∧ g.bb s = .ok gt ∧
      boxes g gtGroup glob im = .ok bbs ∧
      List.Forall₂ (fun bb block => BlockOf g perturb nPert glob.isSome im.px gt bb block)
        bbs blocks ∧
      im' = { im with lms := assignFrom im.lms 0 blocks.flatten } := by
  unfold perturbImage at h
  cases h1 : getGroup im gtGroup with
  | error e => rw [h1] at h; simp [bind, Except.bind] at h
  | ok s =>
    rw [h1] at h
    simp only [bind, Except.bind] at h
    cases h2 : g.bb s with
    | error e => rw [h2] at h; simp at h
    | ok gt =>
      rw [h2] at h
      simp only at h
      cases h3 : boxes g gtGroup glob im with
      | error e => rw [h3] at h; simp at h
      | ok bbs =>
        rw [h3] at h
        simp only [Prod.mk.injEq] at h
        obtain ⟨⟨h4, h5⟩, h6⟩ := h
        obtain ⟨⟨⟨im1, k1, c1⟩, o⟩, hr⟩ : ∃ r, r = boxLoop g perturb nPert glob.isSome gt bbs im 0 c :=
          ⟨_, rfl⟩
        rw [← hr] at h4 h6
        simp only at h4 h6
        subst h6
        obtain ⟨blocks, hb, he⟩ := boxLoop_ok _ _ _ _ _ _ _ _ _ _ _ _ hr.symm
        exact ⟨s, gt, bbs, blocks, rfl, h2, rfl, hb, h4 ▸ he⟩

theorem imageLoop_ok {g : Geom S P} {perturb : Nat → S → S → Except PyErr S} {nPert : Nat}
    {gtGroup : Option String} {glob : Option (String → Bool)} :
    ∀ (ims ims' : List (Im S P)) (c : Nat),
    imageLoop g perturb nPert gtGroup glob ims c = (ims', none) →
    List.Forall₂ (fun im im' => ∃ c c', perturbImage g perturb nPert gtGroup glob im c =
      ((im', c'), none)) ims ims' := by
  intro ims
  induction ims with
  | nil =>
    intro ims' c h
    simp only [imageLoop, Prod.mk.injEq] at h
    rw [← h.1]; exact .nil
  | cons im ims ih =>
    intro ims' c h
    unfold imageLoop at h
    obtain ⟨⟨⟨im1, c1⟩, o⟩, hr⟩ : ∃ r, r = perturbImage g perturb nPert gtGroup glob im c := ⟨_, rfl⟩
    rw [← hr] at h
    cases o with
    | some e => simp at h
    | none =>
      simp only [Prod.mk.injEq] at h
      rw [← h.1]
      exact .cons ⟨c, c1, hr.symm⟩ (ih _ c1 (Prod.ext rfl h.2))

theorem generate_ok {g : Geom S P} {perturb : Nat → S → S → Except PyErr S} {nPert : Nat}
    {gtGroup : Option String} {glob : Option (String → Bool)} {ims ims' : List (Im S P)}
    (h : generate g perturb nPert gtGroup glob ims = (ims', none)) :
    List.Forall₂ (fun im im' => ∃ c c', perturbImage g perturb nPert gtGroup glob im c =
      ((im', c'), none)) ims ims' := by
  unfold generate at h
  cases glob with
  | none => exact imageLoop_ok _ _ _ h
  | some gl =>
    simp only at h
    cases ims with
    | nil => simp at h
    | cons im ims =>
      simp only at h
      cases hm : (matching gl im).mapM g.bb with
      | error e => rw [hm] at h; simp at h
      | ok bbs =>
        rw [hm] at h
        simp only at h
        by_cases hb : bbs.length = 0
        · rw [if_pos hb] at h; simp at h
        · rw [if_neg hb] at h
          exact imageLoop_ok _ _ _ h

end Menpofit
