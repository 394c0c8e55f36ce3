import Verif.Lemmas.Visualize
/-!
# C68: plotting options
-/

namespace Menpofit
open Visualize Spec

/-- C68: a single value of an accepted type becomes a new list with that value once per curve, and
every list object is as before. -/
theorem C68_value (h : Heap) (v : Py) (n : Nat) (d : List DType) (t : DType) (ht : t ∈ d)
    (hv : IsOfType v t) :
    ∃ a, (checkMulti h (.val v) n d).2 = .ok a ∧ h.length ≤ a ∧
      deref (checkMulti h (.val v) n d).1 a = List.replicate n v ∧
      ∀ b, b < h.length → deref (checkMulti h (.val v) n d).1 b = deref h b := by
  have hd : d.any (isInstance v) = true := List.any_eq_true.2 ⟨t, ht, (isInstance_iff v t).2 hv⟩
  refine ⟨h.length, by simp [checkMulti, hd], le_rfl, by simp [checkMulti, hd, deref, times], ?_⟩
  intro b hb
  simp only [checkMulti, hd, if_true]
  exact deref_push _ _ _ hb

/-- C68: a list with one value per curve is used as it is; a list with one value stands for that value
for every curve. -/
theorem C68_list (h : Heap) (a : Nat) (ha : a < h.length) (n : Nat) (d : List DType)
    (hl : (deref h a).length = n ∨ (deref h a).length = 1) :
    (checkMulti h (.ref a) n d).2 = .ok a ∧
    (∀ v, deref h a = [v] → deref (checkMulti h (.ref a) n d).1 a = List.replicate n v) ∧
    ((deref h a).length = n → deref (checkMulti h (.ref a) n d).1 a = deref h a) := by
  unfold checkMulti
  simp only
  split
  · rename_i v hv
    refine ⟨rfl, ?_, ?_⟩
    · intro w hw
      rw [hv] at hw
      injection hw with hw
      subst hw
      rw [deref_set, if_pos ⟨rfl, ha⟩]
      rfl
    · intro hn
      rw [hv] at hn ⊢
      rw [deref_set, if_pos ⟨rfl, ha⟩, ← hn]
      rfl
  · rename_i hne
    have hn : (deref h a).length = n := by
      rcases hl with hl | hl
      · exact hl
      · obtain ⟨v, hv⟩ := List.length_eq_one_iff.1 hl
        exact absurd hv (hne v)
    simp only [hn, ne_eq, not_true, if_false]
    refine ⟨by simp, ?_, by simp⟩
    intro v hv
    exact absurd hv (hne v)

/-- C68: the call fails exactly for a single value of none of the accepted types and for a list with
neither one value nor one per curve; then `ValueError` is raised and no list object has changed. -/
theorem C68_errors (h : Heap) (arg : Arg) (n : Nat) (d : List DType) :
    ((∃ e, (checkMulti h arg n d).2 = .error e) ↔
      match arg with
      | .val v => ∀ t ∈ d, ¬IsOfType v t
      | .ref a => (deref h a).length ≠ 1 ∧ (deref h a).length ≠ n) ∧
    (∀ e, (checkMulti h arg n d).2 = .error e →
      e = .valueError ∧ (checkMulti h arg n d).1 = h) := by
  cases arg with
  | val v =>
    unfold checkMulti
    by_cases hd : d.any (isInstance v) = true
    · simp only [hd, if_true]
      refine ⟨⟨fun ⟨e, he⟩ => (by cases he), ?_⟩, fun e he => by cases he⟩
      intro hall
      obtain ⟨t, ht, hv⟩ := List.any_eq_true.1 hd
      exact absurd ((isInstance_iff v t).1 hv) (hall t ht)
    · simp only [hd]
      refine ⟨⟨fun _ => ?_, fun _ => ⟨_, rfl⟩⟩, ?_⟩
      · intro t ht
        intro hv
        exact absurd (List.any_eq_true.2 ⟨t, ht, (isInstance_iff v t).2 hv⟩) hd
      · intro e he
        injection he with he
        exact ⟨he.symm, rfl⟩
  | ref a =>
    unfold checkMulti
    simp only
    split
    · rename_i v hv
      rw [hv]
      refine ⟨⟨fun ⟨e, he⟩ => (by cases he), fun hh => ?_⟩, fun e he => by cases he⟩
      simp at hh
    · rename_i hne
      have h1 : (deref h a).length ≠ 1 := by
        intro hl
        obtain ⟨v, hv⟩ := List.length_eq_one_iff.1 hl
        exact absurd hv (hne v)
      by_cases hn : (deref h a).length = n
      · simp [hn]
      · simp [hn, h1]

/-- C68: when all options of a call are accepted, each of them is, at the end of the checks, a list
with one value per curve, however the options share list objects. -/
theorem C68_all (n : Nat) (options : List (Arg × List DType)) (h : Heap)
    (hin : ∀ o ∈ options, ∀ b, o.1 = .ref b → b < h.length) (as : List Nat)
    (hr : (checkAll n h options).2 = .ok as) :
    as.length = options.length ∧
    (∀ a ∈ as, (deref (checkAll n h options).1 a).length = n) ∧
    (∀ b, b < h.length → (deref h b).length = n →
      (deref (checkAll n h options).1 b).length = n) := by
  induction options generalizing h as with
  | nil =>
    unfold checkAll at hr ⊢
    injection hr with hr
    subst hr
    exact ⟨rfl, by simp, fun _ _ h => h⟩
  | cons o options ih =>
    obtain ⟨arg, d⟩ := o
    have hin' := hin (arg, d) (by simp)
    have f := checkMulti_frame h arg n d
    have k := checkMulti_ok h arg n d
    rw [checkAll] at hr ⊢
    rcases hc : checkMulti h arg n d with ⟨h1, r1⟩
    rw [hc] at f k
    simp only [hc] at hr ⊢
    cases r1 with
    | error e => cases hr
    | ok a =>
      simp only at hr ⊢
      have k1 := k a hin' rfl
      have ih1 := ih h1 (fun o ho b hb => lt_of_lt_of_le (hin o (by simp [ho]) b hb) f.1)
      rcases hc2 : checkAll n h1 options with ⟨h2, r2⟩
      rw [hc2] at ih1
      simp only [hc2] at hr ⊢
      cases r2 with
      | error e => cases hr
      | ok as2 =>
        simp only at hr ⊢
        injection hr with hr
        subst hr
        obtain ⟨i1, i2, i3⟩ := ih1 as2 rfl
        refine ⟨by simp [i1], ?_, ?_⟩
        · intro b hb
          rcases List.mem_cons.1 hb with rfl | hb
          · exact i3 _ k1.1 k1.2
          · exact i2 b hb
        · intro b hb hl
          exact i3 b (lt_of_lt_of_le hb f.1) (f.2.1 b hb hl)

/-- C68: no list object changes except lists with exactly one value.  (Missing: those, see
`C68_caller_list_violated`.) -/
theorem C68_caller_partial (n : Nat) (options : List (Arg × List DType)) (h : Heap) (b : Nat)
    (hb : b < h.length) (hl : (deref h b).length ≠ 1) :
    deref (checkAll n h options).1 b = deref h b := by
  induction options generalizing h with
  | nil => rfl
  | cons o options ih =>
    obtain ⟨arg, d⟩ := o
    have f := checkMulti_frame h arg n d
    rw [checkAll]
    rcases hc : checkMulti h arg n d with ⟨h1, r1⟩
    rw [hc] at f
    simp only at f
    cases r1 with
    | error e => exact f.2.2 b hb hl
    | ok a =>
      have e1 := f.2.2 b hb hl
      have := ih h1 (lt_of_lt_of_le hb f.1) (by rw [e1]; exact hl)
      rw [e1] at this
      simp only
      rcases hc2 : checkAll n h1 options with ⟨h2, r2⟩
      rw [hc2] at this
      cases r2 <;> exact this

/-- C68 fails for a list with one value: the list object of the caller is changed, so that the same
call made again with another number of landmark groups raises `ValueError`. -/
theorem C68_caller_list_violated :
    ∃ (h : Heap) (options : List (Arg × List DType)),
      (checkAll 3 h options).2 = .ok [0] ∧
      deref (checkAll 3 h options).1 0 ≠ deref h 0 ∧
      (checkAll 2 h options).2 = .ok [0] ∧
      (checkAll 2 (checkAll 3 h options).1 options).2 = .error .valueError := by
  refine ⟨[[.bool true]], [(.ref 0, [.bool])], rfl, ?_, rfl, rfl⟩
  simp [checkAll, checkMulti, deref, times, List.replicate]

example : ∃ h, checkAll 2 [[.int 3], [.str "r", .str "b"]]
    [(.ref 0, [.int, .float]), (.val (.float 1), [.int, .float]), (.ref 1, [.str]),
      (.ref 0, [.int, .float])] = (h, .ok [0, 2, 1, 0]) ∧ h.map List.length = [2, 2, 2] :=
  ⟨_, rfl, rfl⟩

end Menpofit
