import Verif.Spec.Io
import Verif.Lemmas.Io
/-!
# C63, C64, C65: pre-trained fitters
-/

namespace Menpofit
open Io Spec

variable {I S O A : Type}

/-- C63: a wrapped fitter with preprocessing calls the wrapped fitter on the preprocessed image and
the shape taken there by the inverse transform, and applies the transform once to the final, the
initial and every iteration shape; nothing else in the result changes.  Options given
at call time win over the stored ones, the others keep their stored value. -/
theorem C63_coordinates (w : Wrapped I S O A) (eNone : PyErr) (h : Heap A) (image : I) (shape : S)
    (kwargs : Dict A) (hk : (kwargs.map Prod.fst).Nodup)
    (pre : I → S → Except PyErr (I × Transf S)) (hw : w.preprocess = some pre) (res : WRes S O)
    (hr : (fitWrapped w eNone h image shape kwargs).2 = .ok res) :
    ∃ proc t options inner i,
      pre image shape = .ok (proc, t) ∧ w.fit proc (t.pinv shape) options = .ok inner ∧
      (∀ key, dictGet options key = (dictGet kwargs key).or (dictGet (deref h w.stored) key)) ∧
      inner.initial = some i ∧
      res = { final := t.apply inner.final, initial := some (t.apply i),
              shapes := inner.shapes.map (List.map t.apply), other := inner.other } := by
  rw [fitWrapped_pre w eNone h image shape kwargs pre hw] at hr
  obtain ⟨q, h1, hr⟩ := bind_ok hr
  obtain ⟨inner, h2, hr⟩ := bind_ok hr
  unfold mapBack at hr
  cases hi : inner.initial with
  | none => rw [hi] at hr; cases hr
  | some i =>
    rw [hi] at hr
    injection hr with hr
    exact ⟨q.1, q.2, _, inner, i, h1, h2, get_update _ _ hk, hi, hr.symm⟩

/-- C63: without preprocessing the result of the wrapped fitter is returned as it is. -/
theorem C63_no_preprocessing (w : Wrapped I S O A) (eNone : PyErr) (h : Heap A) (image : I)
    (shape : S) (kwargs : Dict A) (hk : (kwargs.map Prod.fst).Nodup) (hw : w.preprocess = none) :
    ∃ options, (fitWrapped w eNone h image shape kwargs).2 = w.fit image shape options ∧
      ∀ key, dictGet options key = (dictGet kwargs key).or (dictGet (deref h w.stored) key) :=
  ⟨_, fitWrapped_plain w eNone h image shape kwargs hw, get_update _ _ hk⟩

/-- C63: after any sequence of calls, successful or not, the stored options (and every other
dictionary) are as before, and each call gave what it would have given as the first one. -/
theorem C63_history (w : Wrapped I S O A) (eNone : PyErr) (h : Heap A)
    (calls : List (I × S × Dict A)) (hs : w.stored < h.length) :
    (∀ a, a < h.length → deref (fitCalls w eNone h calls).1 a = deref h a) ∧
    (fitCalls w eNone h calls).2 =
      calls.map fun c => (fitWrapped w eNone h c.1 c.2.1 c.2.2).2 := by
  induction calls generalizing h with
  | nil => exact ⟨fun _ _ => rfl, rfl⟩
  | cons c calls ih =>
    obtain ⟨image, shape, kwargs⟩ := c
    have e := fitWrapped_heap w eNone h image shape kwargs
    have hl : w.stored < (fitWrapped w eNone h image shape kwargs).1.length := by
      rw [e]; simp; omega
    obtain ⟨i1, i2⟩ := ih _ hl
    simp only [fitCalls]
    refine ⟨?_, ?_⟩
    · intro a ha
      rw [i1 a (by rw [e]; simp; omega), e, deref_append _ _ _ ha]
    · rw [i2, List.map_cons]
      congr 1
      apply List.map_congr_left
      intro d _
      cases hp : w.preprocess with
      | none =>
        rw [fitWrapped_plain _ _ _ _ _ _ hp, fitWrapped_plain _ _ _ _ _ _ hp, e,
          deref_append _ _ _ hs]
      | some pre =>
        rw [fitWrapped_pre _ _ _ _ _ _ pre hp, fitWrapped_pre _ _ _ _ _ _ pre hp, e,
          deref_append _ _ _ hs]

/-- C63 fails for fitters whose results have no initial shape (such as the dlib fitters): although
the wrapped fitter succeeds, the call raises. -/
theorem C63_no_initial_shape_violated (w : Wrapped I S O A) (eNone : PyErr) (h : Heap A) (image : I)
    (shape : S) (kwargs : Dict A) (pre : I → S → Except PyErr (I × Transf S))
    (hw : w.preprocess = some pre) (proc : I) (t : Transf S) (hp : pre image shape = .ok (proc, t))
    (inner : WRes S O)
    (hf : w.fit proc (t.pinv shape) (update (deref h w.stored) kwargs) = .ok inner)
    (hi : inner.initial = none) :
    (fitWrapped w eNone h image shape kwargs).2 = .error eNone := by
  rw [fitWrapped_pre w eNone h image shape kwargs pre hw]
  simp only [hp, bind, Except.bind, hf, mapBack, hi]

/-- A toy fitter on numbers: the crop moves by 10, the fit adds the step option twice. -/
def toyWrapped : Wrapped Nat Nat Nat Nat :=
  ⟨fun im s d => .ok ⟨s + 2 * (dictGet d "step").getD 0, some s,
      some [s, s + (dictGet d "step").getD 0, s + 2 * (dictGet d "step").getD 0], im⟩,
    0, some fun im s => .ok (im + 1, ⟨(· + 10), (· - 10)⟩)⟩

example : fitCalls toyWrapped .typeError [[("step", 3)]] [(5, 50, []), (5, 50, [("step", 7)]),
    (5, 50, [])] =
    ([[("step", 3)], [("step", 3)], [("step", 7)], [("step", 3)]],
      [.ok ⟨56, some 50, some [50, 53, 56], 6⟩, .ok ⟨64, some 50, some [50, 57, 64], 6⟩,
        .ok ⟨56, some 50, some [50, 53, 56], 6⟩]) := by decide +kernel

/-! ### C64 -/

/-- C64: whatever the chunk size (other than zero) and however the network splits the data, the
bytes written after what was there are exactly the bytes served, and there is one tick for each of
the non-empty pieces, none longer than the chunk size, that make up the data. -/
theorem C64_copy (ready : Nat → Nat) (length : Int) (hl : length ≠ 0) (src dst : List UInt8) :
    (copyAndYield ready length 0 src dst).1 = dst ++ src ∧
    ∃ ps : List (List UInt8), ps.flatten = src ∧ (copyAndYield ready length 0 src dst).2 = ps.length ∧
      ∀ p ∈ ps, p ≠ [] ∧ (0 ≤ length → p.length ≤ length.toNat) := by
  have h1 := copy_all ready length hl src.length 0 src dst le_rfl
  obtain ⟨h2, h3⟩ := copy_pieces ready length src.length 0 src dst le_rfl
  refine ⟨h1, _, ?_, h2, pieces_ne ready length _ _ _⟩
  rw [h1] at h3
  exact (List.append_cancel_left h3).symm

example : copyAndYield (fun i => i + 1) 2 0 [1, 2, 3, 4, 5, 6] [9] = ([9, 1, 2, 3, 4, 5, 6], 4) := by
  decide +kernel

/-! ### C65 -/

/-- C65: a call that ends either returns the fitter that is in the file, or leaves no file. -/
theorem C65_purged {F : Type} (loads : List UInt8 → Except PyErr F) (sent : List UInt8)
    (crash : Option Crash) (file : Option (List UInt8))
    (h : (loadFitter loads sent crash file).2.1 ≠ .crashed) :
    (∃ f c, (loadFitter loads sent crash file).2.1 = .returned f ∧
      (loadFitter loads sent crash file).1 = some c ∧ loads c = .ok f) ∨
    (∃ e, (loadFitter loads sent crash file).2.1 = .raised e ∧
      (loadFitter loads sent crash file).1 = none) := by
  have key : ∀ c d, (if crash = some Crash.loading then (some c, Outcome.crashed, d)
      else match loads c with
        | .ok f => (some c, .returned f, d)
        | .error e => (none, .raised e, d) : Option (List UInt8) × Outcome F × Bool) =
      loadFitter loads sent crash file →
      (∃ f c, (loadFitter loads sent crash file).2.1 = .returned f ∧
      (loadFitter loads sent crash file).1 = some c ∧ loads c = .ok f) ∨
    (∃ e, (loadFitter loads sent crash file).2.1 = .raised e ∧
      (loadFitter loads sent crash file).1 = none) := by
    intro c d e
    rw [← e] at h ⊢
    by_cases hc : crash = some Crash.loading
    · rw [if_pos hc] at h
      exact absurd rfl h
    · rw [if_neg hc]
      cases hl : loads c with
      | ok f => exact .inl ⟨f, c, rfl, rfl, hl⟩
      | error e => exact .inr ⟨e, rfl, rfl⟩
  cases file with
  | some c => exact key c false rfl
  | none =>
    cases crash with
    | none => exact key sent true rfl
    | some cr =>
      cases cr with
      | connect => exact .inr ⟨_, rfl, rfl⟩
      | downloading k => exact absurd rfl h
      | loading => exact key sent true rfl

/-- After any history the file is missing or a beginning of the served file. -/
theorem history_prefix {F : Type} {loads : List UInt8 → Except PyErr F} {full : List UInt8}
    (cs : List (List UInt8 × Option Crash)) (hcs : ∀ c ∈ cs, ∃ n, c.1 = full.take n)
    (file : Option (List UInt8)) (hf : ∀ c, file = some c → ∃ n, c = full.take n) :
    ∀ c, history loads cs file = some c → ∃ n, c = full.take n := by
  induction cs generalizing file with
  | nil => exact hf
  | cons x cs ih =>
    obtain ⟨sent, crash⟩ := x
    obtain ⟨n, hn⟩ := hcs (sent, crash) (by simp)
    simp only at hn
    refine ih (fun c hc => hcs c (by simp [hc])) _ ?_
    have key : ∀ c d, (∃ n, c = full.take n) →
        ∀ c', (if crash = some Crash.loading then (some c, Outcome.crashed, d)
      else match loads c with
        | .ok f => (some c, .returned f, d)
        | .error e => (none, .raised e, d) : Option (List UInt8) × Outcome F × Bool).1 = some c' →
        ∃ n, c' = full.take n := by
      intro c d hc c' h
      by_cases hcr : crash = some Crash.loading
      · rw [if_pos hcr] at h
        injection h with h
        exact h ▸ hc
      · rw [if_neg hcr] at h
        cases hl : loads c with
        | ok f => rw [hl] at h; injection h with h; exact h ▸ hc
        | error e => rw [hl] at h; cases h
    cases file with
    | some c => exact key c false (hf c rfl)
    | none =>
      cases crash with
      | none => exact key sent true ⟨n, hn⟩
      | some cr =>
        cases cr with
        | connect => intro c h; cases h
        | downloading k =>
          intro c h
          injection h with h
          exact ⟨min k n, by rw [← h, hn, List.take_take]⟩
        | loading => exact key sent true ⟨n, hn⟩

/-- C65: after any history of calls with crashes and connections cut short, the second of two
undisturbed calls returns the fitter; the first either does too or raises.
(Missing: that the first one succeeds, see `C65_first_call_violated`.) -/
theorem C65_recovery_partial {F : Type} (loads : List UInt8 → Except PyErr F) (full : List UInt8)
    (f : F) (ha : Archive loads full f) (cs : List (List UInt8 × Option Crash))
    (hcs : ∀ c ∈ cs, ∃ n, c.1 = full.take n) :
    let first := loadFitter loads full none (history loads cs none)
    (first.2.1 = .returned f ∨ ∃ e, first.2.1 = .raised e) ∧
    (loadFitter loads full none first.1).2.1 = .returned f := by
  have hp := history_prefix (loads := loads) (full := full) cs hcs none (by simp)
  have hnone : loadFitter loads full none none = (some full, .returned f, true) := by
    simp [loadFitter, ha.whole]
  cases hh : history loads cs none with
  | none =>
    simp only [hnone]
    exact ⟨.inl trivial, by simp [loadFitter, ha.whole]⟩
  | some c =>
    obtain ⟨n, rfl⟩ := hp c hh
    by_cases hn : n < full.length
    · obtain ⟨e, he⟩ := ha.cut n hn
      have : loadFitter loads full none (some (full.take n)) = (none, .raised e, false) := by
        simp [loadFitter, he]
      simp only [this, hnone]
      exact ⟨.inr ⟨e, rfl⟩, trivial⟩
    · rw [List.take_of_length_le (by omega)]
      have : loadFitter loads full none (some full) = (some full, .returned f, false) := by
        simp [loadFitter, ha.whole]
      simp only [this]
      exact ⟨.inl trivial, trivial⟩

/-- C65 fails for the first call: a download that stops half way leaves the damaged file, and the
next, undisturbed call raises. -/
theorem C65_first_call_violated {F : Type} (loads : List UInt8 → Except PyErr F)
    (full : List UInt8) (f : F) (ha : Archive loads full f) (k : Nat) (hk : k < full.length) :
    history loads [(full, some (.downloading k))] none = some (full.take k) ∧
    ∃ e, loadFitter loads full none (history loads [(full, some (.downloading k))] none) =
      (none, .raised e, false) := by
  obtain ⟨e, he⟩ := ha.cut k hk
  have h1 : history loads [(full, some (.downloading k))] none = some (full.take k) := rfl
  refine ⟨h1, e, ?_⟩
  rw [h1]
  simp [loadFitter, he]

/-- C65: with an intact file nothing is downloaded and the file stays; the fitter is returned
unless the process ends. -/
theorem C65_no_download {F : Type} (loads : List UInt8 → Except PyErr F) (full sent : List UInt8)
    (f : F) (ha : Archive loads full f) (crash : Option Crash) :
    (loadFitter loads sent crash (some full)).1 = some full ∧
    (loadFitter loads sent crash (some full)).2.2 = false ∧
    (crash ≠ some .loading →
      (loadFitter loads sent crash (some full)).2.1 = .returned f) := by
  by_cases hc : crash = some .loading
  · subst hc
    exact ⟨rfl, rfl, fun h => absurd rfl h⟩
  · simp [loadFitter, hc, ha.whole]

/-- C65: a call whose loading fails for any reason, for instance a passing shortage of memory,
deletes the file even if it is intact, and the next call downloads it again. -/
theorem C65_passing_failure_violated {F : Type} (loads loads' : List UInt8 → Except PyErr F)
    (full : List UInt8) (f : F) (ha : Archive loads full f) (e : PyErr)
    (he : loads' full = .error e) :
    (loadFitter loads' full none (some full)).1 = none ∧
    (loadFitter loads full none (loadFitter loads' full none (some full)).1).2.2 = true := by
  have h1 : (loadFitter loads' full none (some full)).1 = none := by simp [loadFitter, he]
  rw [h1]
  simp [loadFitter, ha.whole]

/-- Files that end with the byte 46, as pickles do. -/
example : Archive (fun l => if l.getLast? = some 46 then .ok l.length else .error .ioError)
    [128, 3, 75, 46] 4 :=
  ⟨rfl, fun k hk => by
    have : k = 0 ∨ k = 1 ∨ k = 2 ∨ k = 3 := by simp at hk; omega
    rcases this with rfl | rfl | rfl | rfl <;> exact ⟨_, rfl⟩⟩

end Menpofit
