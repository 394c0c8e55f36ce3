import Verif.Model.FailedTraining
import Verif.Spec.FailedTraining
import Verif.Lemmas.Training
/-!
# Lemmas about failed increments
-/

set_option linter.unusedSectionVars false

namespace Menpofit
namespace FailedTraining
open Training Spec

variable {Im Sh F W SM AM M D : Type} [DecidableEq F]

theorem attempt_ok {σ α : Type} {st st' : σ} {x : Except PyErr α} {k : α → Run σ}
    (h : attempt st x k = (st', .ok ())) : ∃ a, x = .ok a ∧ k a = (st', .ok ()) := by
  cases x with
  | error e => simp [attempt] at h
  | ok a => exact ⟨a, rfl, h⟩

theorem attempt_error {σ α : Type} {st st' : σ} {x : Except PyErr α} {k : α → Run σ} {e : PyErr}
    (h : attempt st x k = (st', .error e)) :
    (x = .error e ∧ st' = st) ∨ ∃ a, x = .ok a ∧ k a = (st', .error e) := by
  cases x with
  | error e' =>
    simp only [attempt, Prod.mk.injEq, Except.error.injEq] at h
    exact .inl ⟨by rw [h.2], h.1.symm⟩
  | ok a => exact .inr ⟨a, rfl, h⟩

/-- If whatever follows raises, so does the whole. -/
theorem attempt_always {σ α : Type} {st : σ} {x : Except PyErr α} {k : α → Run σ}
    (h : ∀ a, ∃ s e, k a = (s, .error e)) : ∃ s e, attempt st x k = (s, .error e) := by
  cases x with
  | error e => exact ⟨st, e, rfl⟩
  | ok a => exact h a

theorem bind_always {α β : Type} {x : Except PyErr α} {f : α → Except PyErr β}
    (h : ∀ a, ∃ e, f a = .error e) : ∃ e, (x >>= f) = .error e := by
  cases x with
  | error e => exact ⟨e, rfl⟩
  | ok a => exact h a

theorem Replaced.refl {R : Nat → M → M → Prop} (a : Nat) (l : List M) : Replaced R a a l l :=
  ⟨rfl, fun i h1 h2 => absurd h2 (by omega), fun _ _ => rfl⟩

theorem Replaced.trans {R : Nat → M → M → Prop} {a b c : Nat} {l m n : List M} (hab : a ≤ b) (hbc : b ≤ c)
    (h : Replaced R a b l m) (h' : Replaced R b c m n) : Replaced R a c l n := by
  refine ⟨h'.same_length.trans h.same_length, ?_, ?_⟩
  · intro i h1 h2
    by_cases hb : i < b
    · obtain ⟨x, x', e1, e2, hr⟩ := h.inside i h1 hb
      exact ⟨x, x', e1, (h'.outside i (.inl hb)).trans e2, hr⟩
    · obtain ⟨x, x', e1, e2, hr⟩ := h'.inside i (by omega) h2
      exact ⟨x, x', (h.outside i (.inr (by omega))).symm.trans e1, e2, hr⟩
  · intro i hi
    rcases hi with hi | hi
    · exact (h'.outside i (.inl (by omega))).trans (h.outside i (.inl hi))
    · exact (h'.outside i (.inr hi)).trans (h.outside i (.inr (by omega)))

theorem update_replaced {R : Nat → M → M → Prop} {new : List D → Except PyErr M}
    {inc : M → List D → Except PyErr M} {j : Nat} {l l' : List M} {d : List D}
    (h : update new inc true j l d = .ok l') (hR : ∀ m m', inc m d = .ok m' → R j m m') :
    Replaced R j (j + 1) l l' := by
  unfold update at h
  simp only [if_true] at h
  split at h
  · cases h
  · rename_i m hm
    obtain ⟨m', h1, h2⟩ := bind_ok h
    injection h2 with h2
    subst h2
    refine ⟨by simp, ?_, ?_⟩
    · intro i h3 h4
      obtain rfl : i = j := by omega
      have := (List.getElem?_eq_some_iff.mp hm).1
      exact ⟨m, m', hm, by simp [this], hR _ _ h1⟩
    · intro i h3
      rw [List.getElem?_set_ne (by omega)]

variable {o : ImageOps Im Sh F} {L : Learners Im Sh W SM AM}

theorem batchRun_ok (r : Sh) (inc : Bool) (images : List Im) :
    ∀ (ls : List (Level F)) (j : Nat) (prev : Option (F × List Im)) (st : St Sh SM AM),
    match batchLoop o L r inc images j prev st ls with
    | .ok st' => batchRun o L r inc images j prev st ls = (st', .ok ())
    | .error e => (batchRun o L r inc images j prev st ls).2 = .error e := by
  intro ls
  induction ls with
  | nil => intro j prev st; rfl
  | cons l ls ih =>
    intro j prev st
    simp only [batchLoop, batchRun]
    cases featureImages o images prev l.feature with
    | error e => rfl
    | ok fi =>
    simp only [attempt, bind, Except.bind]
    cases scaledImages o l.scale fi with
    | error e => rfl
    | ok si =>
    simp only
    cases si.mapM o.shapeOf with
    | error e => rfl
    | ok shapes =>
    simp only
    cases update (L.shape.new l.maxShape) (L.shape.inc l.maxShape) inc j st.shapeModels shapes with
    | error e => rfl
    | ok sm =>
    simp only
    cases (si.zip shapes).mapM fun x => L.warp (o.scaleShape l.scale r) j x.1 x.2 with
    | error e => rfl
    | ok warped =>
    simp only
    cases update (L.second.new l.maxSecond) (L.second.inc l.maxSecond) inc j st.second warped with
    | error e => rfl
    | ok am => exact ih _ _ _

theorem batchRun_left (hno : ∀ i, o.feature o.noOp i = .ok i) {levels : List (Level F)} {r : Sh}
    {b images : List Im} (hr : b.mapM (o.rescale r) = .ok images) :
    ∀ {ls : List (Level F)} {j : Nat} {prev : Option (F × List Im)} {st st' : St Sh SM AM} {e : PyErr},
    ls = levels.drop j →
    (∀ f' fi', prev = some (f', fi') → images.mapM (o.feature f') = .ok fi') →
    batchRun o L r true images j prev st ls = (st', .error e) →
    ∃ i, j ≤ i ∧ i < levels.length ∧ st'.ref = st.ref ∧
      Replaced (IncrementedWith levels (fun l => L.second.inc l.maxSecond) (warpedAt o L.warp r) b) j i
        st.second st'.second ∧
      ∃ k, (k = i ∨ k = i + 1) ∧
        Replaced (IncrementedWith levels (fun l => L.shape.inc l.maxShape) (fun _ => shapeAt o r) b) j k
          st.shapeModels st'.shapeModels := by
  intro ls
  induction ls with
  | nil => intro j prev st st' e _ _ h; simp [batchRun] at h
  | cons l ls ih =>
    intro j prev st st' e hls hp h
    have hj : j < levels.length := by
      by_contra hc
      rw [List.drop_eq_nil_of_le (by omega)] at hls
      cases hls
    have hl : levels[j]? = some l := by
      have := congrArg (fun x => x[0]?) hls
      simpa using this.symm
    have hls' : ls = levels.drop (j + 1) := by
      have := congrArg List.tail hls
      simpa using this
    have stop : st' = st → ∃ i, j ≤ i ∧ i < levels.length ∧ st'.ref = st.ref ∧
      Replaced (IncrementedWith levels (fun l => L.second.inc l.maxSecond) (warpedAt o L.warp r) b) j i
        st.second st'.second ∧
      ∃ k, (k = i ∨ k = i + 1) ∧
        Replaced (IncrementedWith levels (fun l => L.shape.inc l.maxShape) (fun _ => shapeAt o r) b) j k
          st.shapeModels st'.shapeModels := by
      rintro rfl
      exact ⟨j, le_rfl, hj, rfl, Replaced.refl _ _, j, .inl rfl, Replaced.refl _ _⟩
    unfold batchRun at h
    rcases attempt_error h with ⟨-, h⟩ | ⟨fi, h1, h⟩
    · exact stop h
    rcases attempt_error h with ⟨-, h⟩ | ⟨si, h2, h⟩
    · exact stop h
    rcases attempt_error h with ⟨-, h⟩ | ⟨s, h3, h⟩
    · exact stop h
    rcases attempt_error h with ⟨-, h⟩ | ⟨sm, h4, h⟩
    · exact stop h
    have hi := images_ok hno hr hp h1 h2
    have r1 : Replaced (IncrementedWith levels (fun l => L.shape.inc l.maxShape) (fun _ => shapeAt o r) b) j (j + 1)
        st.shapeModels sm := update_replaced h4 fun m m' e => ⟨l, s, hl, shapes_ok hi h3, e⟩
    rcases attempt_error h with ⟨-, h⟩ | ⟨w, h5, h⟩
    · subst h
      exact ⟨j, le_rfl, hj, rfl, Replaced.refl _ _, j + 1, .inr rfl, r1⟩
    rcases attempt_error h with ⟨-, h⟩ | ⟨am, h6, h⟩
    · subst h
      exact ⟨j, le_rfl, hj, rfl, Replaced.refl _ _, j + 1, .inr rfl, r1⟩
    have r2 : Replaced (IncrementedWith levels (fun l => L.second.inc l.maxSecond) (warpedAt o L.warp r) b) j (j + 1)
        st.second am := update_replaced h6 fun m m' e => ⟨l, w, hl, warped_ok hi h3 h5, e⟩
    obtain ⟨i, q1, q2, q3, q4, k, q5, q6⟩ := ih hls' (fun f' fi' e => by
      injection e with e; injection e with e1 e2; subst e1; subst e2
      exact featureImages_ok hno hp h1) h
    exact ⟨i, by omega, q2, q3, Replaced.trans (by omega) q1 r2 q4, k, q5, Replaced.trans (by omega) (by omega) r1 q6⟩

theorem batchLoop_ref {r : Sh} {inc : Bool} {images : List Im} :
    ∀ {ls : List (Level F)} {j : Nat} {prev : Option (F × List Im)} {st st' : St Sh SM AM},
    batchLoop o L r inc images j prev st ls = .ok st' → st'.ref = st.ref := by
  intro ls
  induction ls with
  | nil => intro j prev st st' h; injection h with h; rw [h]
  | cons l ls ih =>
    intro j prev st st' h
    unfold batchLoop at h
    obtain ⟨fi, h1, h⟩ := bind_ok h
    obtain ⟨si, h2, h⟩ := bind_ok h
    obtain ⟨s, h3, h⟩ := bind_ok h
    obtain ⟨sm, h4, h⟩ := bind_ok h
    obtain ⟨w, h5, h⟩ := bind_ok h
    obtain ⟨am, h6, h⟩ := bind_ok h
    exact (ih h).trans rfl

/-- Incrementing does not look at the number of the batch when there is a reference shape. -/
theorem trainLoop_anyK {levels : List (Level F)} : ∀ {bs : List (List Im)} {k k' : Nat} {st : St Sh SM AM} {r : Sh},
    st.ref = some r → trainLoop o L levels k true st bs = trainLoop o L levels k' true st bs := by
  intro bs
  induction bs with
  | nil => intros; rfl
  | cons b bs ih =>
    intro k k' st r hr
    have hk : ∀ k, reference o k st.ref b = .ok (some r) := by
      intro k; rw [hr]; unfold reference; split <;> rfl
    simp only [trainLoop, hk, bind, Except.bind, ite_self]
    cases b.mapM (o.rescale r) with
    | error e => rfl
    | ok images =>
      simp only
      cases hb : batchLoop o L r true images 0 none { st with ref := some r } levels with
      | error e => rfl
      | ok st1 =>
        have := batchLoop_ref hb
        exact ih (r := r) this

theorem trainLoop_cons {levels : List (Level F)} {b : List Im} {bs : List (List Im)} {k : Nat} {st : St Sh SM AM}
    {r : Sh} (hr : st.ref = some r) :
    trainLoop o L levels k true st (b :: bs) =
      (b.mapM (o.rescale r) >>= fun images => batchLoop o L r true images 0 none st levels >>= fun st1 =>
        trainLoop o L levels (k + 1) true st1 bs) := by
  have hk : reference o k st.ref b = .ok (some r) := by
    rw [hr]; unfold reference; split <;> rfl
  have hs : ({ st with ref := some r } : St Sh SM AM) = st := by rw [← hr]
  simp only [trainLoop, hk, bind, Except.bind, ite_self, hs]

theorem trainRun_cons {levels : List (Level F)} {last : Except PyErr Unit} {b : List Im} {bs : List (List Im)}
    {k : Nat} {st : St Sh SM AM} {r : Sh} (hr : st.ref = some r) :
    trainRun o L levels last k true st (b :: bs) =
      attempt st (b.mapM (o.rescale r)) fun images =>
        match batchRun o L r true images 0 none st levels with
        | (st, .error e) => (st, .error e)
        | (st, .ok ()) => trainRun o L levels last (k + 1) true st bs := by
  have hk : reference o k st.ref b = .ok (some r) := by
    rw [hr]; unfold reference; split <;> rfl
  have hs : ({ st with ref := some r } : St Sh SM AM) = st := by rw [← hr]
  simp only [trainRun, hk, ite_self]
  rw [attempt]
  simp only [hs]
  rfl

theorem trainLoop_append {levels : List (Level F)} : ∀ {bs cs : List (List Im)} {k : Nat} {st st1 : St Sh SM AM}
    {r : Sh}, st.ref = some r → trainLoop o L levels k true st bs = .ok st1 →
    st1.ref = some r ∧ ∀ k', trainLoop o L levels k true st (bs ++ cs) = trainLoop o L levels k' true st1 cs := by
  intro bs
  induction bs with
  | nil =>
    intro cs k st st1 r hr h
    injection h with h; subst h
    exact ⟨hr, fun k' => trainLoop_anyK hr⟩
  | cons b bs ih =>
    intro cs k st st1 r hr h
    rw [trainLoop_cons hr] at h
    obtain ⟨images, h1, h⟩ := bind_ok h
    obtain ⟨st2, h2, h⟩ := bind_ok h
    have hr2 : st2.ref = some r := (batchLoop_ref h2).trans hr
    obtain ⟨q1, q2⟩ := ih (cs := cs) hr2 h
    refine ⟨q1, fun k' => ?_⟩
    rw [List.cons_append, trainLoop_cons hr, h1]
    simp only [bind, Except.bind, h2]
    exact q2 k'

theorem trainRun_ok {levels : List (Level F)} {last : Except PyErr Unit} :
    ∀ {bs : List (List Im)} {k : Nat} {st : St Sh SM AM} {r : Sh}, st.ref = some r →
    match trainLoop o L levels k true st bs with
    | .ok st' => trainRun o L levels last k true st bs = (st', last)
    | .error e => (trainRun o L levels last k true st bs).2 = .error e := by
  intro bs
  induction bs with
  | nil => intros; rfl
  | cons b bs ih =>
    intro k st r hr
    rw [trainLoop_cons hr, trainRun_cons hr]
    cases b.mapM (o.rescale r) with
    | error e => rfl
    | ok images =>
      simp only [bind, Except.bind, attempt]
      have hb := batchRun_ok (o := o) (L := L) r true images levels 0 none st
      cases h : batchLoop o L r true images 0 none st levels with
      | error e =>
        rw [h] at hb
        simp only at hb ⊢
        obtain ⟨s, hs⟩ : ∃ s, batchRun o L r true images 0 none st levels = (s, .error e) := ⟨_, Prod.ext rfl hb⟩
        rw [hs]
      | ok st1 =>
        rw [h] at hb
        simp only at hb ⊢
        rw [hb]
        exact ih ((batchLoop_ref h).trans hr)

/-- Where a training with a reference shape stops. -/
theorem trainRun_left (hno : ∀ i, o.feature o.noOp i = .ok i) {levels : List (Level F)}
    {last : Except PyErr Unit} :
    ∀ {bs : List (List Im)} {k : Nat} {st st' : St Sh SM AM} {r : Sh} {e : PyErr}, st.ref = some r →
    trainRun o L levels last k true st bs = (st', .error e) →
    (trainLoop o L levels k true st bs = .ok st' ∧ last = .error e) ∨
    ∃ i b st1, bs[i]? = some b ∧ trainLoop o L levels k true st (bs.take i) = .ok st1 ∧
      ((st' = st1 ∧ b.mapM (o.rescale r) = .error e) ∨
        ∃ j, j < levels.length ∧ GivenUpAt o L levels r b j st1 st') := by
  intro bs
  induction bs with
  | nil =>
    intro k st st' r e hr h
    simp only [trainRun, Prod.mk.injEq] at h
    exact .inl ⟨by rw [trainLoop, h.1], h.2⟩
  | cons b bs ih =>
    intro k st st' r e hr h
    rw [trainRun_cons hr] at h
    rcases attempt_error h with ⟨h1, rfl⟩ | ⟨images, h1, h⟩
    · exact .inr ⟨0, b, st', rfl, rfl, .inl ⟨rfl, h1⟩⟩
    have hb := batchRun_ok (o := o) (L := L) r true images levels 0 none st
    cases h2 : batchLoop o L r true images 0 none st levels with
    | error e' =>
      rw [h2] at hb
      simp only at hb
      obtain ⟨s, hs⟩ : ∃ s, batchRun o L r true images 0 none st levels = (s, .error e') := ⟨_, Prod.ext rfl hb⟩
      rw [hs] at h
      simp only [Prod.mk.injEq, Except.error.injEq] at h
      obtain ⟨rfl, rfl⟩ := h
      obtain ⟨j, -, q2, q3, q4, q5⟩ := batchRun_left hno h1 (levels := levels) (j := 0) (by simp) (by simp) hs
      exact .inr ⟨0, b, st, rfl, rfl, .inr ⟨j, q2, q3, q4, q5⟩⟩
    | ok st1 =>
      rw [h2] at hb
      simp only at hb
      rw [hb] at h
      simp only at h
      rcases ih ((batchLoop_ref h2).trans hr) h with ⟨q1, q2⟩ | ⟨i, b', st2, q1, q2, q3⟩
      · refine .inl ⟨?_, q2⟩
        rw [trainLoop_cons hr, h1]
        simp only [bind, Except.bind, h2]
        exact q1
      · refine .inr ⟨i + 1, b', st2, by simpa using q1, ?_, q3⟩
        rw [List.take_succ_cons, trainLoop_cons hr, h1]
        simp only [bind, Except.bind, h2]
        exact q2

end FailedTraining
end Menpofit
