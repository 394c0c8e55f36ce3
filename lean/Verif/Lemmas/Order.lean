import Verif.Spec.Order
import Verif.Lemmas.Training
import Mathlib.Data.List.Forall2
/-!
# Training and the order of the data
-/

namespace Menpofit
open Training Spec

theorem Agree.symm' {α : Type} {x y : Except PyErr α} (h : Agree x y) : Agree y x := fun v => (h v).symm

theorem forall₂_of_mapM {α β : Type} {f : α → Except PyErr β} : ∀ {l : List α} {r : List β},
    l.mapM f = .ok r → List.Forall₂ (fun x y => f x = .ok y) l r
  | [], r, h => by
    rw [mapM_nil_ok] at h
    rw [h]; exact .nil
  | a :: l, r, h => by
    rw [mapM_cons_ok] at h
    obtain ⟨b, bs, h1, h2, rfl⟩ := h
    exact .cons h1 (forall₂_of_mapM h2)

theorem mapM_of_forall₂ {α β : Type} {f : α → Except PyErr β} {l : List α} {r : List β}
    (h : List.Forall₂ (fun x y => f x = .ok y) l r) : l.mapM f = .ok r := by
  induction h with
  | nil => rfl
  | cons h1 _ ih => rw [mapM_cons_ok]; exact ⟨_, _, h1, ih, rfl⟩

theorem mapM_perm {α β : Type} {f : α → Except PyErr β} {l l' : List α} (hp : l.Perm l') {r : List β}
    (h : l.mapM f = .ok r) : ∃ r', l'.mapM f = .ok r' ∧ r.Perm r' := by
  obtain ⟨r', h1, h2⟩ := List.perm_comp_forall₂ hp.symm (forall₂_of_mapM h)
  exact ⟨r', mapM_of_forall₂ h1, h2.symm⟩

theorem mapM_mono {α β : Type} {f f' : α → Except PyErr β} (hf : ∀ a b, f a = .ok b → f' a = .ok b) {l : List α}
    {r : List β} (h : l.mapM f = .ok r) : l.mapM f' = .ok r :=
  mapM_of_forall₂ ((forall₂_of_mapM h).imp hf)

theorem bind_mono {α β : Type} {x x' : Except PyErr α} {f f' : α → Except PyErr β}
    (hx : ∀ a, x = .ok a → ∃ a', x' = .ok a' ∧ ∀ b, f a = .ok b → f' a' = .ok b) {b : β} (h : (x >>= f) = .ok b) :
    (x' >>= f') = .ok b := by
  obtain ⟨a, h1, h2⟩ := bind_ok h
  obtain ⟨a', h3, h4⟩ := hx a h1
  rw [h3]
  exact h4 b h2

theorem zip_eq_mapM {α β : Type} {f : α → Except PyErr β} {l : List α} {r : List β}
    (h : l.mapM f = .ok r) : l.mapM (fun x => (f x).map fun y => (x, y)) = .ok (l.zip r) := by
  apply mapM_of_forall₂
  have h2 := forall₂_of_mapM h
  clear h
  induction h2 with
  | nil => exact .nil
  | cons h1 _ ih => exact .cons (by rw [h1]; rfl) ih

theorem mapM_zip_perm {α β : Type} {f : α → Except PyErr β} {l l' : List α} (hp : l.Perm l') {r : List β}
    (h : l.mapM f = .ok r) : ∃ r', l'.mapM f = .ok r' ∧ r.Perm r' ∧ (l.zip r).Perm (l'.zip r') := by
  obtain ⟨r', h1, h2⟩ := mapM_perm hp h
  obtain ⟨z, h3, h4⟩ := mapM_perm hp (zip_eq_mapM h)
  rw [zip_eq_mapM h1] at h3
  injection h3 with h3
  exact ⟨r', h1, h2, h3 ▸ h4⟩

theorem Learner.new_free {M D : Type} {L : Learner M D} (h : OrderFree L.build) (k : Option Nat) :
    OrderFree (L.new k) := by
  have key : ∀ d d' : List D, d.Perm d' → ∀ v, L.new k d = .ok v → L.new k d' = .ok v := by
    intro d d' hd v hv
    unfold Learner.new at hv ⊢
    obtain ⟨m, h1, h2⟩ := bind_ok hv
    rw [(h d d' hd m).mp h1]
    exact h2
  exact fun d d' hd v => ⟨key d d' hd v, key d' d hd.symm v⟩

theorem Learner.inc_free {M D : Type} {L : Learner M D} (h : ∀ m, OrderFree (L.increment m)) (k : Option Nat)
    (m : M) : OrderFree (L.inc k m) := by
  have key : ∀ d d' : List D, d.Perm d' → ∀ v, L.inc k m d = .ok v → L.inc k m d' = .ok v := by
    intro d d' hd v hv
    unfold Learner.inc at hv ⊢
    obtain ⟨m', h1, h2⟩ := bind_ok hv
    rw [(h m d d' hd m').mp h1]
    exact h2
  exact fun d d' hd v => ⟨key d d' hd v, key d' d hd.symm v⟩

theorem update_free {M D : Type} {new : List D → Except PyErr M} {inc : M → List D → Except PyErr M}
    (hn : OrderFree new) (hi : ∀ m, OrderFree (inc m)) {increment : Bool} {j : Nat} {models v : List M}
    {d d' : List D} (hd : d.Perm d') (h : update new inc increment j models d = .ok v) :
    update new inc increment j models d' = .ok v := by
  unfold update at h ⊢
  split
  · rename_i hb
    rw [if_pos hb] at h
    cases hm : models[j]? with
    | none => rw [hm] at h; cases h
    | some m =>
      simp only [hm] at h ⊢
      obtain ⟨m', h1, h2⟩ := bind_ok h
      rw [(hi m d d' hd m').mp h1]
      exact h2
  · rename_i hb
    rw [if_neg hb] at h
    obtain ⟨m', h1, h2⟩ := bind_ok h
    rw [(hn d d' hd m').mp h1]
    exact h2

variable {Im Sh F W SM AM G DM : Type} [DecidableEq F]

/-- The feature images of the previous scale, in another order. -/
def PrevPerm : Option (F × List Im) → Option (F × List Im) → Prop
  | none, none => True
  | some (f, l), some (f', l') => f = f' ∧ l.Perm l'
  | _, _ => False

theorem featureImages_perm (o : ImageOps Im Sh F) {images images' : List Im} (hi : images.Perm images')
    {prev prev' : Option (F × List Im)} (hp : PrevPerm prev prev') (f : F) {r : List Im}
    (h : featureImages o images prev f = .ok r) :
    ∃ r', featureImages o images' prev' f = .ok r' ∧ r.Perm r' := by
  unfold featureImages at h ⊢
  match prev, prev', hp with
  | none, none, _ =>
    simp only at h ⊢
    split at h
    · rename_i hf
      injection h with h
      exact ⟨images', by rw [if_pos hf], h ▸ hi⟩
    · rename_i hf
      rw [if_neg hf]
      exact mapM_perm hi h
  | some (g, l), some (_, l'), ⟨rfl, hl⟩ =>
    simp only at h ⊢
    split at h
    · rename_i hf
      rw [if_pos hf]
      exact mapM_perm hi h
    · rename_i hf
      injection h with h
      exact ⟨l', by rw [if_neg hf], h ▸ hl⟩

theorem scaledImages_perm (o : ImageOps Im Sh F) (s : Rat) {l l' : List Im} (hl : l.Perm l') {r : List Im}
    (h : scaledImages o s l = .ok r) : ∃ r', scaledImages o s l' = .ok r' ∧ r.Perm r' := by
  unfold scaledImages Training.scaleImages at h ⊢
  split at h
  · rename_i h1
    rw [if_pos h1]
    split at h
    · rename_i h2
      injection h with h
      exact ⟨l', by rw [if_pos h2], h ▸ hl⟩
    · rename_i h2
      rw [if_neg h2]
      exact mapM_perm hl h
  · rename_i h1
    injection h with h
    exact ⟨l', by rw [if_neg h1], h ▸ hl⟩

theorem batchLoop_perm {o : ImageOps Im Sh F} {L : Learners Im Sh W SM AM} (hs : OrderFree L.shape.build)
    (hsi : ∀ m, OrderFree (L.shape.increment m)) (ha : OrderFree L.second.build)
    (hai : ∀ m, OrderFree (L.second.increment m)) (ref : Sh) (increment : Bool) {images images' : List Im}
    (hi : images.Perm images') : ∀ (ls : List (Level F)) (j : Nat) (prev prev' : Option (F × List Im))
      (_ : PrevPerm prev prev') (st v : St Sh SM AM), batchLoop o L ref increment images j prev st ls = .ok v →
      batchLoop o L ref increment images' j prev' st ls = .ok v
  | [], j, prev, prev', hp, st, v, h => by
    unfold batchLoop at h ⊢
    exact h
  | l :: ls, j, prev, prev', hp, st, v, h => by
    unfold batchLoop at h ⊢
    obtain ⟨fi, h1, h⟩ := bind_ok h
    obtain ⟨si, h2, h⟩ := bind_ok h
    obtain ⟨sh, h3, h⟩ := bind_ok h
    obtain ⟨sm, h4, h⟩ := bind_ok h
    obtain ⟨wa, h5, h⟩ := bind_ok h
    obtain ⟨am, h6, h⟩ := bind_ok h
    obtain ⟨fi', e1, p1⟩ := featureImages_perm o hi hp _ h1
    obtain ⟨si', e2, p2⟩ := scaledImages_perm o _ p1 h2
    obtain ⟨sh', e3, p3, p3'⟩ := mapM_zip_perm p2 h3
    obtain ⟨wa', e5, p5⟩ := mapM_perm p3' h5
    have e4 := update_free (Learner.new_free hs _) (Learner.inc_free hsi _) p3 h4
    have e6 := update_free (Learner.new_free ha _) (Learner.inc_free hai _) p5 h6
    simp only [e1, e2, e3, e4, e5, e6, bind, Except.bind]
    exact batchLoop_perm hs hsi ha hai ref increment hi ls _ (some (l.feature, fi)) (some (l.feature, fi')) ⟨rfl, p1⟩ _ _ h

theorem reference_perm {o : ImageOps Im Sh F} (hr : OrderFree o.reference) {k : Nat} {ref v : Option Sh}
    {b b' : List Im} (hb : b.Perm b') (h : reference o k ref b = .ok v) : reference o k ref b' = .ok v := by
  unfold reference at h ⊢
  split
  · rename_i hk
    rw [if_pos hk] at h
    cases ref with
    | some r => exact h
    | none =>
      simp only at h ⊢
      obtain ⟨sh, h1, h⟩ := bind_ok h
      obtain ⟨r, h2, h⟩ := bind_ok h
      obtain ⟨sh', e1, p1⟩ := mapM_perm hb h1
      have e2 := (hr _ _ p1 r).mp h2
      simp only [e1, e2, bind, Except.bind]
      exact h
  · rename_i hk
    rw [if_neg hk] at h
    exact h

theorem trainLoop_perm {o : ImageOps Im Sh F} {L : Learners Im Sh W SM AM} (hr : OrderFree o.reference)
    (hs : OrderFree L.shape.build)
    (hsi : ∀ m, OrderFree (L.shape.increment m)) (ha : OrderFree L.second.build)
    (hai : ∀ m, OrderFree (L.second.increment m)) (levels : List (Level F)) {bs bs' : List (List Im)}
    (hb : List.Forall₂ List.Perm bs bs') : ∀ (k : Nat) (increment : Bool) (st v : St Sh SM AM),
      trainLoop o L levels k increment st bs = .ok v → trainLoop o L levels k increment st bs' = .ok v := by
  induction hb with
  | nil => exact fun _ _ _ _ h => h
  | @cons b b' bs bs' h0 _ ih =>
    intro k increment st v h
    unfold trainLoop at h ⊢
    obtain ⟨ref, h1, h⟩ := bind_ok h
    have e1 := reference_perm hr h0 h1
    simp only [e1, bind, Except.bind]
    cases ref with
    | none => exact h
    | some r =>
      simp only at h ⊢
      obtain ⟨images, h2, h⟩ := bind_ok h
      obtain ⟨st', h3, h⟩ := bind_ok h
      obtain ⟨images', e2, p2⟩ := mapM_perm h0 h2
      have e3 := batchLoop_perm hs hsi ha hai r _ p2 levels 0 none none trivial _ _ h3
      simp only [e2, e3]
      exact ih _ _ _ _ h

/-! ### Template models -/

theorem atmBatchLoop_perm {o : ImageOps Im Sh F} {L : AtmOps Im Sh W SM} (hs : OrderFree L.shape.build)
    (hsi : ∀ m, OrderFree (L.shape.increment m)) (ref : Sh) (increment : Bool) (template : Im)
    {shapes shapes' : List Sh} (hp : shapes.Perm shapes') : ∀ (ls : List (Level F)) (j : Nat)
      (prev : Option (F × List Im)) (st v : AtmSt Sh SM W),
      atmBatchLoop o L ref increment template shapes j prev st ls = .ok v →
      atmBatchLoop o L ref increment template shapes' j prev st ls = .ok v
  | [], j, prev, st, v, h => by
    unfold atmBatchLoop at h ⊢
    exact h
  | l :: ls, j, prev, st, v, h => by
    unfold atmBatchLoop at h ⊢
    obtain ⟨fi, h1, h⟩ := bind_ok h
    obtain ⟨si, h2, h⟩ := bind_ok h
    obtain ⟨sm, h4, h⟩ := bind_ok h
    obtain ⟨t, h5, h⟩ := bind_ok h
    obtain ⟨w, h6, h⟩ := bind_ok h
    have p : (if l.scale ≠ 1 then shapes.map (o.scaleShape l.scale) else shapes).Perm
        (if l.scale ≠ 1 then shapes'.map (o.scaleShape l.scale) else shapes') := by
      split
      · exact hp.map _
      · exact hp
    have e4 := update_free (Learner.new_free hs _) (Learner.inc_free hsi _) p h4
    simp only [bind, Except.bind]
    rw [h1]
    simp only [h2, e4, h5, h6]
    exact atmBatchLoop_perm hs hsi ref increment template hp ls _ _ _ _ h

theorem atmTrainLoop_perm {o : ImageOps Im Sh F} {L : AtmOps Im Sh W SM} (hr : OrderFree o.reference)
    (hs : OrderFree L.shape.build) (hsi : ∀ m, OrderFree (L.shape.increment m)) (levels : List (Level F))
    {bs bs' : List (List Sh)} (hb : List.Forall₂ List.Perm bs bs') : ∀ (k : Nat) (increment : Bool)
      (template : Im) (st v : AtmSt Sh SM W), atmTrainLoop o L levels k increment template st bs = .ok v →
      atmTrainLoop o L levels k increment template st bs' = .ok v := by
  induction hb with
  | nil => exact fun _ _ _ _ _ h => h
  | @cons b b' bs bs' h0 _ ih =>
    intro k increment template st v h
    unfold atmTrainLoop at h ⊢
    split
    · rename_i hk
      rw [if_pos hk] at h
      obtain ⟨r, h1, h⟩ := bind_ok h
      obtain ⟨t, h2, h⟩ := bind_ok h
      obtain ⟨st', h3, h⟩ := bind_ok h
      have e1 : atmReference o st.ref b' = .ok r := by
        unfold atmReference at h1 ⊢
        split at h1
        · exact (hr _ _ h0 r).mp h1
        · exact h1
      have e3 := atmBatchLoop_perm hs hsi r increment t h0 levels 0 none _ _ h3
      simp only [e1, h2, e3, bind, Except.bind]
      exact ih _ _ _ _ _ h
    · rename_i hk
      rw [if_neg hk] at h
      cases hst : st.ref with
      | none => rw [hst] at h; exact h
      | some r =>
        simp only [hst] at h ⊢
        obtain ⟨st', h3, h⟩ := bind_ok h
        have e3 := atmBatchLoop_perm hs hsi r true template h0 levels 0 none _ _ h3
        simp only [e3, bind, Except.bind]
        exact ih _ _ _ _ _ h

/-! ### Active pictorial structures -/

theorem apsBatchLoop_perm {o : ImageOps Im Sh F} {L : ApsOps Im Sh W G SM DM AM} (hal : Follows L.align)
    (hs : OrderFree L.shape.build) (hsi : ∀ m, OrderFree (L.shape.increment m))
    (hd : ∀ g, OrderFree (L.deformation g).build) (hdi : ∀ g m, OrderFree ((L.deformation g).increment m))
    (ha : OrderFree L.second.build)
    (hai : ∀ m, OrderFree (L.second.increment m)) (increment : Bool) {images images' : List Im}
    (hi : images.Perm images') : ∀ (ls : List (Level F)) (j : Nat) (prev prev' : Option (F × List Im))
      (_ : PrevPerm prev prev') (st v : ApsSt Sh G SM DM AM),
      apsBatchLoop o L increment images j prev st ls = .ok v →
      apsBatchLoop o L increment images' j prev' st ls = .ok v
  | [], j, prev, prev', hp, st, v, h => by
    unfold apsBatchLoop at h ⊢
    exact h
  | l :: ls, j, prev, prev', hp, st, v, h => by
    unfold apsBatchLoop at h ⊢
    obtain ⟨fi, h1, h⟩ := bind_ok h
    obtain ⟨si, h2, h⟩ := bind_ok h
    obtain ⟨sh, h3, h⟩ := bind_ok h
    obtain ⟨al, h3a, h⟩ := bind_ok h
    obtain ⟨sm, h4, h⟩ := bind_ok h
    obtain ⟨g, h4g, h⟩ := bind_ok h
    obtain ⟨dm, h4d, h⟩ := bind_ok h
    obtain ⟨wa, h5, h⟩ := bind_ok h
    obtain ⟨am, h6, h⟩ := bind_ok h
    obtain ⟨fi', e1, p1⟩ := featureImages_perm o hi hp _ h1
    obtain ⟨si', e2, p2⟩ := scaledImages_perm o _ p1 h2
    obtain ⟨sh', e3, p3, p3'⟩ := mapM_zip_perm p2 h3
    obtain ⟨al', e3a, p3a⟩ := hal _ _ p3 _ h3a
    obtain ⟨wa', e5, p5⟩ := mapM_perm p3' h5
    have e4 := update_free (Learner.new_free hs _) (Learner.inc_free hsi _) p3a h4
    have pd : (if L.useProcrustes then al else sh).Perm (if L.useProcrustes then al' else sh') := by
      split
      · exact p3a
      · exact p3
    have e4d := update_free (hd g) (hdi g) pd h4d
    have e6 := update_free ha hai p5 h6
    simp only [bind, Except.bind] at h4g ⊢
    simp only [e1, e2, e3, e3a, e4, h4g, e4d, e5, e6]
    exact apsBatchLoop_perm hal hs hsi hd hdi ha hai increment hi ls _ (some (l.feature, fi)) (some (l.feature, fi')) ⟨rfl, p1⟩ _ _ h

theorem apsGraphs_perm {o : ImageOps Im Sh F} {L : ApsOps Im Sh W G SM DM AM} (ht : OrderFree L.tree)
    {graphs v : List (Option G)} {images images' : List Im} (hi : images.Perm images')
    (h : apsGraphs o L graphs images = .ok v) : apsGraphs o L graphs images' = .ok v := by
  unfold apsGraphs at h ⊢
  split
  · rename_i hg
    rw [if_pos hg] at h
    obtain ⟨sh, h1, h⟩ := bind_ok h
    obtain ⟨t, h2, h⟩ := bind_ok h
    obtain ⟨sh', e1, p1⟩ := mapM_perm hi h1
    simp only [e1, (ht _ _ p1 t).mp h2, bind, Except.bind]
    exact h
  · rename_i hg
    rw [if_neg hg] at h
    exact h

theorem apsTrainLoop_perm {o : ImageOps Im Sh F} {L : ApsOps Im Sh W G SM DM AM} (hr : OrderFree o.reference)
    (hal : Follows L.align) (ht : OrderFree L.tree)
    (hs : OrderFree L.shape.build) (hsi : ∀ m, OrderFree (L.shape.increment m))
    (hd : ∀ g, OrderFree (L.deformation g).build) (hdi : ∀ g m, OrderFree ((L.deformation g).increment m))
    (ha : OrderFree L.second.build)
    (hai : ∀ m, OrderFree (L.second.increment m)) (levels : List (Level F)) {bs bs' : List (List Im)}
    (hb : List.Forall₂ List.Perm bs bs') : ∀ (k : Nat) (increment : Bool) (st v : ApsSt Sh G SM DM AM),
      apsTrainLoop o L levels k increment st bs = .ok v → apsTrainLoop o L levels k increment st bs' = .ok v := by
  induction hb with
  | nil => exact fun _ _ _ _ h => h
  | @cons b b' bs bs' h0 _ ih =>
    intro k increment st v h
    unfold apsTrainLoop at h ⊢
    obtain ⟨ref, h1, h⟩ := bind_ok h
    have e1 := reference_perm hr h0 h1
    simp only [e1, bind, Except.bind]
    cases ref with
    | none => exact h
    | some r =>
      simp only at h ⊢
      obtain ⟨images, h2, h⟩ := bind_ok h
      obtain ⟨gr, h2g, h⟩ := bind_ok h
      obtain ⟨st', h3, h⟩ := bind_ok h
      obtain ⟨images', e2, p2⟩ := mapM_perm h0 h2
      have e2g := apsGraphs_perm ht p2 h2g
      have e3 := apsBatchLoop_perm hal hs hsi hd hdi ha hai _ p2 levels 0 none none trivial _ _ h3
      simp only [e2, e2g, e3]
      exact ih _ _ _ _ h

end Menpofit
