import Verif.Model.Training
import Verif.Spec.ScaleTraining
import Mathlib.Tactic.Common
/-!
# Lemmas for C148: training with the coarsest scales only
-/

namespace Menpofit
namespace CoarserTraining
open Training

variable {Im Sh F W SM AM M D G DM : Type}

theorem bind_ok {α β : Type} {x : Except PyErr α} {f : α → Except PyErr β} {b : β}
    (h : (x >>= f) = .ok b) : ∃ a, x = .ok a ∧ f a = .ok b := by
  cases x with
  | error e => cases h
  | ok a => exact ⟨a, rfl, h⟩

theorem ok_bind {α β : Type} (a : α) (f : α → Except PyErr β) : ((Except.ok a : Except PyErr α) >>= f) = f a := rfl

theorem update_lt {new : List D → Except PyErr M} {inc : M → List D → Except PyErr M} {i : Bool} {j m : Nat}
    {ms ms' : List M} {d : List D} (hi : i = true ∨ ms.length = j) (hj : j < m)
    (h : update new inc i j ms d = .ok ms') : update new inc i j (ms.take m) d = .ok (ms'.take m) := by
  unfold update at h ⊢
  by_cases hI : i = true
  · simp only [hI, if_true] at h ⊢
    rw [List.getElem?_take_of_lt hj]
    cases hq : ms[j]? with
    | none => rw [hq] at h; cases h
    | some x =>
      rw [hq] at h
      obtain ⟨y, hy, h⟩ := bind_ok h
      cases h
      simp only [hy, ok_bind]
      simp [pure, Except.pure, List.take_set]
  · have hl : ms.length = j := hi.resolve_left hI
    simp only [hI] at h ⊢
    obtain ⟨y, hy, h⟩ := bind_ok h
    cases h
    simp only [hy, ok_bind]
    rw [List.take_of_length_le (by omega), List.take_of_length_le (by simp; omega)]
    rfl

theorem update_ge {new : List D → Except PyErr M} {inc : M → List D → Except PyErr M} {i : Bool} {j m : Nat}
    {ms ms' : List M} {d : List D} (hi : i = true ∨ ms.length = j) (hj : m ≤ j)
    (h : update new inc i j ms d = .ok ms') : ms'.take m = ms.take m := by
  unfold update at h
  by_cases hI : i = true
  · simp only [hI, if_true] at h
    cases hq : ms[j]? with
    | none => rw [hq] at h; cases h
    | some x =>
      rw [hq] at h
      obtain ⟨y, hy, h⟩ := bind_ok h
      cases h
      exact List.take_set_of_le hj
  · have hl : ms.length = j := hi.resolve_left hI
    simp only [hI] at h
    obtain ⟨y, hy, h⟩ := bind_ok h
    cases h
    exact List.take_append_of_le_length (by omega)

theorem update_len {new : List D → Except PyErr M} {inc : M → List D → Except PyErr M} {i : Bool} {j : Nat}
    {ms ms' : List M} {d : List D} (hi : i = true ∨ ms.length = j)
    (h : update new inc i j ms d = .ok ms') : i = true ∨ ms'.length = j + 1 := by
  refine hi.imp id fun hl => ?_
  by_cases hI : i = true
  · simp only [update, hI, if_true] at h
    cases hq : ms[j]? with
    | none => rw [hq] at h; cases h
    | some x => exact absurd hq (by simp [← hl])
  · simp only [update, hI] at h
    obtain ⟨y, hy, h⟩ := bind_ok h
    cases h
    simp [hl]

/-- The first `m` models. -/
def cutSt (m : Nat) (st : St Sh SM AM) : St Sh SM AM := ⟨st.ref, st.shapeModels.take m, st.second.take m⟩

theorem batchLoop_take [DecidableEq F] (o : ImageOps Im Sh F) (L : Learners Im Sh W SM AM) (ref : Sh)
    (i : Bool) (images : List Im) (m : Nat) : ∀ (ls : List (Level F)) (j : Nat) (prev : Option (F × List Im))
    (st st' : St Sh SM AM), (i = true ∨ st.shapeModels.length = j) → (i = true ∨ st.second.length = j) →
    batchLoop o L ref i images j prev st ls = .ok st' →
    batchLoop o L ref i images j prev (cutSt m st) (ls.take (m - j)) = .ok (cutSt m st')
  | [], j, prev, st, st', _, _, h => by
    cases h
    simp [batchLoop]
  | l :: ls, j, prev, st, st', h1, h2, h => by
    unfold batchLoop at h
    obtain ⟨fi, hfi, h⟩ := bind_ok h
    obtain ⟨si, hsi, h⟩ := bind_ok h
    obtain ⟨shapes, hsh, h⟩ := bind_ok h
    obtain ⟨sm, hsm, h⟩ := bind_ok h
    obtain ⟨wp, hw, h⟩ := bind_ok h
    obtain ⟨am, ham, h⟩ := bind_ok h
    have ih := batchLoop_take o L ref i images m ls (j + 1) _ _ st' (update_len h1 hsm) (update_len h2 ham) h
    by_cases hj : j < m
    · obtain ⟨k, hk⟩ : ∃ k, m - j = k + 1 := ⟨m - j - 1, by omega⟩
      have hk' : m - (j + 1) = k := by omega
      rw [hk, List.take_succ_cons]
      unfold batchLoop
      rw [hfi, ok_bind, hsi, ok_bind, hsh, ok_bind]
      have e1 := update_lt h1 hj hsm
      have e2 := update_lt h2 hj ham
      show (update _ _ i j (st.shapeModels.take m) shapes >>= _) = _
      rw [e1, ok_bind, hw, ok_bind]
      show (update _ _ i j (st.second.take m) wp >>= _) = _
      rw [e2, ok_bind, ← hk']
      exact ih
    · have hz : m - j = 0 := by omega
      have hz' : m - (j + 1) = 0 := by omega
      rw [hz'] at ih
      rw [hz]
      simp only [List.take_zero] at ih ⊢
      have e1 := update_ge h1 (by omega : m ≤ j) hsm
      have e2 := update_ge h2 (by omega : m ≤ j) ham
      have : cutSt m st = cutSt m { st with shapeModels := sm, second := am } := by
        unfold cutSt
        simp only [e1, e2]
      rw [this]
      exact ih

theorem trainLoop_take [DecidableEq F] (o : ImageOps Im Sh F) (L : Learners Im Sh W SM AM)
    (levels : List (Level F)) (m : Nat) : ∀ (bs : List (List Im)) (k : Nat) (i : Bool) (st st' : St Sh SM AM),
    ((0 < k ∨ i = true) ∨ st.shapeModels = [] ∧ st.second = []) →
    trainLoop o L levels k i st bs = .ok st' →
    trainLoop o L (levels.take m) k i (cutSt m st) bs = .ok (cutSt m st')
  | [], k, i, st, st', _, h => by
    cases h
    rfl
  | b :: bs, k, i, st, st', hi, h => by
    unfold trainLoop at h ⊢
    obtain ⟨ref, hr, h⟩ := bind_ok h
    show (reference o k st.ref b >>= _) = _
    rw [hr, ok_bind]
    cases ref with
    | none => cases h
    | some r =>
      simp only at h ⊢
      obtain ⟨images, hm, h⟩ := bind_ok h
      obtain ⟨st1, h1, h⟩ := bind_ok h
      rw [hm, ok_bind]
      have hi1 : (if k > 0 then true else i) = true ∨ st.shapeModels.length = 0 := by
        rcases hi with (h | h) | h
        · left; rw [if_pos h]
        · left; simp [h]
        · right; simp [h.1]
      have hi2 : (if k > 0 then true else i) = true ∨ st.second.length = 0 := by
        rcases hi with (h | h) | h
        · left; rw [if_pos h]
        · left; simp [h]
        · right; simp [h.2]
      have e := batchLoop_take o L r _ images m levels 0 none { st with ref := some r } st1 hi1 hi2 h1
      have e' := trainLoop_take o L levels m bs (k + 1) _ st1 st' (Or.inl (Or.inl (Nat.succ_pos k))) h
      exact (congrArg (· >>= _) e).trans e'

/-! ### Active pictorial structures -/

/-- The first `m` models. -/
def cutAps (m : Nat) (st : ApsSt Sh G SM DM AM) : ApsSt Sh G SM DM AM :=
  ⟨st.ref, st.graphs.take m, st.shapeModels.take m, st.deformation.take m, st.second.take m⟩

theorem apsBatchLoop_take [DecidableEq F] (o : ImageOps Im Sh F) (L : ApsOps Im Sh W G SM DM AM)
    (i : Bool) (images : List Im) (m : Nat) : ∀ (ls : List (Level F)) (j : Nat) (prev : Option (F × List Im))
    (st st' : ApsSt Sh G SM DM AM), (i = true ∨ st.shapeModels.length = j) →
    (i = true ∨ st.deformation.length = j) → (i = true ∨ st.second.length = j) →
    apsBatchLoop o L i images j prev st ls = .ok st' →
    apsBatchLoop o L i images j prev (cutAps m st) (ls.take (m - j)) = .ok (cutAps m st')
  | [], j, prev, st, st', _, _, _, h => by
    cases h
    simp [apsBatchLoop]
  | l :: ls, j, prev, st, st', h1, h2, h3, h => by
    unfold apsBatchLoop at h
    obtain ⟨fi, hfi, h⟩ := bind_ok h
    obtain ⟨si, hsi, h⟩ := bind_ok h
    obtain ⟨shapes, hsh, h⟩ := bind_ok h
    obtain ⟨al, hal, h⟩ := bind_ok h
    obtain ⟨sm, hsm, h⟩ := bind_ok h
    obtain ⟨g, hg, h⟩ := bind_ok h
    obtain ⟨dm, hdm, h⟩ := bind_ok h
    obtain ⟨wp, hw, h⟩ := bind_ok h
    obtain ⟨am, ham, h⟩ := bind_ok h
    have ih := apsBatchLoop_take o L i images m ls (j + 1) _ _ st' (update_len h1 hsm) (update_len h2 hdm)
      (update_len h3 ham) h
    by_cases hj : j < m
    · obtain ⟨k, hk⟩ : ∃ k, m - j = k + 1 := ⟨m - j - 1, by omega⟩
      have hk' : m - (j + 1) = k := by omega
      rw [hk, List.take_succ_cons]
      unfold apsBatchLoop
      have e1 := update_lt h1 hj hsm
      have e2 := update_lt h2 hj hdm
      have e3 := update_lt h3 hj ham
      rw [hfi, ok_bind, hsi, ok_bind, hsh, ok_bind, hal, ok_bind]
      show (update _ _ i j (st.shapeModels.take m) al >>= _) = _
      have eg : (cutAps m st).graphs[j]? = st.graphs[j]? := List.getElem?_take_of_lt hj
      rw [e1, ok_bind, eg, hg, ok_bind]
      show (update _ _ i j (st.deformation.take m) _ >>= _) = _
      rw [e2, ok_bind, hw, ok_bind]
      show (update _ _ i j (st.second.take m) wp >>= _) = _
      rw [e3, ok_bind, ← hk']
      exact ih
    · have hz : m - j = 0 := by omega
      have hz' : m - (j + 1) = 0 := by omega
      rw [hz'] at ih
      rw [hz]
      simp only [List.take_zero] at ih ⊢
      have e1 := update_ge h1 (by omega : m ≤ j) hsm
      have e2 := update_ge h2 (by omega : m ≤ j) hdm
      have e3 := update_ge h3 (by omega : m ≤ j) ham
      have : cutAps m st = cutAps m { st with shapeModels := sm, deformation := dm, second := am } := by
        unfold cutAps
        simp only [e1, e2, e3]
      rw [this]
      exact ih

theorem apsGraphs_take (o : ImageOps Im Sh F) (L : ApsOps Im Sh W G SM DM AM) (graphs gs : List (Option G))
    (images : List Im) (m : Nat) (h : apsGraphs o L graphs images = .ok gs) :
    apsGraphs o L (graphs.take m) images = .ok (gs.take m) := by
  unfold apsGraphs at h ⊢
  by_cases ha : graphs.any (·.isNone) = true
  · rw [if_pos ha] at h
    obtain ⟨shapes, hs, h⟩ := bind_ok h
    obtain ⟨t, ht, h⟩ := bind_ok h
    cases h
    by_cases hb : (graphs.take m).any (·.isNone) = true
    · rw [if_pos hb, hs, ok_bind, ht, ok_bind, List.map_take]
      rfl
    · rw [if_neg hb, ← List.map_take]
      congr 1
      refine (List.map_id _).symm.trans (List.map_congr_left fun g hg => ?_)
      cases g with
      | none => exact absurd (List.any_eq_true.mpr ⟨none, hg, rfl⟩) hb
      | some g => rfl
  · rw [if_neg ha] at h
    cases h
    rw [if_neg]
    intro hb
    obtain ⟨x, hx, hn⟩ := List.any_eq_true.mp hb
    exact ha (List.any_eq_true.mpr ⟨x, List.mem_of_mem_take hx, hn⟩)

theorem apsTrainLoop_take [DecidableEq F] (o : ImageOps Im Sh F) (L : ApsOps Im Sh W G SM DM AM)
    (levels : List (Level F)) (m : Nat) : ∀ (bs : List (List Im)) (k : Nat) (i : Bool)
    (st st' : ApsSt Sh G SM DM AM),
    ((0 < k ∨ i = true) ∨ st.shapeModels = [] ∧ st.deformation = [] ∧ st.second = []) →
    apsTrainLoop o L levels k i st bs = .ok st' →
    apsTrainLoop o L (levels.take m) k i (cutAps m st) bs = .ok (cutAps m st')
  | [], k, i, st, st', _, h => by
    cases h
    rfl
  | b :: bs, k, i, st, st', hi, h => by
    unfold apsTrainLoop at h ⊢
    obtain ⟨ref, hr, h⟩ := bind_ok h
    show (reference o k st.ref b >>= _) = _
    rw [hr, ok_bind]
    cases ref with
    | none => cases h
    | some r =>
      simp only at h ⊢
      obtain ⟨images, hm, h⟩ := bind_ok h
      obtain ⟨gs, hg, h⟩ := bind_ok h
      obtain ⟨st1, h1, h⟩ := bind_ok h
      rw [hm, ok_bind]
      show (apsGraphs o L (st.graphs.take m) images >>= _) = _
      rw [apsGraphs_take o L _ _ _ m hg, ok_bind]
      have hinc : (if k > 0 then true else i) = true ∨
          (st.shapeModels = [] ∧ st.deformation = [] ∧ st.second = []) := by
        rcases hi with (h | h) | h
        · left; rw [if_pos h]
        · left; simp [h]
        · right; exact h
      have e := apsBatchLoop_take o L _ images m levels 0 none { st with ref := some r, graphs := gs } st1
        (hinc.imp id fun h => by simp [h.1]) (hinc.imp id fun h => by simp [h.2.1])
        (hinc.imp id fun h => by simp [h.2.2]) h1
      have e' := apsTrainLoop_take o L levels m bs (k + 1) _ st1 st' (Or.inl (Or.inl (Nat.succ_pos k))) h
      exact (congrArg (· >>= _) e).trans e'

/-! ### Active template models -/

/-- The two fitters of the proofs agree on their first `m` scales. -/
structure Agree (m : Nat) (s f : AtmSt Sh SM W) : Prop where
  ref : s.ref = f.ref
  shapes : s.shapeModels = f.shapeModels.take m
  temps : s.templates.take m = f.templates.take m
  len : m ≤ s.templates.length
  len' : m ≤ f.templates.length

theorem atmBatch_new [DecidableEq F] (o : ImageOps Im Sh F) (L : AtmOps Im Sh W SM) (ref : Sh)
    (template : Im) (shapes : List Sh) (m : Nat) : ∀ (ls : List (Level F)) (j : Nat)
    (prev : Option (F × List Im)) (st st' : AtmSt Sh SM W), st.shapeModels.length = j → st.templates.length = j →
    atmBatchLoop o L ref false template shapes j prev st ls = .ok st' →
    atmBatchLoop o L ref false template shapes j prev ⟨st.ref, st.shapeModels.take m, st.templates.take m⟩
      (ls.take (m - j)) = .ok ⟨st'.ref, st'.shapeModels.take m, st'.templates.take m⟩ ∧
    st'.templates.length = j + ls.length
  | [], j, prev, st, st', _, h2, h => by
    cases h
    exact ⟨by simp [atmBatchLoop], h2⟩
  | l :: ls, j, prev, st, st', h1, h2, h => by
    unfold atmBatchLoop at h
    obtain ⟨fi, hfi, h⟩ := bind_ok h
    obtain ⟨si, hsi, h⟩ := bind_ok h
    simp only at h
    obtain ⟨sm, hsm, h⟩ := bind_ok h
    obtain ⟨t, ht, h⟩ := bind_ok h
    obtain ⟨w, hw, h⟩ := bind_ok h
    obtain ⟨ih, hlen⟩ := atmBatch_new o L ref template shapes m ls (j + 1) _ _ st'
      ((update_len (Or.inr h1) hsm).resolve_left (by decide)) (by simp [h2]) h
    refine ⟨?_, by rw [hlen, List.length_cons]; omega⟩
    by_cases hj : j < m
    · obtain ⟨k, hk⟩ : ∃ k, m - j = k + 1 := ⟨m - j - 1, by omega⟩
      have hk' : m - (j + 1) = k := by omega
      have e1 := update_lt (Or.inr h1) hj hsm
      rw [hk, List.take_succ_cons]
      unfold atmBatchLoop
      rw [hfi, ok_bind, hsi, ok_bind]
      simp only
      rw [e1, ok_bind, ht, ok_bind, hw, ok_bind, ← hk']
      have e2 : (st.templates ++ [w]).take m = st.templates.take m ++ [w] := by
        rw [List.take_of_length_le (by simp; omega), List.take_of_length_le (by omega)]
      simp only [e2] at ih
      exact ih
    · have hz : m - j = 0 := by omega
      have hz' : m - (j + 1) = 0 := by omega
      rw [hz'] at ih
      rw [hz]
      simp only [List.take_zero] at ih ⊢
      have e1 := update_ge (Or.inr h1) (by omega : m ≤ j) hsm
      have e2 : (st.templates ++ [w]).take m = st.templates.take m :=
        List.take_append_of_le_length (by omega)
      simp only [e1, e2] at ih
      exact ih

theorem atmBatch_inc [DecidableEq F] (o : ImageOps Im Sh F) (L : AtmOps Im Sh W SM) (ref : Sh)
    (template : Im) (shapes : List Sh) (m : Nat) : ∀ (ls : List (Level F)) (j : Nat)
    (prev : Option (F × List Im)) (s f f' : AtmSt Sh SM W), Agree m s f →
    atmBatchLoop o L ref true template shapes j prev f ls = .ok f' →
    ∃ s', atmBatchLoop o L ref true template shapes j prev s (ls.take (m - j)) = .ok s' ∧ Agree m s' f'
  | [], j, prev, s, f, f', ha, h => by
    cases h
    exact ⟨s, by simp [atmBatchLoop], ha⟩
  | l :: ls, j, prev, s, f, f', ha, h => by
    unfold atmBatchLoop at h
    obtain ⟨fi, hfi, h⟩ := bind_ok h
    obtain ⟨si, hsi, h⟩ := bind_ok h
    simp only at h
    obtain ⟨sm, hsm, h⟩ := bind_ok h
    obtain ⟨t, ht, h⟩ := bind_ok h
    obtain ⟨w, hw, h⟩ := bind_ok h
    by_cases hj : j < m
    · obtain ⟨k, hk⟩ : ∃ k, m - j = k + 1 := ⟨m - j - 1, by omega⟩
      have hk' : m - (j + 1) = k := by omega
      have e1 := update_lt (Or.inl rfl) hj hsm
      obtain ⟨s', hs', ha'⟩ := atmBatch_inc o L ref template shapes m ls (j + 1) _
        { s with shapeModels := sm.take m, templates := s.templates ++ [w] }
        { f with shapeModels := sm, templates := f.templates ++ [w] } f'
        ⟨ha.ref, rfl, by
          rw [List.take_append_of_le_length ha.len, List.take_append_of_le_length ha.len', ha.temps],
          by have := ha.len; simp; omega, by have := ha.len'; simp; omega⟩ h
      refine ⟨s', ?_, ha'⟩
      rw [hk, List.take_succ_cons]
      unfold atmBatchLoop
      rw [hfi, ok_bind, hsi, ok_bind]
      simp only
      rw [ha.shapes, e1, ok_bind, ht, ok_bind, hw, ok_bind, ← hk']
      exact hs'
    · have hz : m - j = 0 := by omega
      have hz' : m - (j + 1) = 0 := by omega
      have e1 := update_ge (Or.inl rfl) (by omega : m ≤ j) hsm
      obtain ⟨s', hs', ha'⟩ := atmBatch_inc o L ref template shapes m ls (j + 1) _ s
        { f with shapeModels := sm, templates := f.templates ++ [w] } f'
        ⟨ha.ref, ha.shapes.trans e1.symm, by
          rw [List.take_append_of_le_length ha.len', ha.temps], ha.len, by
          have := ha.len'; simp; omega⟩ h
      refine ⟨s', ?_, ha'⟩
      rw [hz'] at hs'
      rw [hz]
      simpa only [List.take_zero, atmBatchLoop] using hs'

theorem atmTrain_inc [DecidableEq F] (o : ImageOps Im Sh F) (L : AtmOps Im Sh W SM) (levels : List (Level F))
    (m : Nat) : ∀ (bs : List (List Sh)) (k : Nat) (i : Bool) (template : Im) (s f f' : AtmSt Sh SM W),
    (0 < k ∨ i = true) → Agree m s f → atmTrainLoop o L levels k i template f bs = .ok f' →
    ∃ s', atmTrainLoop o L (levels.take m) k i template s bs = .ok s' ∧ Agree m s' f'
  | [], k, i, template, s, f, f', _, ha, h => by
    cases h
    exact ⟨s, rfl, ha⟩
  | b :: bs, k, i, template, s, f, f', hk, ha, h => by
    unfold atmTrainLoop at h ⊢
    by_cases h0 : k = 0
    · have hi : i = true := hk.resolve_left (by omega)
      subst hi
      rw [if_pos h0] at h ⊢
      obtain ⟨r, hr, h⟩ := bind_ok h
      obtain ⟨t, ht, h⟩ := bind_ok h
      obtain ⟨f1, h1, h⟩ := bind_ok h
      obtain ⟨s1, hs1, ha1⟩ := atmBatch_inc o L r t b m levels 0 none { s with ref := some r }
        { f with ref := some r } f1
        ⟨rfl, ha.shapes, ha.temps, ha.len, ha.len'⟩ h1
      obtain ⟨s', hs', ha'⟩ := atmTrain_inc o L levels m bs (k + 1) true t s1 f1 f' (Or.inr rfl) ha1 h
      refine ⟨s', ?_, ha'⟩
      rw [ha.ref, hr, ok_bind, ht, ok_bind]
      exact (congrArg (· >>= _) hs1).trans hs'
    · rw [if_neg h0] at h ⊢
      rw [ha.ref]
      cases hq : f.ref with
      | none => rw [hq] at h; cases h
      | some r =>
        rw [hq] at h
        simp only at h ⊢
        obtain ⟨f1, h1, h⟩ := bind_ok h
        obtain ⟨s1, hs1, ha1⟩ := atmBatch_inc o L r template b m levels 0 none s f f1 ha h1
        obtain ⟨s', hs', ha'⟩ := atmTrain_inc o L levels m bs (k + 1) true template s1 f1 f' (Or.inr rfl) ha1 h
        refine ⟨s', ?_, ha'⟩
        exact (congrArg (· >>= _) hs1).trans hs'

theorem atmConstruct_take [DecidableEq F] (o : ImageOps Im Sh F) (L : AtmOps Im Sh W SM) (levels : List (Level F))
    (ref : Option Sh) (template : Im) (shapes : List Sh) (bs : Option Nat) (m : Nat) (hm : m ≤ levels.length)
    (hb : batches shapes bs ≠ []) (f : AtmSt Sh SM W)
    (h : atmConstruct o L levels ref template shapes bs = .ok f) :
    ∃ s, atmConstruct o L (levels.take m) ref template shapes bs = .ok s ∧ Agree m s f := by
  unfold atmConstruct at h ⊢
  cases hB : batches shapes bs with
  | nil => exact absurd hB hb
  | cons b rest =>
    rw [hB] at h
    unfold atmTrainLoop at h ⊢
    rw [if_pos rfl] at h ⊢
    obtain ⟨r, hr, h⟩ := bind_ok h
    obtain ⟨t, ht, h⟩ := bind_ok h
    obtain ⟨f1, h1, h⟩ := bind_ok h
    obtain ⟨e, hl⟩ := atmBatch_new o L r t b m levels 0 none ⟨some r, [], []⟩ f1 rfl rfl h1
    obtain ⟨s', hs', ha'⟩ := atmTrain_inc o L levels m rest 1 false t
      ⟨f1.ref, f1.shapeModels.take m, f1.templates.take m⟩ f1 f (Or.inl one_pos)
      ⟨rfl, rfl, by simp, by simp; omega, by omega⟩ h
    refine ⟨s', ?_, ha'⟩
    rw [hr, ok_bind, ht, ok_bind]
    simp only [List.take_nil] at e
    exact (congrArg (· >>= _) e).trans hs'

theorem agree_interfaces {m : Nat} {s f : AtmSt Sh SM W} (h : Agree m s f) :
    atmInterfaces s = (atmInterfaces f).take m := by
  unfold atmInterfaces
  have hz : (f.templates.zip f.shapeModels).take m = (f.templates.take m).zip (f.shapeModels.take m) := by
    simp [List.zip, List.take_zipWith]
  rw [hz, ← h.temps, h.shapes]
  have hl : (f.shapeModels.take m).length ≤ m := by simp
  generalize f.shapeModels.take m = q at hl
  have key : ∀ (a : List W) (q : List SM) (m : Nat), q.length ≤ m → a.zip q = (a.take m).zip q := by
    intro a
    induction a with
    | nil => intro q m _; simp
    | cons x a ih =>
      intro q m hq
      cases q with
      | nil => simp
      | cons y q =>
        obtain ⟨k, rfl⟩ : ∃ k, m = k + 1 := ⟨m - 1, by simp at hq; omega⟩
        simp [ih q k (by simpa using hq)]
  exact key _ _ _ hl

/-! ### Cascades -/

open ScaleTrain Perturb Spec

variable {S P T : Type}

theorem scaleLoop_take (ops : Ops S P T) (group : String) (nPert : Nat) : ∀ (n m j : Nat) (batch : List (Perturb.Im S P))
    (feats : Option (List (Perturb.Im S P))) (r r' : List (Scale S P T) × List (Perturb.Im S P)), m ≤ n →
    scaleLoop ops group nPert n j batch feats = .ok r → scaleLoop ops group nPert m j batch feats = .ok r' →
    r'.1 = r.1.take (m + 1)
  | 0, 0, j, batch, feats, r, r', _, h, h' => by
    rw [h] at h'
    cases h'
    unfold scaleLoop at h
    simp only at h
    obtain ⟨sc, _, h⟩ := bind_ok h
    obtain ⟨b, _, h⟩ := bind_ok h
    cases h
    rfl
  | n + 1, 0, j, batch, feats, r, r', _, h, h' => by
    unfold scaleLoop at h h'
    simp only at h h'
    obtain ⟨sc, hs, h⟩ := bind_ok h
    obtain ⟨st, _, h⟩ := bind_ok h
    obtain ⟨rest, _, h⟩ := bind_ok h
    rw [hs, ok_bind] at h'
    obtain ⟨b, _, h'⟩ := bind_ok h'
    cases h
    cases h'
    rfl
  | n + 1, m + 1, j, batch, feats, r, r', hm, h, h' => by
    unfold scaleLoop at h h'
    simp only at h h'
    obtain ⟨sc, hs, h⟩ := bind_ok h
    obtain ⟨st, hst, h⟩ := bind_ok h
    obtain ⟨rest, hr, h⟩ := bind_ok h
    rw [hs, ok_bind, hst, ok_bind] at h'
    obtain ⟨rest', hr', h'⟩ := bind_ok h'
    cases h
    cases h'
    have := scaleLoop_take ops group nPert n m (j + 1) _ _ _ _ (by omega) hr hr'
    simp [pure, Except.pure, this]

theorem ertLoop_take (ops : Ops S P T) (group : String) (nPert : Nat) : ∀ (n m j : Nat) (batch : List (Perturb.Im S P))
    (r : List (Scale S P T) × List (Perturb.Im S P)), m ≤ n → ertLoop ops group nPert n j batch = .ok r →
    ∃ ims, ertLoop ops group nPert m j batch = .ok (r.1.take (m + 1), ims)
  | 0, 0, j, batch, r, _, h => by
    refine ⟨r.2, h.trans ?_⟩
    unfold ertLoop at h
    obtain ⟨sc, _, h⟩ := bind_ok h
    cases h
    rfl
  | n + 1, 0, j, batch, r, _, h => by
    unfold ertLoop at h
    obtain ⟨sc, hs, h⟩ := bind_ok h
    obtain ⟨st, _, h⟩ := bind_ok h
    obtain ⟨rest, _, h⟩ := bind_ok h
    cases h
    refine ⟨batch, ?_⟩
    unfold ertLoop
    rw [hs, ok_bind]
    rfl
  | n + 1, m + 1, j, batch, r, hm, h => by
    unfold ertLoop at h
    obtain ⟨sc, hs, h⟩ := bind_ok h
    obtain ⟨st, hst, h⟩ := bind_ok h
    obtain ⟨rest, hr, h⟩ := bind_ok h
    obtain ⟨ims, hi⟩ := ertLoop_take ops group nPert n m (j + 1) _ _ (by omega) hr
    cases h
    refine ⟨ims, ?_⟩
    unfold ertLoop
    rw [hs, ok_bind, hst, ok_bind, hi, ok_bind]
    rfl

theorem mapM_mem {α β : Type} {f : α → Except PyErr β} : ∀ {l : List α} {r : List β}, l.mapM f = .ok r →
    ∀ x ∈ l, ∃ y ∈ r, f x = .ok y
  | [], _, _, x, hx => by cases hx
  | a :: l, r, h, x, hx => by
    rw [List.mapM_cons] at h
    obtain ⟨y, hy, h⟩ := bind_ok h
    obtain ⟨ys, hys, h⟩ := bind_ok h
    cases h
    rcases List.mem_cons.1 hx with rfl | hx
    · exact ⟨y, by simp, hy⟩
    · obtain ⟨z, hz, e⟩ := mapM_mem hys x hx
      exact ⟨z, List.mem_cons_of_mem _ hz, e⟩

theorem mapM_all {α β : Type} {f : α → Except PyErr β} : ∀ {l : List α}, (∀ x ∈ l, ∃ y, f x = .ok y) →
    ∃ r, l.mapM f = .ok r
  | [], _ => ⟨[], rfl⟩
  | a :: l, h => by
    obtain ⟨y, hy⟩ := h a (by simp)
    obtain ⟨ys, hys⟩ := mapM_all (l := l) fun x hx => h x (by simp [hx])
    exact ⟨y :: ys, by rw [List.mapM_cons, hy, ok_bind, hys]; rfl⟩

/-- The temporary groups are on all images or on none. -/
def AllOrNone (key : Nat → String) (nPert : Nat) (batch : List (Perturb.Im S P)) : Prop :=
  (∀ im ∈ batch, ∀ k, k < nPert → key k ∈ im.lms.map Prod.fst) ∨ ∀ im ∈ batch, key 0 ∉ im.lms.map Prod.fst

theorem removeKeys_all {key : Nat → String} (hk : ∀ j k, key j = key k → j = k) : ∀ (ks : List Nat)
    (lms : List (String × S)), ks.Nodup → (∀ k ∈ ks, key k ∈ lms.map Prod.fst) → ∃ r, removeKeys key lms ks = .ok r
  | [], lms, _, _ => ⟨lms, rfl⟩
  | k :: ks, lms, hn, h => by
    obtain ⟨x, hx, hxk⟩ := List.mem_map.1 (h k (by simp))
    have ha : (lms.any fun x => x.1 = key k) = true := List.any_eq_true.2 ⟨x, hx, by simpa using hxk⟩
    unfold removeKeys remove
    rw [if_pos ha, ok_bind]
    rw [List.nodup_cons] at hn
    refine removeKeys_all hk ks _ hn.2 fun k' hk' => ?_
    obtain ⟨y, hy, hyk⟩ := List.mem_map.1 (h k' (by simp [hk']))
    refine List.mem_map.2 ⟨y, List.mem_filter.2 ⟨hy, ?_⟩, hyk⟩
    simp only [ne_eq, decide_not, Bool.not_eq_true', decide_eq_false_iff_not]
    intro e
    exact hn.1 (hk _ _ (hyk.symm.trans e) ▸ hk')

theorem cleanUp_all {key : Nat → String} (hk : ∀ j k, key j = key k → j = k) {nPert : Nat}
    {batch : List (Perturb.Im S P)} (hb : batch ≠ []) (h : AllOrNone key nPert batch) :
    ∃ b, cleanUp key nPert batch = .ok b := by
  cases batch with
  | nil => exact absurd rfl hb
  | cons im ims =>
    unfold cleanUp
    simp only
    by_cases ha : (im.lms.any fun x => x.1 = key 0) = true
    · rw [if_pos ha]
      rcases h with h | h
      · refine mapM_all fun x hx => ?_
        obtain ⟨r, hr⟩ := removeKeys_all hk (List.range nPert) x.lms List.nodup_range
          fun k hk' => h x hx k (List.mem_range.1 hk')
        exact ⟨{ x with lms := r }, by rw [hr]; rfl⟩
      · obtain ⟨x, hx, hxk⟩ := List.any_eq_true.1 ha
        exact absurd (List.mem_map.2 ⟨x, hx, by simpa using hxk⟩) (h im (by simp))
    · rw [if_neg ha]
      exact ⟨_, rfl⟩

theorem attachAll_nil {ops : Ops S P T} {ts : List T} {os : List (List S)} {b : List (Perturb.Im S P)}
    (h : attachAll ops [] ts os = .ok b) : b = [] := by
  cases os with
  | nil => cases ts <;> (cases h; rfl)
  | cons o os => cases ts <;> cases h

theorem scaleLoop_nonempty (ops : Ops S P T) (group : String) (nPert : Nat) : ∀ (n j : Nat)
    (batch : List (Perturb.Im S P)) (feats : Option (List (Perturb.Im S P)))
    (r : List (Scale S P T) × List (Perturb.Im S P)),
    scaleLoop ops group nPert n j batch feats = .ok r → batch ≠ []
  | 0, j, batch, feats, r, h => by
    rintro rfl
    unfold scaleLoop at h
    simp only at h
    obtain ⟨sc, _, h⟩ := bind_ok h
    obtain ⟨b, hb, h⟩ := bind_ok h
    cases hb
  | n + 1, j, batch, feats, r, h => by
    rintro rfl
    unfold scaleLoop at h
    simp only at h
    obtain ⟨sc, _, h⟩ := bind_ok h
    obtain ⟨st, hst, h⟩ := bind_ok h
    obtain ⟨rest, hr, h⟩ := bind_ok h
    refine scaleLoop_nonempty ops group nPert n (j + 1) _ _ _ hr ?_
    split at hst
    · obtain ⟨b, hb, hst⟩ := bind_ok hst
      cases hst
      exact attachAll_nil hb
    · split at hst
      · obtain ⟨b, hb, hst⟩ := bind_ok hst
        cases hst
        exact attachAll_nil hb
      · obtain ⟨b, hb, hst⟩ := bind_ok hst
        cases hst
        rfl

theorem mem_of_group {im : Perturb.Im S P} {name : String} {s : S} (h : getGroup im (some name) = .ok s) :
    name ∈ im.lms.map Prod.fst := by
  unfold getGroup lookup at h
  simp only at h
  cases hf : im.lms.find? fun x => x.1 = name with
  | none => rw [hf] at h; cases h
  | some x =>
    exact List.mem_map.2 ⟨x, List.mem_of_find?_eq_some hf, by simpa using List.find?_some hf⟩

theorem keys_of_scale {ops : Ops S P T} {inv : T → S → S} (hm : MovesLandmarks ops inv) {group : String}
    {nPert j : Nat} {src : List (Perturb.Im S P)} {sc : Scale S P T}
    (h : atScale ops group nPert (j + 1) src = .ok sc) :
    ∀ im ∈ src, ∀ k, k < nPert → ops.key k ∈ im.lms.map Prod.fst := by
  intro im him k hk
  unfold atScale at h
  obtain ⟨scaled, hs, h⟩ := bind_ok h
  simp only at h
  obtain ⟨gts, _, h⟩ := bind_ok h
  obtain ⟨cur, hc, h⟩ := bind_ok h
  unfold startShapes at hc
  rw [if_neg (Nat.succ_ne_zero j)] at hc
  obtain ⟨y, hy, e⟩ := mapM_mem hs im him
  obtain ⟨z, _, hz⟩ := mapM_mem hc y.1 (List.mem_map_of_mem hy)
  obtain ⟨w, _, hw⟩ := mapM_mem hz k (List.mem_range.2 hk)
  have := mem_of_group hw
  rw [hm.rescale (j + 1) im y.1 y.2 e, List.map_map] at this
  simpa using this

theorem first_scale {ops : Ops S P T} {group : String} {nPert n j : Nat} {batch : List (Perturb.Im S P)}
    {feats : Option (List (Perturb.Im S P))} {r : List (Scale S P T) × List (Perturb.Im S P)}
    (h : scaleLoop ops group nPert n j batch feats = .ok r) :
    ∃ sc, atScale ops group nPert j ((nextFeatures ops j batch feats).getD batch) = .ok sc := by
  cases n with
  | zero =>
    unfold scaleLoop at h
    obtain ⟨sc, hs, h⟩ := bind_ok h
    exact ⟨sc, hs⟩
  | succ n =>
    unfold scaleLoop at h
    obtain ⟨sc, hs, h⟩ := bind_ok h
    exact ⟨sc, hs⟩

theorem scaleLoop_cut {ops : Ops S P T} {inv : T → S → S} (hm : MovesLandmarks ops inv)
    (hk : ∀ j k, ops.key j = ops.key k → j = k) (group : String) (nPert : Nat) : ∀ (n m j : Nat)
    (batch : List (Perturb.Im S P)) (feats : Option (List (Perturb.Im S P)))
    (r : List (Scale S P T) × List (Perturb.Im S P)), m ≤ n → AllOrNone ops.key nPert batch →
    scaleLoop ops group nPert n j batch feats = .ok r →
    ∃ r', scaleLoop ops group nPert m j batch feats = .ok r'
  | n, 0, j, batch, feats, r, _, ha, h => by
    obtain ⟨sc, hs⟩ := first_scale h
    obtain ⟨b, hb⟩ := cleanUp_all hk (scaleLoop_nonempty ops group nPert n j _ _ _ h) ha
    refine ⟨([sc], b), ?_⟩
    unfold scaleLoop
    simp only
    rw [hs, ok_bind, hb]
    rfl
  | n + 1, m + 1, j, batch, feats, r, hmn, ha, h => by
    unfold scaleLoop at h ⊢
    simp only at h ⊢
    obtain ⟨sc, hs, h⟩ := bind_ok h
    obtain ⟨st, hst, h⟩ := bind_ok h
    obtain ⟨rest, hr, h⟩ := bind_ok h
    have hall : AllOrNone ops.key nPert st.1 := by
      obtain ⟨sc', hs'⟩ := first_scale hr
      have hkeys := keys_of_scale hm hs'
      split at hst
      · rename_i hsame
        obtain ⟨b, hb, hst⟩ := bind_ok hst
        cases hst
        left
        intro im him k hk'
        unfold nextFeatures at hkeys
        rw [if_neg (by simp), if_pos (Or.inr hsame)] at hkeys
        have := hkeys (ops.feature (j + 1) im) (List.mem_map_of_mem him) k hk'
        rwa [hm.feature] at this
      · rename_i hsame
        split at hst
        · obtain ⟨b, hb, hst⟩ := bind_ok hst
          cases hst
          left
          unfold nextFeatures at hkeys
          rw [if_neg (by simp), if_neg (by simpa using hsame)] at hkeys
          exact hkeys
        · obtain ⟨b, hb, hst⟩ := bind_ok hst
          cases hst
          exact ha
    obtain ⟨r', hr'⟩ := scaleLoop_cut hm hk group nPert n m (j + 1) _ _ _ (by omega) hall hr
    refine ⟨(sc :: r'.1, r'.2), ?_⟩
    rw [hs, ok_bind, hst, ok_bind, hr']
    rfl

end CoarserTraining
end Menpofit
