import Verif.Model.Io
import Verif.Lemmas.Result
/-!
# Lemmas about pre-trained fitters
-/

namespace Menpofit
open Io

variable {I S O A : Type}

theorem get_cons (a : String × A) (d : Dict A) (k : String) :
    dictGet (a :: d) k = if a.1 = k then some a.2 else dictGet d k := by
  unfold dictGet
  rw [List.find?_cons]
  by_cases h : a.1 = k <;> simp [h]

theorem get_append (d e : Dict A) (k : String) : dictGet (d ++ e) k = (dictGet d k).or (dictGet e k) := by
  induction d with
  | nil => simp [dictGet]
  | cons a d ih =>
    rw [List.cons_append, get_cons, get_cons, ih]
    by_cases h : a.1 = k <;> simp [h]

theorem get_replace (d : Dict A) (key : String) (a : A) (k : String) :
    dictGet (d.map fun x => if x.1 = key then (key, a) else x) k =
      if k = key then (dictGet d k).map fun _ => a else dictGet d k := by
  induction d with
  | nil => simp [dictGet]
  | cons b d ih =>
    rw [List.map_cons, get_cons, get_cons, ih]
    by_cases hb : b.1 = key
    · rw [if_pos hb]
      by_cases hk : k = key
      · simp [hk, hb]
      · simp [hk, Ne.symm hk, hb]
    · rw [if_neg hb]
      by_cases hk : k = key
      · subst hk
        simp [hb]
      · simp [hk]

theorem get_eq_none (d : Dict A) (k : String) : dictGet d k = none ↔ ∀ x ∈ d, x.1 ≠ k := by
  unfold dictGet
  simp

theorem get_put (d : Dict A) (key : String) (a : A) (k : String) :
    dictGet (dictPut d key a) k = if k = key then some a else dictGet d k := by
  unfold dictPut
  by_cases h : d.any fun x => x.1 = key
  · rw [if_pos h, get_replace]
    by_cases hk : k = key
    · rw [if_pos hk, if_pos hk]
      cases hg : dictGet d k with
      | none =>
        rw [get_eq_none] at hg
        obtain ⟨x, hx, e⟩ := List.any_eq_true.1 h
        exact absurd (by simpa [hk] using e) (hg x hx)
      | some y => rfl
    · rw [if_neg hk, if_neg hk]
  · rw [if_neg h, get_append, get_cons]
    by_cases hk : k = key
    · subst hk
      rw [if_pos rfl, if_pos rfl, (get_eq_none d k).2, Option.none_or]
      intro x hx e
      exact h (List.any_eq_true.2 ⟨x, hx, by simpa using e⟩)
    · rw [if_neg hk, if_neg (Ne.symm hk)]
      simp [dictGet]

/-- `update` with a dictionary without repeated keys. -/
theorem get_update (d e : Dict A) (he : (e.map Prod.fst).Nodup) (k : String) :
    dictGet (update d e) k = (dictGet e k).or (dictGet d k) := by
  unfold update
  induction e generalizing d with
  | nil => simp [dictGet]
  | cons a e ih =>
    rw [List.map_cons, List.nodup_cons] at he
    rw [List.foldl_cons, ih _ he.2, get_put, get_cons]
    by_cases hk : a.1 = k
    · rw [if_pos hk, if_pos hk.symm, (get_eq_none e k).2, Option.none_or, Option.some_or]
      intro x hx e
      exact he.1 (List.mem_map.2 ⟨x, hx, by rw [e, hk]⟩)
    · rw [if_neg hk, if_neg (Ne.symm hk)]

/-- The dictionary passed on, and the memory afterwards. -/
theorem fitWrapped_heap (w : Wrapped I S O A) (eNone : PyErr) (h : Heap A) (image : I) (shape : S)
    (kwargs : Dict A) :
    (fitWrapped w eNone h image shape kwargs).1 = h ++ [update (deref h w.stored) kwargs] := by
  have : ((h ++ [deref h w.stored]).set h.length
      (update (deref (h ++ [deref h w.stored]) h.length) kwargs)) =
      h ++ [update (deref h w.stored) kwargs] := by
    simp [deref]
  unfold fitWrapped
  cases w.preprocess <;> simp only [this]

theorem fitWrapped_plain (w : Wrapped I S O A) (eNone : PyErr) (h : Heap A) (image : I) (shape : S)
    (kwargs : Dict A) (hw : w.preprocess = none) :
    (fitWrapped w eNone h image shape kwargs).2 =
      w.fit image shape (update (deref h w.stored) kwargs) := by
  unfold fitWrapped
  simp [hw, deref]

theorem fitWrapped_pre (w : Wrapped I S O A) (eNone : PyErr) (h : Heap A) (image : I) (shape : S)
    (kwargs : Dict A) (pre : I → S → Except PyErr (I × Transf S)) (hw : w.preprocess = some pre) :
    (fitWrapped w eNone h image shape kwargs).2 = (do
      let q ← pre image shape
      let result ← w.fit q.1 (q.2.pinv shape) (update (deref h w.stored) kwargs)
      mapBack q.2 eNone result) := by
  unfold fitWrapped
  simp [hw, deref]

theorem deref_append (h : Heap A) (d : Dict A) (a : Nat) (ha : a < h.length) :
    deref (h ++ [d]) a = deref h a := by
  unfold deref
  rw [List.getElem?_append_left ha]

/-! ### Copying -/

theorem read_empty {want : Nat} {length : Int} {data : List UInt8} (hl : length ≠ 0)
    (h : (readChunk want length data).1 = []) : data = [] := by
  unfold readChunk at h
  split at h
  · exact h
  · have h1 : 1 ≤ min (max want 1) length.toNat := by
      have : 1 ≤ length.toNat := by omega
      omega
    cases data with
    | nil => rfl
    | cons a l =>
      exfalso
      simp only at h
      obtain ⟨k, hk⟩ : ∃ k, min (max want 1) length.toNat = k + 1 := ⟨min (max want 1) length.toNat - 1, by omega⟩
      rw [hk, List.take_succ_cons] at h
      cases h

theorem copy_all (ready : Nat → Nat) (length : Int) (hl : length ≠ 0) :
    ∀ (n i : Nat) (src dst : List UInt8), src.length ≤ n →
      (copyAndYield ready length i src dst).1 = dst ++ src
  | n, i, src, dst, hn => by
    rw [copyAndYield]
    have hr := read_rest (ready i) length src
    split
    · rename_i h
      rw [read_empty hl h, List.append_nil]
    · rename_i b bs h
      rw [h] at hr
      have hlen := congrArg List.length hr
      rw [List.length_append, List.length_cons] at hlen
      cases n with
      | zero => omega
      | succ n =>
        simp only
        rw [copy_all ready length hl n _ _ _ (by omega), List.append_assoc, hr]

/-- The pieces the data is read in. -/
def pieces (ready : Nat → Nat) (length : Int) : Nat → Nat → List UInt8 → List (List UInt8)
  | 0, _, _ => []
  | fuel + 1, i, src =>
    match (readChunk (ready i) length src).1 with
    | [] => []
    | b :: bs => (b :: bs) :: pieces ready length fuel (i + 1) (readChunk (ready i) length src).2

theorem copy_pieces (ready : Nat → Nat) (length : Int) :
    ∀ (n i : Nat) (src dst : List UInt8), src.length ≤ n →
      (copyAndYield ready length i src dst).2 = (pieces ready length (n + 1) i src).length ∧
      (copyAndYield ready length i src dst).1 = dst ++ (pieces ready length (n + 1) i src).flatten
  | n, i, src, dst, hn => by
    rw [copyAndYield, pieces]
    have hr := read_rest (ready i) length src
    split
    · rename_i h
      rw [h]
      simp
    · rename_i b bs h
      rw [h] at hr
      rw [h]
      have hlen := congrArg List.length hr
      rw [List.length_append, List.length_cons] at hlen
      cases n with
      | zero => omega
      | succ n =>
        obtain ⟨e1, e2⟩ := copy_pieces ready length n (i + 1) (readChunk (ready i) length src).2
          (dst ++ (b :: bs)) (by omega)
        simp only [e1, e2, List.length_cons, List.flatten_cons, List.append_assoc, and_self]

theorem pieces_ne (ready : Nat → Nat) (length : Int) :
    ∀ (n i : Nat) (src : List UInt8), ∀ p ∈ pieces ready length n i src, p ≠ [] ∧
      (0 ≤ length → p.length ≤ length.toNat)
  | 0, _, _, p, hp => by simp [pieces] at hp
  | n + 1, i, src, p, hp => by
    unfold pieces at hp
    split at hp
    · simp at hp
    · rename_i b bs h
      rcases List.mem_cons.1 hp with rfl | hp
      · refine ⟨by simp, fun h0 => ?_⟩
        rw [← h]
        unfold readChunk
        rw [if_neg (by omega)]
        simp only [List.length_take]
        omega
      · exact pieces_ne ready length n _ _ p hp

end Menpofit
