import Verif.Spec.StatTable
import Verif.Props.Stats
/-!
# Helper lemmas for the table of error statistics
-/

namespace Menpofit
namespace StatTable
open Stats Spec

/-- The list of values a type selects. -/
def statList (m : Measures (List ℝ)) : String → List ℝ
  | "mean" => m.mean
  | "std" => m.std
  | "median" => m.median
  | "mad" => m.mad
  | "max" => m.max
  | "auc" => m.auc
  | "fr" => m.fail
  | _ => []

theorem addStat_eq (m : Measures (List ℝ)) {ty : String} (h : ty ∈ supported) (name : String)
    (cols : List (String × List ℝ)) : addStat m ty name cols = setCol cols name (statList m ty) := by
  simp only [supported, List.mem_cons, List.not_mem_nil, or_false] at h
  rcases h with rfl | rfl | rfl | rfl | rfl | rfl | rfl <;> simp [addStat, statList]

theorem setCol_fresh {cols : List (String × List ℝ)} {name : String} (h : name ∉ cols.map (·.1))
    (v : List ℝ) : setCol cols name v = cols ++ [(name, v)] := by
  unfold setCol
  rw [if_neg]
  simp only [List.any_eq_true, decide_eq_true_eq, not_exists, not_and]
  intro c hc e
  exact h (List.mem_map.2 ⟨c, hc, e⟩)

theorem columnsLoop_eq (m : Measures (List ℝ)) : ∀ (pairs : List (String × String))
    (cols : List (String × List ℝ)), (∀ p ∈ pairs, p.1 ∈ supported) →
    (cols.map (·.1) ++ pairs.map (·.2)).Nodup →
    columnsLoop m cols pairs = .ok (cols ++ pairs.map fun p => (p.2, statList m p.1)) := by
  intro pairs
  induction pairs with
  | nil => intro cols _ _; simp [columnsLoop]
  | cons p pairs ih =>
    intro cols hs hn
    obtain ⟨ty, name⟩ := p
    have h1 : ty ∈ supported := hs _ List.mem_cons_self
    rw [columnsLoop, if_neg (by simpa using h1), addStat_eq m h1, setCol_fresh, ih]
    · simp
    · intro p hp; exact hs p (List.mem_cons_of_mem _ hp)
    · simpa using hn
    · intro hm
      have := (List.nodup_append.1 hn).2.2 name hm name (by simp)
      exact this rfl

theorem setCol_mem {cols : List (String × List ℝ)} {name : String} {v : List ℝ} {c : String × List ℝ}
    (h : c ∈ setCol cols name v) : c ∈ cols ∨ c.2 = v := by
  unfold setCol at h
  split at h
  · obtain ⟨d, hd, e⟩ := List.mem_map.1 h
    split at e
    · subst e; exact Or.inr rfl
    · subst e; exact Or.inl hd
  · rcases List.mem_append.1 h with h | h
    · exact Or.inl h
    · simp at h; subst h; exact Or.inr rfl

theorem setCol_ne {cols : List (String × List ℝ)} {name : String} {v : List ℝ} :
    setCol cols name v ≠ [] := by
  unfold setCol
  split
  · next h => intro e; rw [List.map_eq_nil_iff] at e; subst e; simp at h
  · simp

theorem columnsLoop_ok (m : Measures (List ℝ)) : ∀ (pairs : List (String × String))
    (cols : List (String × List ℝ)), (∀ p ∈ pairs, p.1 ∈ supported) →
    ∃ cols', columnsLoop m cols pairs = .ok cols' ∧
      (∀ c ∈ cols', c ∈ cols ∨ ∃ t ∈ supported, c.2 = statList m t) ∧
      (cols ≠ [] ∨ pairs ≠ [] → cols' ≠ []) := by
  intro pairs
  induction pairs with
  | nil => intro cols _; exact ⟨cols, rfl, fun c hc => Or.inl hc, by simp⟩
  | cons p pairs ih =>
    intro cols hs
    obtain ⟨ty, name⟩ := p
    have h1 : ty ∈ supported := hs _ List.mem_cons_self
    obtain ⟨cols', e, h2, h3⟩ := ih (addStat m ty name cols) fun p hp => hs p (List.mem_cons_of_mem _ hp)
    refine ⟨cols', ?_, ?_, ?_⟩
    · rw [columnsLoop, if_neg (by simpa using h1), e]
    · intro c hc
      rcases h2 c hc with h | h
      · rw [addStat_eq m h1] at h
        rcases setCol_mem h with h | h
        · exact Or.inl h
        · exact Or.inr ⟨ty, h1, h⟩
      · exact Or.inr h
    · intro _
      apply h3
      left
      rw [addStat_eq m h1]
      exact setCol_ne

theorem columnsLoop_err (m : Measures (List ℝ)) : ∀ (pairs : List (String × String))
    (cols : List (String × List ℝ)), (∃ p ∈ pairs, p.1 ∉ supported) →
    columnsLoop m cols pairs = .error .valueError := by
  intro pairs
  induction pairs with
  | nil => intro cols ⟨p, hp, _⟩; simp at hp
  | cons p pairs ih =>
    intro cols ⟨q, hq, hn⟩
    obtain ⟨ty, name⟩ := p
    rw [columnsLoop]
    split
    · rfl
    · next h =>
      apply ih
      rcases List.mem_cons.1 hq with rfl | hq
      · exact absurd hn h
      · exact ⟨q, hq, hn⟩

theorem statList_map (ms : List (Measures ℝ)) {ty : String} (h : ty ∈ supported) :
    ∃ f : Measures ℝ → ℝ, (∀ m, statOf m ty = some (f m)) ∧
      statList ⟨ms.map (·.mean), ms.map (·.std), ms.map (·.median), ms.map (·.mad), ms.map (·.max),
        ms.map (·.auc), ms.map (·.fail)⟩ ty = ms.map f := by
  simp only [supported, List.mem_cons, List.not_mem_nil, or_false] at h
  rcases h with rfl | rfl | rfl | rfl | rfl | rfl | rfl <;>
    exact ⟨_, fun m => rfl, rfl⟩

theorem find_nodup {cols : List (String × List ℝ)} (hn : (cols.map (·.1)).Nodup) {j : Nat} {c : String × List ℝ}
    (hj : cols[j]? = some c) : cols.find? (fun d => d.1 = c.1) = some c := by
  induction cols generalizing j with
  | nil => simp at hj
  | cons d cols ih =>
    simp only [List.map_cons, List.nodup_cons] at hn
    cases j with
    | zero => simp at hj; subst hj; simp
    | succ j =>
      simp at hj
      rw [List.find?_cons_of_neg, ih hn.2 hj]
      simp only [decide_eq_true_eq]
      intro e
      exact hn.1 (List.mem_map.2 ⟨c, List.mem_of_getElem? hj, e.symm⟩)

end StatTable
end Menpofit
