import Verif.Model.Result
import Verif.Spec.Result
import Mathlib.Data.List.Basic
import Mathlib.Tactic.Linarith
/-!
# Helper lemmas for the result classes
-/

namespace Menpofit
open Result Spec

variable {S V C : Type}

theorem bind_ok {α β : Type} {x : Except PyErr α} {f : α → Except PyErr β} {b : β}
    (h : (x >>= f) = .ok b) : ∃ a, x = .ok a ∧ f a = .ok b := by
  cases x with
  | error e => cases h
  | ok a => exact ⟨a, rfl, h⟩

theorem nonParam_ok {shapes : List S} {initial gt : Option S} {costs : Option (List C)}
    {r : Res S V C} (h : nonParam shapes initial gt costs = .ok r) :
    ∃ f, shapes.getLast? = some f ∧ r = ⟨f, initial, gt, initial.toList ++ shapes, shapes.length,
      costs, none, [], 0⟩ := by
  unfold nonParam at h
  cases hl : shapes.getLast? with
  | none => rw [hl] at h; cases h
  | some f =>
    rw [hl] at h
    injection h with h
    exact ⟨f, rfl, h.symm⟩

theorem param_ok {shapes : List S} {ps : List V} {initial gt : Option S}
    {costs : Option (List C)} {r : Res S V C} (h : param shapes ps initial gt costs = .ok r) :
    ∃ f, shapes.getLast? = some f ∧ r = ⟨f, initial, gt, initial.toList ++ shapes,
      shapes.length - 1, costs, some ps, [], 0⟩ := by
  unfold param at h
  obtain ⟨r', h1, h2⟩ := bind_ok h
  obtain ⟨f, hf, rfl⟩ := nonParam_ok h1
  injection h2 with h2
  exact ⟨f, hf, h2.symm⟩

theorem madeFrom_ok {traj : List S} {r : Res S V C} (h : MadeFrom traj r) :
    traj.getLast? = some r.final ∧ r.shapes = r.initial.toList ++ traj := by
  obtain ⟨init, gt, costs, h | ⟨ps, h⟩⟩ := h
  · obtain ⟨f, hf, rfl⟩ := nonParam_ok h; exact ⟨hf, rfl⟩
  · obtain ⟨f, hf, rfl⟩ := param_ok h; exact ⟨hf, rfl⟩

theorem concatShapes_ok : ∀ {results : List (Res S V C)} {trajs : List (List S)}
    {as ts : List (S → S)} {shapes : List S},
    List.Forall₂ (fun r t => MadeFrom t r) results trajs →
    concatShapes results as ts = .ok shapes →
    shapes = (inImageCoords trajs as ts).flatten ∧ (inImageCoords trajs as ts).length = trajs.length
  | [], [], as, ts, shapes, _, h => by
    cases as <;> cases ts <;> (injection h with h; simp [inImageCoords, ← h])
  | r :: rs, t :: trajs, [], ts, shapes, _, h => by cases h
  | r :: rs, t :: trajs, a :: as, [], shapes, _, h => by cases h
  | r :: rs, t :: trajs, a :: as, s :: ss, shapes, hf, h => by
    cases hf with
    | cons h1 h2 =>
    simp only [concatShapes] at h
    obtain ⟨rest, h3, h4⟩ := bind_ok h
    obtain ⟨h5, h6⟩ := concatShapes_ok h2 h3
    injection h4 with h4
    have hs := (madeFrom_ok h1).2
    constructor
    · rw [← h4, h5]
      simp only [inImageCoords, List.flatten_cons, List.append_cancel_right_eq]
      cases hi : r.initial with
      | none => simp [rescale, hs, hi]
      | some x => simp [rescale, hs, hi]
    · simp [inImageCoords, h6]

theorem multiNonParam_ok {results : List (Res S V C)} {n : Nat} {as ts : List (S → S)}
    {gt : Option S} {R : Res S V C} (h : multiNonParam results n as ts gt = .ok R) :
    results.length = n ∧ ∃ r0 rest shapes f, results = r0 :: rest ∧
      concatShapes results as ts = .ok shapes ∧ shapes.getLast? = some f ∧
      R.final = f ∧ R.shapes = R.initial.toList ++ shapes ∧ R.gt = gt ∧
      R.nIters = shapes.length ∧ R.perScale = results.map (·.nIters) ∧ R.nScales = n ∧
      (r0.initial = none → R.initial = none) ∧
      (∀ s, r0.initial = some s → ∃ a t, as.head? = some a ∧ ts.head? = some t ∧
        R.initial = some (a (t s))) := by
  unfold multiNonParam at h
  by_cases hn : results.length = n
  · refine ⟨hn, ?_⟩
    simp only [hn, ne_eq, not_true, if_false] at h
    cases results with
    | nil => cases h
    | cons r0 rest =>
      simp only at h
      obtain ⟨init, h1, h⟩ := bind_ok h
      obtain ⟨shapes, h2, h⟩ := bind_ok h
      obtain ⟨r, h3, h⟩ := bind_ok h
      obtain ⟨costs, h4, h⟩ := bind_ok h
      obtain ⟨f, hf, rfl⟩ := nonParam_ok h3
      injection h with h
      refine ⟨r0, rest, shapes, f, rfl, h2, hf, ?_⟩
      subst h
      refine ⟨rfl, rfl, rfl, rfl, rfl, rfl, ?_, ?_⟩
      · intro h0; rw [h0, firstInitial] at h1; injection h1 with h1; exact h1.symm
      · intro s hs
        rw [hs] at h1
        cases as with
        | nil => cases h1
        | cons a as =>
          cases ts with
          | nil => cases h1
          | cons t ts => simp only [firstInitial] at h1; injection h1 with h1; exact ⟨a, t, rfl, rfl, h1.symm⟩
  · simp only [ne_eq, hn, not_false_eq_true, if_true] at h
    cases h

theorem multiParam_ok {results : List (Res S V C)} {n : Nat} {as ts : List (S → S)}
    {gt : Option S} {R : Res S V C} (h : multiParam results n as ts gt = .ok R) :
    ∃ (R' : Res S V C) (ps : List V), multiNonParam results n as ts gt = .ok R' ∧
      concatOpt (results.map (·.params)) = .ok ps ∧
      R = { R' with params := some ps, nIters := R'.nIters - n } := by
  unfold multiParam at h
  obtain ⟨R', h1, h⟩ := bind_ok h
  obtain ⟨ps, h2, h⟩ := bind_ok h
  injection h with h
  refine ⟨R', ps, h1, ?_, h.symm⟩
  cases hc : concatOpt (results.map (·.params)) with
  | error e => rw [hc] at h2; cases h2
  | ok x => rw [hc] at h2; injection h2 with h2; rw [h2]

theorem concatOpt_ok {α : Type} : ∀ {l : List (Option (List α))} {r : List α},
    concatOpt l = .ok r → ∃ ls : List (List α), l = ls.map some ∧ r = ls.flatten := by
  intro l
  induction l with
  | nil => intro r h; injection h with h; exact ⟨[], rfl, by simp [← h]⟩
  | cons x xs ih =>
    intro r h
    cases x with
    | none => cases h
    | some y =>
      simp only [concatOpt] at h
      obtain ⟨r', h1, h⟩ := bind_ok h
      injection h with h; subst h
      obtain ⟨ls, rfl, rfl⟩ := ih h1
      exact ⟨y :: ls, rfl, rfl⟩

theorem multiNonParam_costs {results : List (Res S V C)} {n : Nat} {as ts : List (S → S)}
    {gt : Option S} {R : Res S V C} (h : multiNonParam results n as ts gt = .ok R) :
    ∃ r0 rest, results = r0 :: rest ∧
      concatCosts r0.costs ((r0 :: rest).map (·.costs)) = .ok R.costs := by
  unfold multiNonParam at h
  by_cases hn : results.length = n
  · simp only [hn, ne_eq, not_true, if_false] at h
    cases results with
    | nil => cases h
    | cons r0 rest =>
      simp only at h
      obtain ⟨init, h1, h⟩ := bind_ok h
      obtain ⟨shapes, h2, h⟩ := bind_ok h
      obtain ⟨r, h3, h⟩ := bind_ok h
      obtain ⟨costs, h4, h⟩ := bind_ok h
      injection h with h; subst h
      exact ⟨r0, rest, rfl, h4⟩
  · simp only [ne_eq, hn, not_false_eq_true, if_true] at h
    cases h

/-! ### Reconstruction indices -/

/-- The indices of the first shapes of consecutive blocks of lengths `n + 1`. -/
def reconFull (v : Int) : List Int → List Int
  | [] => []
  | n :: ns => v :: reconFull (v + n + 1) ns

theorem reconLoop_eq (v : Int) : ∀ (n : Int) (ns : List Int),
    v :: reconLoop v ((n :: ns).take ns.length) = reconFull v (n :: ns) := by
  intro n ns
  induction ns generalizing v n with
  | nil => rfl
  | cons m ms ih =>
    rw [reconFull, ← ih (v + n + 1) m]
    rfl

/-- Start of block `i`. -/
def blockStart (v : Int) (l : List Int) (i : Nat) : Int := v + ((l.take i).map (· + 1)).sum

theorem blockStart_zero (v : Int) (l : List Int) : blockStart v l 0 = v := by simp [blockStart]

theorem blockStart_succ (v : Int) (n : Int) (l : List Int) (i : Nat) :
    blockStart v (n :: l) (i + 1) = blockStart (v + n + 1) l i := by
  simp [blockStart]; omega

theorem blockStart_ge (v : Int) (l : List Int) (hl : ∀ x ∈ l, 0 ≤ x) (i : Nat) :
    v ≤ blockStart v l i := by
  induction i generalizing v l with
  | zero => simp [blockStart]
  | succ i ih =>
    cases l with
    | nil => simp [blockStart]
    | cons n l =>
      rw [blockStart_succ]
      have := ih (v + n + 1) l (fun x hx => hl x (by simp [hx]))
      have := hl n (by simp)
      omega

theorem reconFull_length (v : Int) (l : List Int) : (reconFull v l).length = l.length := by
  induction l generalizing v with
  | nil => rfl
  | cons n l ih => simp [reconFull, ih]

theorem reconFull_get (v : Int) (l : List Int) (i : Nat) (hi : i < l.length) :
    (reconFull v l)[i]? = some (blockStart v l i) := by
  induction l generalizing v i with
  | nil => simp at hi
  | cons n l ih =>
    cases i with
    | zero => simp [reconFull, blockStart]
    | succ i =>
      rw [blockStart_succ, reconFull, List.getElem?_cons_succ]
      exact ih _ _ (by simpa using hi)

theorem reconFull_ge (v : Int) (l : List Int) (hl : ∀ x ∈ l, 0 ≤ x) :
    ∀ x ∈ reconFull v l, v ≤ x := by
  induction l generalizing v with
  | nil => simp [reconFull]
  | cons n l ih =>
    intro x hx
    rcases List.mem_cons.mp hx with rfl | hx
    · exact le_refl _
    · have := ih (v + n + 1) (fun x hx => hl x (by simp [hx])) x hx
      have := hl n (by simp)
      omega

theorem lastLe_none (j : Int) (l : List Int) (h : ∀ x ∈ l, j < x) : lastLe j l = none := by
  induction l with
  | nil => rfl
  | cons n l ih =>
    have := h n (by simp)
    simp [lastLe, ih (fun x hx => h x (by simp [hx])), this]

theorem lastLe_reconFull (v : Int) (l : List Int) (hl : ∀ x ∈ l, 0 ≤ x) (i : Nat) (n k : Int)
    (hi : l[i]? = some n) (h0 : 0 ≤ k) (hk : k ≤ n) :
    lastLe (blockStart v l i + k) (reconFull v l) = some i := by
  induction l generalizing v i with
  | nil => simp at hi
  | cons m l ih =>
    have hm := hl m (by simp)
    have hl' : ∀ x ∈ l, 0 ≤ x := fun x hx => hl x (by simp [hx])
    cases i with
    | zero =>
      simp at hi; subst hi
      rw [blockStart_zero, reconFull, lastLe, lastLe_none]
      · simp [h0]
      · intro x hx
        have := reconFull_ge _ _ hl' x hx
        omega
    | succ i =>
      rw [blockStart_succ, reconFull, lastLe, ih _ hl' _ (by simpa using hi)]

theorem not_mem_reconFull (v : Int) (l : List Int) (hl : ∀ x ∈ l, 0 ≤ x) (i : Nat) (n k : Int)
    (hi : l[i]? = some n) (h0 : 0 < k) (hk : k ≤ n) :
    blockStart v l i + k ∉ reconFull v l := by
  induction l generalizing v i with
  | nil => simp at hi
  | cons m l ih =>
    have hm := hl m (by simp)
    have hl' : ∀ x ∈ l, 0 ≤ x := fun x hx => hl x (by simp [hx])
    intro hmem
    cases i with
    | zero =>
      simp at hi; subst hi
      rw [blockStart_zero, reconFull] at hmem
      rcases List.mem_cons.mp hmem with h | h
      · omega
      · have := reconFull_ge _ _ hl' _ h; omega
    | succ i =>
      rw [blockStart_succ, reconFull] at hmem
      rcases List.mem_cons.mp hmem with h | h
      · have := blockStart_ge (v + m + 1) l hl' i; omega
      · exact ih _ hl' _ (by simpa using hi) h

/-- Entry `k` of block `i` in a concatenation of non-empty blocks. -/
theorem flatten_block {α : Type} (ls : List (List α)) (v : Nat) (i k : Nat) (b : List α)
    (hne : ∀ l ∈ ls, 1 ≤ l.length)
    (hi : ls[i]? = some b) (hk : k < b.length) :
    ∃ p : Nat, (blockStart v (ls.map fun l => (l.length : Int) - 1) i + k) = (v + p : Nat) ∧
      ls.flatten[p]? = b[k]? := by
  induction ls generalizing v i with
  | nil => simp at hi
  | cons l ls ih =>
    cases i with
    | zero =>
      simp at hi; subst hi
      refine ⟨k, by simp [blockStart], ?_⟩
      rw [List.flatten_cons, List.getElem?_append_left hk]
    | succ i =>
      obtain ⟨p, h1, h2⟩ := ih (v + l.length) i (fun x hx => hne x (by simp [hx]))
        (by simpa using hi)
      refine ⟨l.length + p, ?_, ?_⟩
      · rw [List.map_cons, blockStart_succ]
        have e : (v : Int) + ((l.length : Int) - 1) + 1 = ((v + l.length : Nat) : Int) := by
          push_cast; omega
        rw [e, h1]; congr 1; omega
      · rw [List.flatten_cons, List.getElem?_append_right (by omega), ← h2]
        congr 1; omega

theorem inImageCoords_get {trajs : List (List S)} {as ts : List (S → S)} {i : Nat} {t : List S}
    (hlen : (inImageCoords trajs as ts).length = trajs.length) (hi : trajs[i]? = some t) :
    ∃ a s, as[i]? = some a ∧ ts[i]? = some s ∧
      (inImageCoords trajs as ts)[i]? = some (t.map fun x => a (s x)) := by
  induction trajs generalizing as ts i with
  | nil => simp at hi
  | cons x xs ih =>
    cases as with
    | nil => simp [inImageCoords] at hlen
    | cons a as =>
      cases ts with
      | nil => simp [inImageCoords] at hlen
      | cons s ss =>
        cases i with
        | zero => simp at hi; subst hi; exact ⟨a, s, rfl, rfl, rfl⟩
        | succ i =>
          obtain ⟨a', s', h1, h2, h3⟩ := ih (as := as) (ts := ss) (i := i)
            (by simpa [inImageCoords] using hlen) (by simpa using hi)
          exact ⟨a', s', by simpa using h1, by simpa using h2, by simpa [inImageCoords] using h3⟩

theorem inImageCoords_map_length {trajs : List (List S)} {as ts : List (S → S)}
    (hlen : (inImageCoords trajs as ts).length = trajs.length) :
    (inImageCoords trajs as ts).map List.length = trajs.map List.length := by
  induction trajs generalizing as ts with
  | nil => cases as <;> cases ts <;> simp [inImageCoords]
  | cons x xs ih =>
    cases as with
    | nil => simp [inImageCoords] at hlen
    | cons a as =>
      cases ts with
      | nil => simp [inImageCoords] at hlen
      | cons s ss =>
        simp only [inImageCoords, List.map_cons, List.length_map]
        rw [ih (by simpa [inImageCoords] using hlen)]

/-! ### `mapM` -/

theorem mapM_ok {α β : Type} (f : α → Except PyErr β) (g : α → β) (l : List α)
    (h : ∀ x ∈ l, f x = .ok (g x)) : l.mapM f = .ok (l.map g) := by
  induction l with
  | nil => rfl
  | cons a l ih =>
    rw [List.mapM_cons, h a (by simp), ih (fun x hx => h x (by simp [hx]))]
    rfl

theorem mapM_get {α β : Type} {f : α → Except PyErr β} {l : List α} {r : List β}
    (h : l.mapM f = .ok r) (i : Nat) (x : α) (hi : l[i]? = some x) :
    ∃ y, f x = .ok y ∧ r[i]? = some y := by
  induction l generalizing r i with
  | nil => simp at hi
  | cons a l ih =>
    rw [List.mapM_cons] at h
    obtain ⟨y, h1, h⟩ := bind_ok h
    obtain ⟨ys, h2, h⟩ := bind_ok h
    injection h with h
    subst h
    cases i with
    | zero => simp at hi; subst hi; exact ⟨y, h1, rfl⟩
    | succ i => simpa using ih h2 i (by simpa using hi)

theorem pyGet_nat {α : Type} (l : List α) (j : Nat) (x : α) (h : l[j]? = some x) :
    pyGet l (j : Int) = .ok x := by
  have h0 : ¬ ((j : Int) < 0) := by omega
  simp only [pyGet, h0, if_false, Int.toNat_natCast, h]

/-- With distinct labels every assignment can be seen. -/
theorem shown_of_nodup (as : List (Label × S)) (h : (as.map Prod.fst).Nodup) :
    ∀ x ∈ as, shown as x.1 = some x.2 := by
  have gen : ∀ (as : List (Label × S)) (acc : Option S) (l : Label), (∀ y ∈ as, y.1 ≠ l) →
      as.foldl (fun acc x => if x.1 = l then some x.2 else acc) acc = acc := by
    intro as
    induction as with
    | nil => intro acc l _; rfl
    | cons y ys ih =>
      intro acc l hl
      rw [List.foldl_cons, if_neg (hl y (by simp))]
      exact ih acc l (fun z hz => hl z (by simp [hz]))
  have key : ∀ (as : List (Label × S)) (acc : Option S), (as.map Prod.fst).Nodup → ∀ x ∈ as,
      as.foldl (fun acc y => if y.1 = x.1 then some y.2 else acc) acc = some x.2 := by
    intro as
    induction as with
    | nil => intro acc _ x hx; simp at hx
    | cons y ys ih =>
      intro acc hn x hx
      simp only [List.map_cons, List.nodup_cons] at hn
      rw [List.foldl_cons]
      rcases List.mem_cons.mp hx with rfl | hx
      · rw [if_pos rfl]
        exact gen ys _ _ (fun z hz he => hn.1 (by rw [← he]; exact List.mem_map_of_mem hz))
      · exact ih _ hn.2 x hx
  exact key as none h

end Menpofit
