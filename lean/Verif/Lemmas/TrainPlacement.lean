import Verif.Model.Sdm
import Verif.Spec.TrainPlacement
import Verif.Lemmas.Placement
/-!
# Lemmas: training with the faces elsewhere in their pictures
-/

namespace Menpofit
namespace Sdm
open MI Spec

variable {N : Nat} {Pic C W Row Reg : Type} [AddCommGroup W]

/-- Coordinates in which moving a shape adds a constant. -/
structure Shifts (co : Coord (Pts N 2) W) (τ : (Fin 2 → ℝ) → W) : Prop where
  proj : ∀ t s, co.proj (movedShape t s) = co.proj s + τ t
  inst : ∀ t w, co.inst (w + τ t) = movedShape t (co.inst w)

/-- The constant that is added in every row. -/
def blocks (τ : (Fin 2 → ℝ) → W) : List (Fin 2 → ℝ) → List Nat → List W
  | t :: ts, n :: ns => List.replicate n (τ t) ++ blocks τ ts ns
  | _, _ => []

/-- Row `j + i` of `G'` is that of `G` plus entry `i` of `sh`. -/
def Shifted (sh : List W) (j : Nat) (G G' : List W) : Prop :=
  ∀ i w, sh[i]? = some w → G'[j + i]? = G[j + i]?.map (· + w)

variable {co : Coord (Pts N 2) W} {τ : (Fin 2 → ℝ) → W}

theorem deltaRows_moved (hc : Shifts co τ) : ∀ (ts : List (Fin 2 → ℝ)) (gts : List (Pts N 2)) (cur : List (List (Pts N 2))),
    ts.length = gts.length → ts.length = cur.length →
    (deltaRows co (List.zipWith movedShape ts gts) (movedEach ts cur)).map Prod.fst = (deltaRows co gts cur).map Prod.fst ∧
    (deltaRows co (List.zipWith movedShape ts gts) (movedEach ts cur)).map Prod.snd =
      List.zipWith (· + ·) ((deltaRows co gts cur).map Prod.snd) (blocks τ ts (cur.map List.length)) ∧
    (deltaRows co gts cur).length = (blocks τ ts (cur.map List.length)).length := by
  intro ts
  induction ts with
  | nil =>
    intro gts cur h1 h2
    cases gts with
    | nil => simp [deltaRows, blocks]
    | cons g gs => simp at h1
  | cons t ts ih =>
    intro gts cur h1 h2
    cases gts with
    | nil => simp at h1
    | cons g gs =>
      cases cur with
      | nil => simp at h2
      | cons ss sss =>
        obtain ⟨i1, i2, i3⟩ := ih gs sss (by simpa using h1) (by simpa using h2)
        simp only [List.zipWith_cons_cons, movedEach, deltaRows, List.map_append, List.map_map, List.map_cons, blocks,
          List.length_append, List.length_map, List.length_replicate] at i1 i2 i3 ⊢
        refine ⟨?_, ?_, by rw [i3]⟩
        · rw [i1]
          congr 1
          apply List.map_congr_left
          intro s _
          simp only [Function.comp, hc.proj]
          abel
        · rw [i2, List.zipWith_append (by simp)]
          congr 1
          apply List.ext_getElem
          · simp
          · intro i h1 h2
            simp [hc.proj]

theorem shifted_append (sh a rest : List W) (h : a.length = sh.length) :
    Shifted sh 0 (a ++ rest) (List.zipWith (· + ·) a sh ++ rest) := by
  intro i w hw
  obtain ⟨hi, hw'⟩ := List.getElem?_eq_some_iff.1 hw
  rw [Nat.zero_add, List.getElem?_append_left (by simp; omega), List.getElem?_append_left (by omega),
    List.getElem?_zipWith]
  rw [hw, List.getElem?_eq_getElem (by omega)]
  rfl

theorem updateShapes_moved (hc : Shifts co τ) (t : Fin 2 → ℝ) (est : List W) {G G' : List W} :
    ∀ (ss : List (Pts N 2)) (j : Nat), Shifted (List.replicate ss.length (τ t)) j G G' →
      updateShapes co est G' j (ss.map (movedShape t)) =
        (updateShapes co est G j ss).map fun r => (r.1.map (movedShape t), r.2) := by
  intro ss
  induction ss with
  | nil => intro j _; rfl
  | cons s ss ih =>
    intro j h
    have h0 := h 0 (τ t) (by simp)
    rw [Nat.add_zero] at h0
    simp only [List.map_cons, updateShapes]
    rw [h0]
    cases est[j]? with
    | none => rfl
    | some e =>
      cases G[j]? with
      | none => rfl
      | some g =>
        simp only [Option.map_some]
        rw [ih (j + 1) (by
          intro i w hw
          have := h (i + 1) w (by simpa [List.replicate_succ] using hw)
          rwa [show j + (i + 1) = j + 1 + i by omega] at this)]
        cases updateShapes co est G (j + 1) ss with
        | error e => rfl
        | ok r =>
          simp only [Except.map, bind, Except.bind, pure, Except.pure, List.map_cons, hc.proj]
          rw [show co.proj s + τ t + e = co.proj s + e + τ t by abel, hc.inst,
            show g + τ t - (co.proj s + e + τ t) = g - (co.proj s + e) by abel]

theorem updateShapes_length (est G : List W) : ∀ (ss : List (Pts N 2)) (j : Nat) r,
    updateShapes co est G j ss = .ok r → r.1.length = ss.length ∧ r.2.length = ss.length := by
  intro ss
  induction ss with
  | nil => intro j r h; injection h with h; subst h; simp
  | cons s ss ih =>
    intro j r h
    simp only [updateShapes] at h
    split at h
    · cases hr : updateShapes co est G (j + 1) ss with
      | error e => simp [hr, bind, Except.bind] at h
      | ok q =>
        simp only [hr, bind, Except.bind, pure, Except.pure] at h
        injection h with h
        subst h
        obtain ⟨a, b⟩ := ih _ _ hr
        simp [a, b]
    · cases h

theorem updateAll_moved (hc : Shifts co τ) (est : List W) {G G' : List W} :
    ∀ (ts : List (Fin 2 → ℝ)) (cur : List (List (Pts N 2))) (j : Nat), ts.length = cur.length →
      Shifted (blocks τ ts (cur.map List.length)) j G G' →
      updateAll co est G' j (movedEach ts cur) =
        (updateAll co est G j cur).map fun r => (movedEach ts r.1, r.2) := by
  intro ts
  induction ts with
  | nil =>
    intro cur j h _
    cases cur with
    | nil => rfl
    | cons s ss => simp at h
  | cons t ts ih =>
    intro cur j hl h
    cases cur with
    | nil => simp at hl
    | cons ss sss =>
      simp only [movedEach, List.zipWith_cons_cons, updateAll]
      rw [updateShapes_moved hc t est ss j (by
        intro i w hw
        apply h i w
        obtain ⟨hi, -⟩ := List.getElem?_eq_some_iff.1 hw
        simp only [List.map_cons, blocks]
        rw [List.getElem?_append_left hi, hw])]
      have h' : Shifted (blocks τ ts (sss.map List.length)) (j + ss.length) G G' := by
        intro i w hw
        have := h (ss.length + i) w (by
          simp only [List.map_cons, blocks]
          rw [List.getElem?_append_right (by simp)]
          simpa using hw)
        rwa [show j + (ss.length + i) = j + ss.length + i by omega] at this
      have := ih sss (j + ss.length) (by simpa using hl) h'
      simp only [movedEach] at this
      rw [List.length_map, this]
      cases updateShapes co est G j ss with
      | error e => rfl
      | ok r =>
        simp only [Except.map, bind, Except.bind]
        cases updateAll co est G (j + ss.length) sss with
        | error e => rfl
        | ok q => rfl

theorem updateAll_lengths (est G : List W) : ∀ (cur : List (List (Pts N 2))) (j : Nat) r,
    updateAll co est G j cur = .ok r → r.1.map List.length = cur.map List.length := by
  intro cur
  induction cur with
  | nil => intro j r h; injection h with h; subst h; rfl
  | cons ss sss ih =>
    intro j r h
    simp only [updateAll] at h
    cases hr : updateShapes co est G j ss with
    | error e => simp [hr, bind, Except.bind] at h
    | ok q =>
      simp only [hr, bind, Except.bind] at h
      cases hq : updateAll co est G (j + ss.length) sss with
      | error e => simp [hq] at h
      | ok p =>
        simp only [hq, pure, Except.pure] at h
        injection h with h
        subst h
        simp [ih _ _ hq, (updateShapes_length est G _ _ _ hr).1]

theorem featureRows_moved {sample : Pic → EuclideanSpace ℝ (Fin 2) → C} {feat : Pic → Pts N 2 → Row}
    (hf : FollowsPicture sample feat) : ∀ (S : List (MovedSample N Pic)) (cur : List (List (Pts N 2))),
      (∀ x ∈ S, MovedPicture sample x.vec x.picture x.moved) →
      featureRows feat (S.map (·.moved)) (movedEach (S.map (·.vec)) cur) = featureRows feat (S.map (·.picture)) cur := by
  intro S
  induction S with
  | nil => intro cur _; rfl
  | cons x S ih =>
    intro cur h
    cases cur with
    | nil => rfl
    | cons ss sss =>
      have := ih sss (fun y hy => h y (by simp [hy]))
      simp only [movedEach] at this
      simp only [movedEach, List.map_cons, List.zipWith_cons_cons, featureRows, List.length_map, this, List.map_map]
      have e : feat x.moved ∘ movedShape x.vec = feat x.picture := by
        funext s
        exact hf _ _ _ (h x (by simp)) s
      rw [e]

theorem stages_moved (ops : RegOps Row W Reg) (hc : Shifts co τ)
    {sample : Pic → EuclideanSpace ℝ (Fin 2) → C} {feat : Pic → Pts N 2 → Row} (hf : FollowsPicture sample feat)
    (S : List (MovedSample N Pic)) (hS : ∀ x ∈ S, MovedPicture sample x.vec x.picture x.moved) (increment : Bool)
    {G G' : List W} (ns : List Nat) (hG : Shifted (blocks τ (S.map (·.vec)) ns) 0 G G') :
    ∀ (m k : Nat) (regs : List Reg) (delta : List W) (cur : List (List (Pts N 2))), S.length = cur.length →
      cur.map List.length = ns →
      stages ops co feat (S.map (·.moved)) G' increment m k regs delta (movedEach (S.map (·.vec)) cur) =
        (stages ops co feat (S.map (·.picture)) G increment m k regs delta cur).map
          (movedTraining (S.map (·.vec))) := by
  intro m
  induction m with
  | zero => intro k regs delta cur _ _; rfl
  | succ m ih =>
    intro k regs delta cur hl hn
    simp only [stages, featureRows_moved hf S cur hS]
    cases featureRows feat (S.map (·.picture)) cur with
    | error e => rfl
    | ok F =>
      simp only [bind, Except.bind]
      generalize hreg : (if increment = true then
        match regs[k]? with
        | some r => ops.increment r F delta
        | none => .error .indexError
      else ops.train F delta : Except PyErr Reg) = R
      cases R with
      | error e => rfl
      | ok r =>
        simp only
        rw [updateAll_moved hc _ (S.map (·.vec)) cur 0 (by simpa using hl) (by rw [hn]; exact hG)]
        cases hu : updateAll co (ops.predict r F) G 0 cur with
        | error e => rfl
        | ok u =>
          simp only [Except.map]
          have hlen := updateAll_lengths _ _ _ _ _ hu
          rw [ih (k + 1) _ _ u.1 (by rw [hl]; simpa using (congrArg List.length hlen).symm) (by rw [hlen, hn])]
          generalize stages ops co feat (S.map (·.picture)) G increment m (k + 1)
            (if increment = true then regs.set k r else regs ++ [r]) (u.2 ++ delta.drop u.2.length) u.1 = Q
          cases Q with
          | error e => rfl
          | ok q => rfl

theorem train_moved (ops : RegOps Row W Reg) (hc : Shifts co τ)
    {sample : Pic → EuclideanSpace ℝ (Fin 2) → C} {feat : Pic → Pts N 2 → Row} (hf : FollowsPicture sample feat)
    (junk : Nat → W) (nIterations : Nat) (increment : Bool) (regs : List Reg)
    (S : List (MovedSample N Pic)) (hS : ∀ x ∈ S, MovedPicture sample x.vec x.picture x.moved) :
    train ops co feat junk nIterations increment regs (S.map (·.moved))
        (S.map fun x => movedShape x.vec x.gt) (S.map fun x => x.shapes.map (movedShape x.vec)) =
      (train ops co feat junk nIterations increment regs (S.map (·.picture)) (S.map (·.gt))
        (S.map (·.shapes))).map (movedTraining (S.map (·.vec))) := by
  have e1 : S.map (fun x => movedShape x.vec x.gt) = List.zipWith movedShape (S.map (·.vec)) (S.map (·.gt)) := by
    rw [List.zipWith_map, List.zipWith_self]
  have e2 : S.map (fun x => x.shapes.map (movedShape x.vec)) = movedEach (S.map (·.vec)) (S.map (·.shapes)) := by
    simp only [movedEach]
    rw [List.zipWith_map, List.zipWith_self]
  unfold train
  split
  · rfl
  · rw [e1, e2]
    obtain ⟨d1, d2, d3⟩ := deltaRows_moved hc (S.map (·.vec)) (S.map (·.gt)) (S.map (·.shapes)) (by simp) (by simp)
    have d0 : (deltaRows co (List.zipWith movedShape (S.map (·.vec)) (S.map (·.gt)))
        (movedEach (S.map (·.vec)) (S.map (·.shapes)))).length =
        (deltaRows co (S.map (·.gt)) (S.map (·.shapes))).length := by
      have := congrArg List.length d1
      simpa using this
    generalize hrow : deltaRows co (S.map (·.gt)) (S.map (·.shapes)) = rows at d0 d1 d2 d3
    generalize hrow' : deltaRows co (List.zipWith movedShape (S.map (·.vec)) (S.map (·.gt)))
        (movedEach (S.map (·.vec)) (S.map (·.shapes))) = rows' at d0 d1 d2
    cases S with
    | nil => rfl
    | cons x S =>
      have c1 : computeDelta co junk (List.zipWith movedShape ((x :: S).map (·.vec)) ((x :: S).map (·.gt)))
          (movedEach ((x :: S).map (·.vec)) ((x :: S).map (·.shapes))) =
          if (S.length + 1) * x.shapes.length < rows'.length then .error .indexError
          else .ok (rows'.map Prod.fst ++ (List.range ((S.length + 1) * x.shapes.length - rows'.length)).map junk,
            rows'.map Prod.snd ++ (List.range ((S.length + 1) * x.shapes.length - rows'.length)).map junk) := by
        rw [← hrow']
        simp [computeDelta, movedEach]
      have c2 : computeDelta co junk ((x :: S).map (·.gt)) ((x :: S).map (·.shapes)) =
          if (S.length + 1) * x.shapes.length < rows.length then .error .indexError
          else .ok (rows.map Prod.fst ++ (List.range ((S.length + 1) * x.shapes.length - rows.length)).map junk,
            rows.map Prod.snd ++ (List.range ((S.length + 1) * x.shapes.length - rows.length)).map junk) := by
        rw [← hrow]
        simp [computeDelta]
      rw [c1, c2, d0]
      split
      · rfl
      · simp only [bind, Except.bind]
        rw [d1, d2]
        exact stages_moved ops hc hf (x :: S) hS increment (((x :: S).map (·.shapes)).map List.length)
          (shifted_append _ (rows.map Prod.snd) _ (by rw [List.length_map]; exact d3)) _ _ _ _ _ (by simp) rfl

end Sdm
end Menpofit
