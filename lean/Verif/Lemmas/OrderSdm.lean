import Verif.Spec.Order
import Verif.Model.Sdm
import Verif.Lemmas.Training
/-!
# Helper lemmas: supervised descent training and the order of the images
-/

namespace Menpofit
open Sdm Spec

namespace OrderSdm

variable {V W Row Reg J : Type} [AddCommGroup W]

/-- What is known of an image in the cascade: its tag, the parameters of its ground truth, and for
each of its shapes the shape and its target. -/
abbrev St (V W J : Type) := List (J × W × List (V × W))

def cur (S : St V W J) : List (List V) := S.map fun x => x.2.2.map Prod.fst
def gtRows (S : St V W J) : List W := (S.map fun x => x.2.2.map fun _ => x.2.1).flatten
def delta (S : St V W J) : List W := (S.map fun x => x.2.2.map Prod.snd).flatten
def rows (feat : J → V → Row) (S : St V W J) : List Row :=
  (S.map fun x => x.2.2.map fun y => feat x.1 y.1).flatten

def next (co : Coord V W) (feat : J → V → Row) (p : Row → W) (S : St V W J) : St V W J :=
  S.map fun x => (x.1, x.2.1, x.2.2.map fun y =>
    (co.inst (co.proj y.1 + p (feat x.1 y.1)), x.2.1 - (co.proj y.1 + p (feat x.1 y.1))))

theorem featureRows_eq (feat : J → V → Row) : ∀ S : St V W J, (∀ x ∈ S, x.2.2 ≠ []) →
    featureRows feat (S.map Prod.fst) (cur S) = .ok (rows feat S)
  | [], _ => rfl
  | x :: S, h => by
    have ih := featureRows_eq feat S (fun y hy => h y (List.mem_cons_of_mem _ hy))
    unfold cur at ih ⊢
    simp only [List.map_cons, featureRows]
    rw [if_neg (by simpa using h x (List.mem_cons_self)), ih]
    simp only [bind, Except.bind, pure, Except.pure, rows, List.map_cons, List.flatten_cons,
      List.map_map]
    rfl

theorem updateShapes_eq (co : Coord V W) (f : V × W → W) (g : W) : ∀ (l : List (V × W))
    (pre post gpre gpost : List W) (j : Nat), pre.length = j → gpre.length = j →
    updateShapes co (pre ++ (l.map f ++ post)) (gpre ++ (l.map (fun _ => g) ++ gpost)) j
      (l.map Prod.fst) = .ok (l.map fun y => co.inst (co.proj y.1 + f y),
        l.map fun y => g - (co.proj y.1 + f y))
  | [], _, _, _, _, _, _, _ => rfl
  | y :: l, pre, post, gpre, gpost, j, h1, h2 => by
    have ih := updateShapes_eq co f g l (pre ++ [f y]) post (gpre ++ [g]) gpost (j + 1)
      (by simp [h1]) (by simp [h2])
    simp only [List.append_assoc, List.singleton_append] at ih
    simp only [List.map_cons, updateShapes, List.cons_append]
    rw [List.getElem?_append_right (by omega), List.getElem?_append_right (by omega)]
    simp only [h1, h2, Nat.sub_self, List.getElem?_cons_zero, ih, bind, Except.bind, pure, Except.pure]

theorem updateAll_eq (co : Coord V W) (feat : J → V → Row) (p : Row → W) : ∀ (S : St V W J)
    (pre gpre : List W) (j : Nat), pre.length = j → gpre.length = j →
    updateAll co (pre ++ (rows feat S).map p) (gpre ++ gtRows S) j (cur S) =
      .ok (cur (next co feat p S), delta (next co feat p S))
  | [], _, _, _, _, _ => rfl
  | x :: S, pre, gpre, j, h1, h2 => by
    have ih := updateAll_eq co feat p S (pre ++ x.2.2.map fun y => p (feat x.1 y.1))
      (gpre ++ x.2.2.map fun _ => x.2.1) (j + x.2.2.length) (by simp [h1]) (by simp [h2])
    have hs := updateShapes_eq co (fun y : V × W => p (feat x.1 y.1)) x.2.1 x.2.2 pre
      ((rows feat S).map p) gpre (gtRows S) j h1 h2
    simp only [List.append_assoc] at ih
    unfold cur at ih ⊢
    simp only [rows, gtRows, List.map_cons, List.flatten_cons, List.map_append, List.map_map,
      Function.comp_def, updateAll, List.length_map] at ih hs ⊢
    simp only [hs, ih, bind, Except.bind, pure, Except.pure, next, delta, List.map_cons,
      List.map_map, Function.comp_def, List.flatten_cons]

theorem gtRows_next (co : Coord V W) (feat : J → V → Row) (p : Row → W) (S : St V W J) :
    gtRows (next co feat p S) = gtRows S := by
  simp only [gtRows, next, List.map_map, Function.comp_def]

theorem delta_next_length (co : Coord V W) (feat : J → V → Row) (p : Row → W) (S : St V W J) :
    (delta (next co feat p S)).length = (delta S).length := by
  simp only [delta, next, List.map_map, Function.comp_def, List.length_flatten, List.length_map]

theorem next_fst (co : Coord V W) (feat : J → V → Row) (p : Row → W) (S : St V W J) :
    (next co feat p S).map Prod.fst = S.map Prod.fst := by
  simp only [next, List.map_map, Function.comp_def]

theorem next_ne (co : Coord V W) (feat : J → V → Row) (p : Row → W) (S : St V W J)
    (h : ∀ x ∈ S, x.2.2 ≠ []) : ∀ x ∈ next co feat p S, x.2.2 ≠ [] := by
  intro x hx
  simp only [next, List.mem_map] at hx
  obtain ⟨y, hy, rfl⟩ := hx
  simpa using h y hy

theorem zipped (feat : J → V → Row) (S : St V W J) :
    ∃ P : List (Row × W), P = (S.map fun x => x.2.2.map fun y => (feat x.1 y.1, y.2)).flatten ∧
      P.map Prod.fst = rows feat S ∧ P.map Prod.snd = delta S := by
  refine ⟨_, rfl, ?_, ?_⟩ <;>
    simp only [rows, delta, List.map_flatten, List.map_map, Function.comp_def]

theorem step_free {f : List Row → List W → Except PyErr Reg}
    (hf : ∀ P P' : List (Row × W), P.Perm P' →
      Agree (f (P.map Prod.fst) (P.map Prod.snd)) (f (P'.map Prod.fst) (P'.map Prod.snd)))
    (feat : J → V → Row) {S S' : St V W J} (hS : S.Perm S') :
    Agree (f (rows feat S) (delta S)) (f (rows feat S') (delta S')) := by
  obtain ⟨P, hP, h1, h2⟩ := zipped feat S
  obtain ⟨P', hP', h1', h2'⟩ := zipped feat S'
  rw [← h1, ← h2, ← h1', ← h2']
  apply hf
  rw [hP, hP']
  exact (hS.map _).flatten

theorem stages_perm {ops : RegOps Row W Reg} {p : Reg → Row → W}
    (hp : ∀ r l, ops.predict r l = l.map (p r))
    (ht : ∀ P P' : List (Row × W), P.Perm P' →
      Agree (ops.train (P.map Prod.fst) (P.map Prod.snd)) (ops.train (P'.map Prod.fst) (P'.map Prod.snd)))
    (hi : ∀ r, ∀ P P' : List (Row × W), P.Perm P' → Agree (ops.increment r (P.map Prod.fst) (P.map Prod.snd))
      (ops.increment r (P'.map Prod.fst) (P'.map Prod.snd)))
    (co : Coord V W) (feat : J → V → Row) (inc : Bool) : ∀ (m k : Nat) (regs : List Reg) (S S' : St V W J),
    S.Perm S' → (∀ x ∈ S, x.2.2 ≠ []) → ∀ r,
    stages ops co feat (S.map Prod.fst) (gtRows S) inc m k regs (delta S) (cur S) = .ok r →
    ∃ (r' : _) (S₁ S₁' : St V W J), stages ops co feat (S'.map Prod.fst) (gtRows S') inc m k regs (delta S') (cur S') = .ok r' ∧
      r'.1 = r.1 ∧ S₁.Perm S₁' ∧ S₁.map Prod.fst = S.map Prod.fst ∧ S₁'.map Prod.fst = S'.map Prod.fst ∧
      r.2.1 = cur S₁ ∧ r'.2.1 = cur S₁' := by
  intro m
  induction m with
  | zero =>
    intro k regs S S' hS hne r h
    simp only [stages, Except.ok.injEq] at h
    subst h
    exact ⟨_, S, S', rfl, rfl, hS, rfl, rfl, rfl, rfl⟩
  | succ m ih =>
    intro k regs S S' hS hne r h
    have hne' : ∀ x ∈ S', x.2.2 ≠ [] := fun x hx => hne x (hS.mem_iff.mpr hx)
    simp only [stages, featureRows_eq feat S hne] at h
    obtain ⟨_, e, h⟩ := bind_ok h
    cases e
    obtain ⟨q, hq, h⟩ := bind_ok h
    have hq' : (if inc then
        match regs[k]? with
        | some r => ops.increment r (rows feat S') (delta S')
        | none => .error .indexError
      else ops.train (rows feat S') (delta S') : Except PyErr Reg) = .ok q := by
      cases inc with
      | false => exact (step_free ht feat hS q).mp hq
      | true =>
        cases hr : regs[k]? with
        | none => rw [hr] at hq; cases hq
        | some r0 => rw [hr] at hq; exact (step_free (hi r0) feat hS q).mp hq
    obtain ⟨u, hu, h⟩ := bind_ok h
    have hup := fun S : St V W J => updateAll_eq co feat (p q) S [] [] 0 rfl rfl
    simp only [List.nil_append] at hup
    rw [hp, hup S] at hu
    cases hu
    have hlen := delta_next_length co feat (p q) S
    have hlen' := delta_next_length co feat (p q) S'
    simp only [hlen, List.drop_length, List.append_nil] at h
    obtain ⟨rest, hrest, h⟩ := bind_ok h
    rw [← gtRows_next co feat (p q) S, ← next_fst co feat (p q) S] at hrest
    obtain ⟨r', S₁, S₁', a1, a2, a3, a4, a5, a6, a7⟩ := ih (k + 1) _ (next co feat (p q) S)
      (next co feat (p q) S') (hS.map _) (next_ne co feat (p q) S hne) rest hrest
    rw [next_fst, gtRows_next] at a1
    cases h
    refine ⟨(r'.1, r'.2.1, ⟨cur S', rows feat S', delta S', (rows feat S').map (p q),
      cur (next co feat (p q) S')⟩ :: r'.2.2), S₁, S₁', ?_, a2, a3, a4.trans (next_fst ..), a5.trans (next_fst ..), a6, a7⟩
    simp only [stages, featureRows_eq feat S' hne', bind, Except.bind]
    erw [hq']
    simp only [hp, hup S', hlen', List.drop_length, List.append_nil, a1]
    rfl

theorem featureRows_tag {I : Type} (g : J → I) (feat : I → V → Row) : ∀ (T : List J) (c : List (List V)),
    featureRows (fun t => feat (g t)) T c = featureRows feat (T.map g) c
  | [], _ => rfl
  | _ :: _, [] => rfl
  | t :: T, ss :: c => by
    simp only [List.map_cons, featureRows, featureRows_tag g feat T c]

theorem stages_tag {I : Type} (ops : RegOps Row W Reg) (co : Coord V W) (g : J → I) (feat : I → V → Row)
    (T : List J) (gt : List W) (inc : Bool) : ∀ (m k : Nat) (regs : List Reg) (d : List W) (c : List (List V)),
    stages ops co (fun t => feat (g t)) T gt inc m k regs d c =
      stages ops co feat (T.map g) gt inc m k regs d c
  | 0, _, _, _, _ => rfl
  | m + 1, k, regs, d, c => by
    simp only [stages, featureRows_tag g feat T c, stages_tag ops co g feat T gt inc m]

/-- The first state. -/
def start {I : Type} (co : Coord V W) (T : List (I × V × List V)) : St V W (I × V × List V) :=
  T.map fun t => (t, co.proj t.2.1, t.2.2.map fun s => (s, co.proj t.2.1 - co.proj s))

theorem deltaRows_start {I : Type} (co : Coord V W) : ∀ T : List (I × V × List V),
    deltaRows co (T.map (·.2.1)) (T.map (·.2.2)) =
      (T.map fun t => t.2.2.map fun s => (co.proj t.2.1 - co.proj s, co.proj t.2.1)).flatten
  | [] => rfl
  | t :: T => by
    simp only [List.map_cons, deltaRows, deltaRows_start co T, List.flatten_cons]

theorem computeDelta_start {I : Type} (co : Coord V W) (junk : Nat → W) (T : List (I × V × List V)) (m : Nat)
    (hne : T ≠ []) (hlen : ∀ t ∈ T, t.2.2.length = m) :
    computeDelta co junk (T.map (·.2.1)) (T.map (·.2.2)) = .ok (delta (start co T), gtRows (start co T)) := by
  have hl : (deltaRows co (T.map (·.2.1)) (T.map (·.2.2))).length = T.length * m := by
    rw [deltaRows_start, List.length_flatten, List.map_map]
    have : T.map (List.length ∘ fun t => t.2.2.map fun s => (co.proj t.2.1 - co.proj s, co.proj t.2.1)) =
        T.map (fun _ => m) := List.map_congr_left fun t ht => by simpa using hlen t ht
    rw [this]; simp
  cases T with
  | nil => exact absurd rfl hne
  | cons t T =>
    have ht := hlen t List.mem_cons_self
    unfold computeDelta
    simp only [List.map_cons] at hl ⊢
    rw [if_neg (by rw [hl, ht]; simp)]
    rw [hl, ht]
    have hz : (co.proj t.2.1 :: T.map (fun t => co.proj t.2.1)).length = T.length + 1 := by simp
    simp only [List.length_cons, List.length_map, Nat.sub_self, List.range_zero, List.map_nil, List.append_nil]
    have hd := deltaRows_start co (t :: T)
    simp only [List.map_cons] at hd
    rw [hd]
    simp only [start, delta, gtRows, List.map_cons, List.map_map, Function.comp_def, List.map_flatten]

end OrderSdm
end Menpofit
