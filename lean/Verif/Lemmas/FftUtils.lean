import Verif.Model.FftUtils
import Verif.Spec.FftUtils
import Verif.Lemmas.Result
/-!
# Helper lemmas for padding and cropping
-/

namespace Menpofit
open Fft Spec

theorem margins_nat {n ext : Nat} (h : n ≤ ext) :
    margins n ext = ((((ext - n) / 2 + (ext - n) % 2 : Nat) : Int), (((ext - n) / 2 : Nat) : Int)) := by
  obtain ⟨d, rfl⟩ := Nat.exists_eq_add_of_le h
  unfold margins
  have e : ((n + d : Nat) : Int) - n = (d : Int) := by push_cast; ring
  have e2 : n + d - n = d := by omega
  rw [e, e2]
  have e3 : Int.fdiv (d : Int) 2 = ((d / 2 : Nat) : Int) := by
    rw [Int.fdiv_eq_ediv_of_nonneg _ (by norm_num)]; rfl
  simp only [e3]
  split
  · next h => refine Prod.ext ?_ ?_ <;> dsimp only <;> omega
  · next h => refine Prod.ext ?_ ?_ <;> dsimp only <;> omega

theorem margins_neg {n : Nat} {ext : Int} (h : ext < n) : (margins n ext).2 < 0 := by
  unfold margins
  simp only
  rw [Int.fdiv_eq_ediv_of_nonneg _ (by norm_num)]
  omega

theorem cropBounds_nat {n size : Nat} (h : size ≤ n) :
    cropBounds n size = ((((n - size) / 2 + (n - size) % 2 : Nat) : Int),
      -(((n - size) / 2 : Nat) : Int)) := by
  obtain ⟨d, rfl⟩ := Nat.exists_eq_add_of_le h
  unfold cropBounds
  have e : ((size + d : Nat) : Int) - size = (d : Int) := by push_cast; ring
  have e2 : size + d - size = d := by omega
  rw [e, e2]
  have e3 : Int.fdiv (d : Int) 2 = ((d / 2 : Nat) : Int) := by
    rw [Int.fdiv_eq_ediv_of_nonneg _ (by norm_num)]; rfl
  have e4 : Int.fmod (d : Int) 2 = ((d % 2 : Nat) : Int) := by
    rw [Int.fmod_eq_emod_of_nonneg _ (by norm_num)]; rfl
  simp only [e3, e4]
  split
  · next h => refine Prod.ext ?_ ?_ <;> dsimp only <;> omega
  · next h => refine Prod.ext ?_ ?_ <;> dsimp only <;> omega

theorem symmetricAfter_length {α : Type} (k : Nat) (l : List α) (hl : l ≠ []) :
    (symmetricAfter k l).length = k := by
  unfold symmetricAfter
  have h0 : 0 < l.length := List.length_pos_iff.mpr hl
  simp only [List.length_take, List.length_flatten, List.map_replicate, List.sum_replicate,
    List.length_append, List.length_reverse, smul_eq_mul]
  exact min_eq_left (Nat.le_mul_of_pos_right k (by omega))

theorem after_length {α : Type} (b : Boundary) (z : α) (k : Nat) (l : List α)
    (hl : b = .symmetric → l = [] → k = 0) : (after b z k l).length = k := by
  cases b with
  | constant => simp [after]
  | symmetric =>
    by_cases h : l = []
    · rw [hl rfl h]; simp [after, symmetricAfter]
    · simp only [after]; exact symmetricAfter_length k l h

theorem before_length {α : Type} (b : Boundary) (z : α) (k : Nat) (l : List α)
    (hl : b = .symmetric → l = [] → k = 0) : (before b z k l).length = k := by
  unfold before
  rw [List.length_reverse, after_length]
  intro h1 h2
  exact hl h1 (List.reverse_eq_nil_iff.mp h2)

/-- Padding one axis. -/
theorem npPad_ok {α : Type} (b : Boundary) (z : α) {n ext : Nat} (h : n ≤ ext) (l : List α)
    (hl : l.length = n) (hb : b = .symmetric → 0 < n) :
    npPad b z (margins n ext) l =
      .ok (before b z ((ext - n) / 2 + (ext - n) % 2) l ++ l ++ after b z ((ext - n) / 2) l) := by
  unfold npPad
  rw [margins_nat h, if_neg (by simp only; omega), if_neg]
  · rfl
  · rintro ⟨h1, h2, _⟩
    have := hb h1
    rw [h2] at hl
    simp at hl
    omega

theorem npPad_length {α : Type} (b : Boundary) (z : α) {n ext : Nat} (h : n ≤ ext) (l : List α)
    (hl : l.length = n) (hb : b = .symmetric → 0 < n) :
    (before b z ((ext - n) / 2 + (ext - n) % 2) l ++ l ++ after b z ((ext - n) / 2) l).length
      = ext := by
  have h2 : b = .symmetric → l = [] → ∀ k : Nat, k = 0 := by
    intro h1 h2
    have := hb h1
    rw [h2] at hl
    simp at hl
    omega
  rw [List.length_append, List.length_append, before_length _ _ _ _ (fun a c => h2 a c _),
    after_length _ _ _ _ (fun a c => h2 a c _), hl]
  omega

theorem slice_middle {α : Type} (A l B : List α) (hB : B ≠ []) :
    slice (A.length : Int) (-(B.length : Int)) (A ++ l ++ B) = l := by
  have hp : 0 < B.length := List.length_pos_iff.mpr hB
  unfold slice bound
  rw [if_neg (by omega : ¬ ((A.length : Int) < 0)), if_pos (by omega : -(B.length : Int) < 0)]
  have e1 : (-(B.length : Int) + ((A ++ l ++ B).length : Nat)).toNat = (A ++ l).length := by
    simp only [List.length_append]; omega
  have e2 : min (A.length : Int).toNat (A ++ l ++ B).length = A.length := by
    simp only [List.length_append]; omega
  rw [e1, e2, List.take_left, List.drop_left]

theorem slice_zero {α : Type} (s : Int) (l : List α) : slice s 0 l = [] := by
  unfold slice bound
  simp

theorem sliceLen_zero (n : Nat) (s : Int) : sliceLen n s 0 = 0 := by
  unfold sliceLen bound
  simp

theorem slice_length {α : Type} (l : List α) (a b : Int) :
    (slice a b l).length = sliceLen l.length a b := by
  unfold slice sliceLen
  rw [List.length_drop, List.length_take]
  have : bound l.length b ≤ l.length ∨ l.length < bound l.length b := by omega
  unfold bound at *
  split <;> split <;> omega

/-- Cropping along one axis with something to remove on both sides. -/
theorem sliceLen_crop {n size : Nat} (h : size + 2 ≤ n) :
    sliceLen n (cropBounds n size).1 (cropBounds n size).2 = size := by
  rw [cropBounds_nat (by omega)]
  unfold sliceLen bound
  simp only
  rw [if_pos (by omega), if_neg (by omega)]
  omega

theorem slice_pad {α : Type} (b : Boundary) (z : α) {n ext : Nat} (h : n + 2 ≤ ext) (l : List α)
    (hl : l.length = n) (hb : b = .symmetric → 0 < n) :
    slice (cropBounds ext n).1 (cropBounds ext n).2
      (before b z ((ext - n) / 2 + (ext - n) % 2) l ++ l ++ after b z ((ext - n) / 2) l) = l := by
  have h2 : b = .symmetric → l = [] → ∀ k : Nat, k = 0 := by
    intro h1 h2
    have := hb h1
    rw [h2] at hl
    simp at hl
    omega
  have l1 := before_length b z ((ext - n) / 2 + (ext - n) % 2) l (fun a c => h2 a c _)
  have l2 := after_length b z ((ext - n) / 2) l (fun a c => h2 a c _)
  rw [cropBounds_nat (by omega)]
  simp only
  have := slice_middle (before b z ((ext - n) / 2 + (ext - n) % 2) l) l
    (after b z ((ext - n) / 2) l) (by
      intro h0
      rw [h0] at l2
      simp at l2
      omega)
  rwa [l1, l2] at this

theorem mapM_all_ok {ε A B : Type} (f : A → Except ε B) (g : A → B) :
    ∀ l : List A, (∀ a ∈ l, f a = .ok (g a)) → l.mapM f = .ok (l.map g)
  | [], _ => rfl
  | a :: l, h => by
    rw [List.mapM_cons, h a (by simp), mapM_all_ok f g l (fun x hx => h x (by simp [hx]))]
    rfl

/-- The padded plane. -/
theorem pad_ok {α : Type} (zero : α) (b : Boundary) (p : Plane α) (hp : Rectangular p)
    {eh ew : Nat} (h1 : p.h ≤ eh) (h2 : p.w ≤ ew)
    (hb : b = .symmetric → 0 < p.h ∧ 0 < p.w) :
    pad zero b p (eh, ew) = .ok ⟨eh, ew,
      let rows := p.rows.map fun l => before b zero ((ew - p.w) / 2 + (ew - p.w) % 2) l ++ l ++
        after b zero ((ew - p.w) / 2) l
      before b (List.replicate ew zero) ((eh - p.h) / 2 + (eh - p.h) % 2) rows ++ rows ++
        after b (List.replicate ew zero) ((eh - p.h) / 2) rows⟩ := by
  unfold pad
  simp only
  rw [mapM_all_ok (npPad b zero (margins p.w ew)) (fun l => before b zero
    ((ew - p.w) / 2 + (ew - p.w) % 2) l ++ l ++ after b zero ((ew - p.w) / 2) l) p.rows
    (fun l hl => npPad_ok b zero h2 l (hp.2 l hl) (fun h => (hb h).2))]
  simp only [bind, Except.bind]
  have ew' : ((p.w : Int) + (margins p.w ew).1 + (margins p.w ew).2).toNat = ew := by
    rw [margins_nat h2]; simp only; omega
  have eh' : ((p.h : Int) + (margins p.h eh).1 + (margins p.h eh).2).toNat = eh := by
    rw [margins_nat h1]; simp only; omega
  rw [npPad_ok b _ h1 _ (by rw [List.length_map]; exact hp.1) (fun h => (hb h).1)]
  simp only [ew', eh']
  rw [if_neg (by rw [margins_nat h2]; simp only; omega)]

theorem mem_symmetricAfter {α : Type} {k : Nat} {l : List α} {a : α}
    (h : a ∈ symmetricAfter k l) : a ∈ l := by
  have := List.mem_of_mem_take h
  rw [List.mem_flatten] at this
  obtain ⟨m, hm, ha⟩ := this
  rw [List.mem_replicate] at hm
  rw [hm.2] at ha
  simpa using ha

theorem mem_after {α : Type} {b : Boundary} {z : α} {k : Nat} {l : List α} {a : α}
    (h : a ∈ after b z k l) : a = z ∨ a ∈ l := by
  cases b with
  | constant => exact .inl (List.mem_replicate.mp h).2
  | symmetric => exact .inr (mem_symmetricAfter h)

theorem mem_before {α : Type} {b : Boundary} {z : α} {k : Nat} {l : List α} {a : α}
    (h : a ∈ before b z k l) : a = z ∨ a ∈ l := by
  rcases mem_after (List.mem_reverse.mp h) with h | h
  · exact .inl h
  · exact .inr (List.mem_reverse.mp h)

theorem slice_map {α β : Type} (f : α → β) (a b : Int) (l : List α) :
    slice a b (l.map f) = (slice a b l).map f := by
  unfold slice
  simp

theorem mem_slice {α : Type} {a b : Int} {l : List α} {x : α} (h : x ∈ slice a b l) : x ∈ l :=
  List.mem_of_mem_take (List.mem_of_mem_drop h)

end Menpofit
