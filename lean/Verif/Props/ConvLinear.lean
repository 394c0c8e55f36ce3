import Verif.Model.NdConvolution
import Verif.Lemmas.ConvLinear
/-!
# Properties: convolution is linear, and takes images as well as arrays (C147)
-/

namespace Menpofit
open Fft Spec Dft Conv ConvLin NdConv

/-- **C147** (picture): convolution is linear in the picture: for every filter, mode and boundary. -/
theorem C147_picture (p : Plane (ℝ × ℝ)) (f : Plane ℝ) (mode : Mode) (bd : Boundary) :
    LinearlyOn (fun x => convolve x f mode bd) (firstOf p) (secondOf p) (fun a b => blend a b p) := by
  have key : ∀ g : ℝ × ℝ → ℝ, g 0 = 0 → convolve (mapPlane g p) f mode bd =
      (pad 0 bd p ((p.h : Int) + (f.h / 2 : Int) - 1, (p.w : Int) + (f.w / 2 : Int) - 1)).bind fun P =>
        (pad 0 .constant f ((p.h : Int) + (f.h / 2 : Int) - 1, (p.w : Int) + (f.w / 2 : Int) - 1)).bind fun F =>
          finish mode (product (mapPlane g P) F) (p.h, p.w) (f.h / 2, f.w / 2) := by
    intro g hg
    have hpad := pad_map g bd 0 p ((p.h : Int) + (f.h / 2 : Int) - 1, (p.w : Int) + (f.w / 2 : Int) - 1)
    rw [hg] at hpad
    simp only [convolve, fftConvolve2d, bind]
    show (pad 0 bd (mapPlane g p) ((p.h : Int) + (f.h / 2 : Int) - 1, (p.w : Int) + (f.w / 2 : Int) - 1)).bind _ = _
    rw [hpad]
    cases pad 0 bd p ((p.h : Int) + (f.h / 2 : Int) - 1, (p.w : Int) + (f.w / 2 : Int) - 1) <;> rfl
  have h1 := key Prod.fst rfl
  have h2 := key Prod.snd rfl
  have h3 : ∀ a b : ℝ, _ := fun a b => key (fun v => a * v.1 + b * v.2) (by simp)
  unfold LinearlyOn firstOf secondOf blend
  simp only [h1, h2, h3]
  cases pad 0 bd p ((p.h : Int) + (f.h / 2 : Int) - 1, (p.w : Int) + (f.w / 2 : Int) - 1) with
  | error e => exact .inl ⟨e, rfl, rfl, fun _ _ => rfl⟩
  | ok P =>
    cases pad 0 .constant f ((p.h : Int) + (f.h / 2 : Int) - 1, (p.w : Int) + (f.w / 2 : Int) - 1) with
    | error e => exact .inl ⟨e, rfl, rfl, fun _ _ => rfl⟩
    | ok F =>
      simp only [Except.bind]
      let c1 : Pos P.h P.w → ℂ := fft2 (values _ _ F) * fft2 (values _ _ (firstOf P))
      let c2 : Pos P.h P.w → ℂ := fft2 (values _ _ F) * fft2 (values _ _ (secondOf P))
      have e1 : product (mapPlane Prod.fst P) F = mapPlane Prod.fst (pairUp c1 c2) :=
        (map_pairUp Prod.fst c1 c2 c1 fun _ _ => rfl).symm
      have e2 : product (mapPlane Prod.snd P) F = mapPlane Prod.snd (pairUp c1 c2) :=
        (map_pairUp Prod.snd c1 c2 c2 fun _ _ => rfl).symm
      have e3 : ∀ a b : ℝ, product (mapPlane (fun v => a * v.1 + b * v.2) P) F =
          mapPlane (fun v => a * v.1 + b * v.2) (pairUp c1 c2) := by
        intro a b
        refine (map_pairUp (fun v => a * v.1 + b * v.2) c1 c2
          (fft2 (values P.h P.w F) * fft2 (values P.h P.w (blend a b P))) fun i j => ?_).symm
        rw [fft2_values_blend, mul_add, mul_smul_comm, mul_smul_comm]
        exact at'_linear a b c1 c2 i j
      simp only [e1, e2, e3, finish_map]
      cases finish mode (pairUp c1 c2) (p.h, p.w) (f.h / 2, f.w / 2) with
      | error e => exact .inl ⟨e, rfl, rfl, fun _ _ => rfl⟩
      | ok q => exact .inr ⟨q, rfl, rfl, fun _ _ => rfl⟩

/-- **C147** (filter): convolution is linear in the filter: for every picture, mode and boundary. -/
theorem C147_filter (x : Plane ℝ) (p : Plane (ℝ × ℝ)) (mode : Mode) (bd : Boundary) :
    LinearlyOn (fun f => convolve x f mode bd) (firstOf p) (secondOf p) (fun a b => blend a b p) := by
  have key : ∀ g : ℝ × ℝ → ℝ, g 0 = 0 → convolve x (mapPlane g p) mode bd =
      (pad 0 bd x ((x.h : Int) + (p.h / 2 : Int) - 1, (x.w : Int) + (p.w / 2 : Int) - 1)).bind fun X =>
        (pad 0 .constant p ((x.h : Int) + (p.h / 2 : Int) - 1, (x.w : Int) + (p.w / 2 : Int) - 1)).bind fun P =>
          finish mode (product X (mapPlane g P)) (x.h, x.w) (p.h / 2, p.w / 2) := by
    intro g hg
    have hpad := pad_map g .constant 0 p ((x.h : Int) + (p.h / 2 : Int) - 1, (x.w : Int) + (p.w / 2 : Int) - 1)
    rw [hg] at hpad
    simp only [convolve, fftConvolve2d, bind]
    show (pad 0 bd x ((x.h : Int) + (p.h / 2 : Int) - 1, (x.w : Int) + (p.w / 2 : Int) - 1)).bind (fun X =>
      (pad 0 .constant (mapPlane g p) ((x.h : Int) + (p.h / 2 : Int) - 1, (x.w : Int) + (p.w / 2 : Int) - 1)).bind
        _) = _
    rw [hpad]
    cases pad 0 bd x ((x.h : Int) + (p.h / 2 : Int) - 1, (x.w : Int) + (p.w / 2 : Int) - 1) with
    | error e => rfl
    | ok X =>
      cases pad 0 .constant p ((x.h : Int) + (p.h / 2 : Int) - 1, (x.w : Int) + (p.w / 2 : Int) - 1) <;> rfl
  have h1 := key Prod.fst rfl
  have h2 := key Prod.snd rfl
  have h3 : ∀ a b : ℝ, _ := fun a b => key (fun v => a * v.1 + b * v.2) (by simp)
  unfold LinearlyOn firstOf secondOf blend
  simp only [h1, h2, h3]
  cases pad 0 bd x ((x.h : Int) + (p.h / 2 : Int) - 1, (x.w : Int) + (p.w / 2 : Int) - 1) with
  | error e => exact .inl ⟨e, rfl, rfl, fun _ _ => rfl⟩
  | ok X =>
    cases pad 0 .constant p ((x.h : Int) + (p.h / 2 : Int) - 1, (x.w : Int) + (p.w / 2 : Int) - 1) with
    | error e => exact .inl ⟨e, rfl, rfl, fun _ _ => rfl⟩
    | ok P =>
      simp only [Except.bind]
      let c1 : Pos X.h X.w → ℂ := fft2 (values _ _ (firstOf P)) * fft2 (values _ _ X)
      let c2 : Pos X.h X.w → ℂ := fft2 (values _ _ (secondOf P)) * fft2 (values _ _ X)
      have e1 : product X (mapPlane Prod.fst P) = mapPlane Prod.fst (pairUp c1 c2) :=
        (map_pairUp Prod.fst c1 c2 c1 fun _ _ => rfl).symm
      have e2 : product X (mapPlane Prod.snd P) = mapPlane Prod.snd (pairUp c1 c2) :=
        (map_pairUp Prod.snd c1 c2 c2 fun _ _ => rfl).symm
      have e3 : ∀ a b : ℝ, product X (mapPlane (fun v => a * v.1 + b * v.2) P) =
          mapPlane (fun v => a * v.1 + b * v.2) (pairUp c1 c2) := by
        intro a b
        refine (map_pairUp (fun v => a * v.1 + b * v.2) c1 c2
          (fft2 (values _ _ (blend a b P)) * fft2 (values _ _ X)) fun i j => ?_).symm
        rw [fft2_values_blend, add_mul, smul_mul_assoc, smul_mul_assoc]
        exact at'_linear a b c1 c2 i j
      simp only [e1, e2, e3, finish_map]
      cases finish mode (pairUp c1 c2) (x.h, x.w) (p.h / 2, p.w / 2) with
      | error e => exact .inl ⟨e, rfl, rfl, fun _ _ => rfl⟩
      | ok q => exact .inr ⟨q, rfl, rfl, fun _ _ => rfl⟩

/-- **C147** (summed convolution): the convolution that sums over the channels, with filters in the Fourier
domain, is linear in the picture: every channel of it is blended. -/
theorem C147_sum (h w eh ew : Nat) (channels : List (Plane (ℝ × ℝ) × (Pos eh ew → ℂ))) (mode : Mode)
    (bd : Boundary) :
    LinearlyOn (fun cs => convolveSumFourier h w eh ew cs mode bd) (channels.map fun c => (firstOf c.1, c.2))
      (channels.map fun c => (secondOf c.1, c.2)) (fun a b => channels.map fun c => (blend a b c.1, c.2)) := by
  have key : ∀ g : ℝ × ℝ → ℝ, g 0 = 0 →
      convolveSumFourier h w eh ew (channels.map fun c => (mapPlane g c.1, c.2)) mode bd =
      (channels.mapM fun c => pad 0 bd c.1 (eh, ew)).bind fun P =>
        finish mode (spatial (List.zipWith (fun x c => c.2 * fft2 (values eh ew (mapPlane g x))) P channels).sum)
          (h, w) ((((eh + 1) * 2 / 3 : Nat) : Int) / 2, (((ew + 1) * 2 / 3 : Nat) : Int) / 2) := by
    intro g hg
    have hpad := fun p => pad_map g bd 0 p ((eh : Int), (ew : Int))
    rw [hg] at hpad
    simp only [convolveSumFourier, mapM_map, hpad, mapM_ok, List.zipWith_map]
    cases channels.mapM fun c => pad 0 bd c.1 ((eh : Int), (ew : Int)) with
    | error e => rfl
    | ok P => simp only [bind, Except.bind, Except.map, List.zipWith_map]
  have h1 := key Prod.fst rfl
  have h2 := key Prod.snd rfl
  have h3 : ∀ a b : ℝ, _ := fun a b => key (fun v => a * v.1 + b * v.2) (by simp)
  unfold LinearlyOn
  simp only [firstOf, secondOf, blend, h1, h2, h3]
  cases channels.mapM fun c => pad 0 bd c.1 ((eh : Int), (ew : Int)) with
  | error e => exact .inl ⟨e, rfl, rfl, fun _ _ => rfl⟩
  | ok P =>
    simp only [Except.bind]
    have e3 := fun a b => sum_blend a b P channels
    obtain ⟨c1, hc1⟩ : ∃ c, c = (List.zipWith (fun x (c : Plane (ℝ × ℝ) × (Pos eh ew → ℂ)) =>
      c.2 * fft2 (values eh ew (firstOf x))) P channels).sum := ⟨_, rfl⟩
    obtain ⟨c2, hc2⟩ : ∃ c, c = (List.zipWith (fun x (c : Plane (ℝ × ℝ) × (Pos eh ew → ℂ)) =>
      c.2 * fft2 (values eh ew (secondOf x))) P channels).sum := ⟨_, rfl⟩
    rw [← hc1, ← hc2] at e3
    simp only [firstOf, secondOf, blend] at hc1 hc2 e3
    simp only [← hc1, ← hc2, e3]
    rw [← map_pairUp Prod.fst c1 c2 c1 fun _ _ => rfl, ← map_pairUp Prod.snd c1 c2 c2 fun _ _ => rfl]
    have e4 : ∀ a b : ℝ, spatial ((a : ℂ) • c1 + (b : ℂ) • c2) =
        mapPlane (fun v => a * v.1 + b * v.2) (pairUp c1 c2) :=
      fun a b => (map_pairUp _ c1 c2 _ fun i j => at'_linear a b c1 c2 i j).symm
    simp only [e4, finish_map]
    cases finish mode (pairUp c1 c2) ((h : Int), (w : Int))
        ((((eh + 1) * 2 / 3 : Nat) : Int) / 2, (((ew + 1) * 2 / 3 : Nat) : Int) / 2) with
    | error e => exact .inl ⟨e, rfl, rfl, fun _ _ => rfl⟩
    | ok q => exact .inr ⟨q, rfl, rfl, fun _ _ => rfl⟩

/-- **C147** (responses): the response of an expert of a correlation filter is linear in the patch, of all the
channels at once. -/
theorem C147_response (ph pw : Nat) (channels : List (Plane (ℝ × ℝ) × Plane ℝ)) :
    LinearlyOn (response ph pw) (channels.map fun c => (firstOf c.1, c.2))
      (channels.map fun c => (secondOf c.1, c.2)) (fun a b => channels.map fun c => (blend a b c.1, c.2)) := by
  have key : ∀ g : ℝ × ℝ → ℝ, response ph pw (channels.map fun c => (mapPlane g c.1, c.2)) =
      (channels.mapM fun c => paddedFilter ph pw c.2).bind fun fs =>
        convolveSumFourier ph pw _ _ (((channels.map Prod.fst).zip fs).map fun c => (mapPlane g c.1, c.2))
          .same .constant := by
    intro g
    simp only [response, mapM_map, List.map_map, bind]
    congr 1
    funext fs
    congr 1
    have e : channels.map (Prod.fst ∘ fun c => (mapPlane g c.1, c.2)) = (channels.map Prod.fst).map (mapPlane g) := by
      rw [List.map_map]
      rfl
    rw [e, List.zip_map_left]
    rfl
  unfold LinearlyOn firstOf secondOf blend
  simp only [key]
  cases channels.mapM fun c => paddedFilter ph pw c.2 with
  | error e => exact .inl ⟨e, rfl, rfl, fun _ _ => rfl⟩
  | ok fs => exact C147_sum ph pw _ _ ((channels.map Prod.fst).zip fs) .same .constant

/-- **C147** (images), for everything but an array with an image as filter: the pixels of the result are
those of convolving the pixels, an exception is raised exactly when it is raised for the pixels, and the result
is an image exactly when the picture is one.

Missing: an array convolved with an image (`C147_image_filter_violated`). -/
theorem C147_images_partial {D : Type} (rebuild : D → Plane ℝ → Plane ℝ → D)
    (wrapped : Plane ℝ → Plane ℝ → Except PyErr (Plane ℝ)) (x f : Arg D)
    (hxf : (∃ p d, x = .image p d) ∨ ∃ p, f = .array p) :
    (ndconvolution rebuild wrapped x f).map Arg.pixels = wrapped x.pixels f.pixels ∧
      ∀ r, ndconvolution rebuild wrapped x f = .ok r → ((∃ p d, r = .image p d) ↔ ∃ p d, x = .image p d) := by
  rcases x with x | ⟨x, d⟩ <;> rcases f with f | ⟨f, d'⟩
  · simp only [ndconvolution, Arg.pixels]
    cases wrapped x f <;> simp [Except.map, Arg.pixels]
  · simp at hxf
  · simp only [ndconvolution, Arg.pixels]
    cases wrapped x f <;> simp [Except.map, Arg.pixels]
  · simp only [ndconvolution, Arg.pixels]
    cases wrapped x f <;> simp [Except.map, Arg.pixels]

/-- **C147** fails for an array and an image as filter: an exception is raised although
the pixels can be convolved. -/
theorem C147_image_filter_violated {D : Type} (d : D) (rebuild : D → Plane ℝ → Plane ℝ → D) (bd : Boundary) :
    ∃ x f c, convolve x f .full bd = .ok c ∧
      ndconvolution rebuild (fun x f => convolve x f .full bd) (.array x) (.image f d) = .error .valueError := by
  refine ⟨⟨2, 2, [[1, 2], [3, 4]]⟩, ⟨2, 2, [[1, 0], [0, 0]]⟩, ?_⟩
  simp only [convolve, fftConvolve2d]
  cases bd <;> exact ⟨_, rfl, rfl⟩

/-! ### Concrete cases -/

/-- Two planes of the same size and a blend of them. -/
example : ∃ p : Plane (ℝ × ℝ), (firstOf p).rows = [[1, 2], [3, 4]] ∧ (secondOf p).rows = [[5, 0], [0, 1]] ∧
    (blend 2 1 p).rows = [[7, 4], [6, 9]] := by
  refine ⟨⟨2, 2, [[(1, 5), (2, 0)], [(3, 0), (4, 1)]]⟩, rfl, rfl, ?_⟩
  simp only [blend, mapPlane, List.map]
  norm_num

/-- An image convolved with an array is an image. -/
example (rebuild : Unit → Plane ℝ → Plane ℝ → Unit) (x f : Plane ℝ) (c : Plane ℝ)
    (wrapped : Plane ℝ → Plane ℝ → Except PyErr (Plane ℝ)) (h : wrapped x f = .ok c) :
    ndconvolution rebuild wrapped (.image x ()) (.array f) = .ok (.image c ()) := by
  simp [ndconvolution, h, Except.map]

end Menpofit
