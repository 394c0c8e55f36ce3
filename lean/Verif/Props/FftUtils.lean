import Verif.Lemmas.FftUtils
/-!
# C40, C73: padding, cropping and the extent of convolutions
-/

namespace Menpofit
open Fft Spec

variable {α : Type}

/-! ## C40 -/

/-- A padded image has exactly the requested extent. -/
theorem C40_pad_extent (zero : α) (b : Boundary) (p : Plane α) (hp : Rectangular p) (eh ew : Nat)
    (h1 : p.h ≤ eh) (h2 : p.w ≤ ew) (hb : b = .symmetric → 0 < p.h ∧ 0 < p.w) :
    ∃ p', pad zero b p (eh, ew) = .ok p' ∧ Rectangular p' ∧ p'.h = eh ∧ p'.w = ew := by
  refine ⟨_, pad_ok zero b p hp h1 h2 hb, ⟨?_, ?_⟩, rfl, rfl⟩
  · exact npPad_length b _ h1 _ (by rw [List.length_map]; exact hp.1) (fun h => (hb h).1)
  · intro r hr
    have key : ∀ r ∈ p.rows.map (fun l => before b zero ((ew - p.w) / 2 + (ew - p.w) % 2) l ++ l ++
        after b zero ((ew - p.w) / 2) l), r.length = ew := by
      intro r hr
      rw [List.mem_map] at hr
      obtain ⟨l, hl, rfl⟩ := hr
      exact npPad_length b zero h2 l (hp.2 l hl) (fun h => (hb h).2)
    have hz : ∀ r, r = List.replicate ew zero ∨ r ∈ p.rows.map (fun l => before b zero
        ((ew - p.w) / 2 + (ew - p.w) % 2) l ++ l ++ after b zero ((ew - p.w) / 2) l) →
        r.length = ew := by
      rintro r (h | h)
      · rw [h, List.length_replicate]
      · exact key r h
    simp only [List.mem_append] at hr
    rcases hr with (hr | hr) | hr
    · exact hz r (mem_before hr)
    · exact key r hr
    · exact hz r (mem_after hr)

/-- An image cannot be padded to a smaller extent: `ValueError`. -/
theorem C40_pad_smaller_refused (zero : α) (b : Boundary) (p : Plane α) (hp : Rectangular p)
    (ext : Int × Int) (h : ext.1 < p.h ∨ ext.2 < p.w) :
    pad zero b p ext = .error .valueError := by
  have hneg : ∀ {n : Nat} {e : Int} {β : Type} (b : Boundary) (z : β) (l : List β), e < n →
      npPad b z (margins n e) l = .error .valueError := by
    intro n e β b z l h
    unfold npPad
    rw [if_pos (.inr (margins_neg h))]
  have herr : ∀ {n : Nat} {e : Int} {β : Type} (b : Boundary) (z : β) (l : List β) x,
      npPad b z (margins n e) l = .error x → x = .valueError := by
    intro n e β b z l x h
    unfold npPad at h
    split at h
    · cases h; rfl
    · split at h
      · cases h; rfl
      · cases h
  have hmap : ∀ (l : List (List α)) x,
      l.mapM (npPad b zero (margins p.w ext.2)) = .error x → x = .valueError := by
    intro l
    induction l with
    | nil => intro x h; cases h
    | cons a l ih =>
      intro x h
      rw [List.mapM_cons] at h
      cases ha : npPad b zero (margins p.w ext.2) a with
      | error e =>
        rw [ha] at h
        simp only [bind, Except.bind, Except.error.injEq] at h
        rw [← h]
        exact herr _ _ _ _ ha
      | ok y =>
        rw [ha] at h
        cases hl : l.mapM (npPad b zero (margins p.w ext.2)) with
        | error e =>
          rw [hl] at h
          simp only [bind, Except.bind, Except.error.injEq] at h
          rw [← h]
          exact ih _ hl
        | ok ys => rw [hl] at h; cases h
  unfold pad
  simp only
  cases hr : p.rows.mapM (npPad b zero (margins p.w ext.2)) with
  | error e => rw [hmap _ _ hr]; rfl
  | ok rows =>
    simp only [bind, Except.bind]
    rcases h with h | h
    · rw [hneg _ _ _ h]
    · cases hq : npPad b (List.replicate
        ((p.w : Int) + (margins p.w ext.2).1 + (margins p.w ext.2).2).toNat zero)
        (margins p.h ext.1) rows with
      | error e => simp only; rw [herr _ _ _ _ hq]
      | ok rows' =>
        simp only
        rw [if_pos (.inr (margins_neg h))]

/-- A cropped image has exactly the requested size, provided at least two pixels are removed
along each axis. (Missing: zero or one pixel, see `C40_crop_extent_violated`.) -/
theorem C40_crop_extent_partial (p : Plane α) (hp : Rectangular p) (sh sw : Nat)
    (h1 : sh + 2 ≤ p.h) (h2 : sw + 2 ≤ p.w) :
    Rectangular (crop p (sh, sw)) ∧ (crop p (sh, sw)).h = sh ∧ (crop p (sh, sw)).w = sw := by
  refine ⟨⟨?_, ?_⟩, ?_, ?_⟩
  · simp only [crop, List.length_map, slice_length, hp.1]
  · intro r hr
    simp only [crop, List.mem_map] at hr
    obtain ⟨l, hl, rfl⟩ := hr
    simp only [crop, slice_length, hp.2 l (mem_slice hl)]
  · simp only [crop]; exact sliceLen_crop h1
  · simp only [crop]; exact sliceLen_crop h2

/-- Cropping to the present extent, or to one pixel less, returns an empty image, whatever
the image. -/
theorem C40_crop_extent_violated (p : Plane α) (hp : Rectangular p) (sh sw : Nat)
    (h1 : sh = p.h ∨ sh + 1 = p.h) (h2 : sw ≤ p.w) :
    (crop p (sh, sw)).h = 0 ∧ (crop p (sh, sw)).rows = [] := by
  have hz : ((p.h - sh) / 2 : Nat) = 0 := by omega
  have hb : (cropBounds p.h sh).2 = 0 := by
    rw [cropBounds_nat (by omega), hz]; rfl
  simp only [crop, hb, sliceLen_zero, slice_zero, List.map_nil, and_self]

/-- Padding by at least two pixels along each axis and cropping back returns the image.
(Missing: paddings by zero or one pixel.) -/
theorem C40_crop_pad_partial (zero : α) (b : Boundary) (p : Plane α) (hp : Rectangular p)
    (eh ew : Nat) (h1 : p.h + 2 ≤ eh) (h2 : p.w + 2 ≤ ew)
    (hb : b = .symmetric → 0 < p.h ∧ 0 < p.w) :
    ∃ p', pad zero b p (eh, ew) = .ok p' ∧ crop p' (p.h, p.w) = p := by
  refine ⟨_, pad_ok zero b p hp (by omega) (by omega) hb, ?_⟩
  unfold crop
  simp only
  rw [sliceLen_crop h1, sliceLen_crop h2,
    slice_pad b _ h1 _ (by rw [List.length_map]; exact hp.1) (fun h => (hb h).1), List.map_map]
  have : p.rows.map (slice (cropBounds ew p.w).1 (cropBounds ew p.w).2 ∘ fun l =>
      before b zero ((ew - p.w) / 2 + (ew - p.w) % 2) l ++ l ++
        after b zero ((ew - p.w) / 2) l) = p.rows := by
    conv_rhs => rw [← List.map_id p.rows]
    refine List.map_congr_left (fun l hl => ?_)
    exact slice_pad b zero h2 l (hp.2 l hl) (fun h => (hb h).2)
  rw [this]

/-- Padding by zero or one pixel along the vertical axis and cropping back loses every non-empty image. -/
theorem C40_crop_pad_violated (zero : α) (p : Plane α) (hp : Rectangular p) (hn : 0 < p.h)
    (eh ew : Nat) (h1 : eh = p.h ∨ eh = p.h + 1) (h2 : p.w ≤ ew) :
    ∃ p', pad zero .constant p (eh, ew) = .ok p' ∧ crop p' (p.h, p.w) ≠ p := by
  obtain ⟨p', hp', hr, hh, hw⟩ :=
    C40_pad_extent zero .constant p hp eh ew (by omega) h2 (fun h => by cases h)
  refine ⟨p', hp', fun hc => ?_⟩
  have := (C40_crop_extent_violated p' hr p.h p.w (by omega) (by omega)).1
  rw [hc] at this
  omega

/-- Non-vacuity: a 2 × 1 image padded to 4 × 4. -/
example : Rectangular (⟨2, 1, [[1], [2]]⟩ : Plane Nat) ∧ (2 : Nat) + 2 ≤ 4 ∧ (1 : Nat) + 2 ≤ 4 := by
  refine ⟨⟨rfl, ?_⟩, by omega, by omega⟩
  decide

/-! ## C73 -/

/-- In mode 'full' the convolution has the extent `image + filter // 2 - 1`. -/
theorem C73_full_extent (zero : α) (conv : Plane α → Plane α → Plane α)
    (hconv : ∀ a c, (conv a c).h = a.h ∧ (conv a c).w = a.w ∧ Rectangular (conv a c))
    (x f : Plane α) (hx : Rectangular x) (hf : Rectangular f)
    (hh : 2 ≤ f.h) (hw : 2 ≤ f.w) (hhx : f.h ≤ x.h) (hwx : f.w ≤ x.w) :
    ∃ c, fftConvolve2d zero conv x f .full .constant = .ok c ∧
      c.h = x.h + f.h / 2 - 1 ∧ c.w = x.w + f.w / 2 - 1 := by
  obtain ⟨p1, e1, _, a1, b1⟩ := C40_pad_extent zero .constant x hx (x.h + f.h / 2 - 1)
    (x.w + f.w / 2 - 1) (by omega) (by omega) (fun h => by cases h)
  obtain ⟨p2, e2, _⟩ := C40_pad_extent zero .constant f hf (x.h + f.h / 2 - 1)
    (x.w + f.w / 2 - 1) (by omega) (by omega) (fun h => by cases h)
  have c1 : (x.h : Int) + (f.h : Int) / 2 - 1 = ((x.h + f.h / 2 - 1 : Nat) : Int) := by omega
  have c2 : (x.w : Int) + (f.w : Int) / 2 - 1 = ((x.w + f.w / 2 - 1 : Nat) : Int) := by omega
  unfold fftConvolve2d
  simp only [c1, c2, e1, e2, bind, Except.bind, finish]
  exact ⟨_, rfl, by rw [(hconv _ _).1, a1], by rw [(hconv _ _).2.1, b1]⟩

/-- In mode 'same' the convolution has the extent of the image, for filters of at least 6 × 6 that
fit in the image. (Missing: smaller filters, see `C73_same_extent_violated`.) -/
theorem C73_same_extent_partial (zero : α) (conv : Plane α → Plane α → Plane α)
    (hconv : ∀ a c, (conv a c).h = a.h ∧ (conv a c).w = a.w ∧ Rectangular (conv a c))
    (x f : Plane α) (hx : Rectangular x) (hf : Rectangular f)
    (hh : 6 ≤ f.h) (hw : 6 ≤ f.w) (hhx : f.h ≤ x.h) (hwx : f.w ≤ x.w) :
    ∃ c, fftConvolve2d zero conv x f .same .constant = .ok c ∧ Rectangular c ∧
      c.h = x.h ∧ c.w = x.w := by
  obtain ⟨p1, e1, _, a1, b1⟩ := C40_pad_extent zero .constant x hx (x.h + f.h / 2 - 1)
    (x.w + f.w / 2 - 1) (by omega) (by omega) (fun h => by cases h)
  obtain ⟨p2, e2, _⟩ := C40_pad_extent zero .constant f hf (x.h + f.h / 2 - 1)
    (x.w + f.w / 2 - 1) (by omega) (by omega) (fun h => by cases h)
  have c1 : (x.h : Int) + (f.h : Int) / 2 - 1 = ((x.h + f.h / 2 - 1 : Nat) : Int) := by omega
  have c2 : (x.w : Int) + (f.w : Int) / 2 - 1 = ((x.w + f.w / 2 - 1 : Nat) : Int) := by omega
  unfold fftConvolve2d
  simp only [c1, c2, e1, e2, bind, Except.bind, finish]
  exact ⟨_, rfl, C40_crop_extent_partial _ (hconv p1 p2).2.2 x.h x.w
    (by rw [(hconv _ _).1, a1]; omega) (by rw [(hconv _ _).2.1, b1]; omega)⟩

/-- Filters of height 2 to 5: the result of mode 'same' is empty, for every image. -/
theorem C73_same_extent_violated (zero : α) (conv : Plane α → Plane α → Plane α)
    (hconv : ∀ a c, (conv a c).h = a.h ∧ (conv a c).w = a.w ∧ Rectangular (conv a c))
    (x f : Plane α) (hx : Rectangular x) (hf : Rectangular f)
    (hh : 2 ≤ f.h) (hh5 : f.h ≤ 5) (hw : 2 ≤ f.w) (hhx : f.h ≤ x.h) (hwx : f.w ≤ x.w) :
    ∃ c, fftConvolve2d zero conv x f .same .constant = .ok c ∧ c.h = 0 ∧ c.rows = [] := by
  obtain ⟨p1, e1, _, a1, b1⟩ := C40_pad_extent zero .constant x hx (x.h + f.h / 2 - 1)
    (x.w + f.w / 2 - 1) (by omega) (by omega) (fun h => by cases h)
  obtain ⟨p2, e2, _⟩ := C40_pad_extent zero .constant f hf (x.h + f.h / 2 - 1)
    (x.w + f.w / 2 - 1) (by omega) (by omega) (fun h => by cases h)
  have c1 : (x.h : Int) + (f.h : Int) / 2 - 1 = ((x.h + f.h / 2 - 1 : Nat) : Int) := by omega
  have c2 : (x.w : Int) + (f.w : Int) / 2 - 1 = ((x.w + f.w / 2 - 1 : Nat) : Int) := by omega
  unfold fftConvolve2d
  simp only [c1, c2, e1, e2, bind, Except.bind, finish]
  exact ⟨_, rfl, C40_crop_extent_violated _ (hconv p1 p2).2.2 x.h x.w
    (by rw [(hconv _ _).1, a1]; omega) (by rw [(hconv _ _).2.1, b1]; omega)⟩

/-- In mode 'valid' the convolution has the extent `image - filter // 2 + 1`, for filters of at
least 4 × 4 that fit in the image. (Missing: smaller filters, see
`C73_valid_extent_violated`.) -/
theorem C73_valid_extent_partial (zero : α) (conv : Plane α → Plane α → Plane α)
    (hconv : ∀ a c, (conv a c).h = a.h ∧ (conv a c).w = a.w ∧ Rectangular (conv a c))
    (x f : Plane α) (hx : Rectangular x) (hf : Rectangular f)
    (hh : 4 ≤ f.h) (hw : 4 ≤ f.w) (hhx : f.h ≤ x.h) (hwx : f.w ≤ x.w) :
    ∃ c, fftConvolve2d zero conv x f .valid .constant = .ok c ∧ Rectangular c ∧
      c.h = x.h - f.h / 2 + 1 ∧ c.w = x.w - f.w / 2 + 1 := by
  obtain ⟨p1, e1, _, a1, b1⟩ := C40_pad_extent zero .constant x hx (x.h + f.h / 2 - 1)
    (x.w + f.w / 2 - 1) (by omega) (by omega) (fun h => by cases h)
  obtain ⟨p2, e2, _⟩ := C40_pad_extent zero .constant f hf (x.h + f.h / 2 - 1)
    (x.w + f.w / 2 - 1) (by omega) (by omega) (fun h => by cases h)
  have c1 : (x.h : Int) + (f.h : Int) / 2 - 1 = ((x.h + f.h / 2 - 1 : Nat) : Int) := by omega
  have c2 : (x.w : Int) + (f.w : Int) / 2 - 1 = ((x.w + f.w / 2 - 1 : Nat) : Int) := by omega
  have d1 : (x.h : Int) - (f.h : Int) / 2 + 1 = ((x.h - f.h / 2 + 1 : Nat) : Int) := by omega
  have d2 : (x.w : Int) - (f.w : Int) / 2 + 1 = ((x.w - f.w / 2 + 1 : Nat) : Int) := by omega
  unfold fftConvolve2d
  simp only [c1, c2, e1, e2, bind, Except.bind, finish, d1, d2]
  exact ⟨_, rfl, C40_crop_extent_partial _ (hconv p1 p2).2.2 _ _
    (by rw [(hconv _ _).1, a1]; omega) (by rw [(hconv _ _).2.1, b1]; omega)⟩

/-- Filters of height 2 or 3: the result of mode 'valid' is empty, for every image. -/
theorem C73_valid_extent_violated (zero : α) (conv : Plane α → Plane α → Plane α)
    (hconv : ∀ a c, (conv a c).h = a.h ∧ (conv a c).w = a.w ∧ Rectangular (conv a c))
    (x f : Plane α) (hx : Rectangular x) (hf : Rectangular f)
    (hh : 2 ≤ f.h) (hh3 : f.h ≤ 3) (hw : 2 ≤ f.w) (hhx : f.h ≤ x.h) (hwx : f.w ≤ x.w) :
    ∃ c, fftConvolve2d zero conv x f .valid .constant = .ok c ∧ c.h = 0 ∧ c.rows = [] := by
  obtain ⟨p1, e1, _, a1, b1⟩ := C40_pad_extent zero .constant x hx (x.h + f.h / 2 - 1)
    (x.w + f.w / 2 - 1) (by omega) (by omega) (fun h => by cases h)
  obtain ⟨p2, e2, _⟩ := C40_pad_extent zero .constant f hf (x.h + f.h / 2 - 1)
    (x.w + f.w / 2 - 1) (by omega) (by omega) (fun h => by cases h)
  have c1 : (x.h : Int) + (f.h : Int) / 2 - 1 = ((x.h + f.h / 2 - 1 : Nat) : Int) := by omega
  have c2 : (x.w : Int) + (f.w : Int) / 2 - 1 = ((x.w + f.w / 2 - 1 : Nat) : Int) := by omega
  have d1 : (x.h : Int) - (f.h : Int) / 2 + 1 = ((x.h - f.h / 2 + 1 : Nat) : Int) := by omega
  have d2 : (x.w : Int) - (f.w : Int) / 2 + 1 = ((x.w - f.w / 2 + 1 : Nat) : Int) := by omega
  unfold fftConvolve2d
  simp only [c1, c2, e1, e2, bind, Except.bind, finish, d1, d2]
  exact ⟨_, rfl, C40_crop_extent_violated _ (hconv p1 p2).2.2 _ _
    (by rw [(hconv _ _).1, a1]; omega) (by rw [(hconv _ _).2.1, b1]; omega)⟩

/-- With a filter given in the Fourier domain, `fft_convolve2d` raises in its default mode 'same'
(and in 'valid') for every image and filter. -/
theorem C73_fourier_filter_violated (zero : α) (conv : Plane α → Plane α) (x : Plane α)
    (hx : Rectangular x) (eh ew : Nat) (h1 : x.h ≤ eh) (h2 : x.w ≤ ew) (mode : Mode)
    (hm : mode = .same ∨ mode = .valid) :
    fftConvolve2dFourier zero conv x (eh, ew) mode .constant = .error .nameError := by
  obtain ⟨p1, e1, _⟩ := C40_pad_extent zero .constant x hx eh ew h1 h2 (fun h => by cases h)
  unfold fftConvolve2dFourier
  rw [e1]
  rcases hm with rfl | rfl <;> rfl

/-- `fft_convolve2d_sum` with a Fourier-domain filter at least two pixels larger than the image
returns the image's extent in mode 'same'. -/
theorem C73_sum_fourier_same_partial (zero : α) (conv : Plane α → Plane α)
    (hconv : ∀ a, (conv a).h = a.h ∧ (conv a).w = a.w ∧ Rectangular (conv a))
    (x : Plane α) (hx : Rectangular x) (eh ew : Nat) (h1 : x.h + 2 ≤ eh) (h2 : x.w + 2 ≤ ew) :
    ∃ c, fftConvolve2dSumFourier zero conv x (eh, ew) .same .constant = .ok c ∧ Rectangular c ∧
      c.h = x.h ∧ c.w = x.w := by
  obtain ⟨p1, e1, _, a1, b1⟩ := C40_pad_extent zero .constant x hx eh ew (by omega) (by omega)
    (fun h => by cases h)
  unfold fftConvolve2dSumFourier
  simp only [e1, bind, Except.bind, finish]
  exact ⟨_, rfl, C40_crop_extent_partial _ (hconv p1).2.2 x.h x.w
    (by rw [(hconv _).1, a1]; omega) (by rw [(hconv _).2.1, b1]; omega)⟩

/-- Non-vacuity: convolutions that keep the shape exist. -/
example : ∃ conv : Plane Nat → Plane Nat → Plane Nat,
    ∀ a c, (conv a c).h = a.h ∧ (conv a c).w = a.w ∧ Rectangular (conv a c) :=
  ⟨fun a _ => ⟨a.h, a.w, List.replicate a.h (List.replicate a.w 1)⟩, fun a c =>
    ⟨rfl, rfl, by simp, fun r hr => by rw [(List.mem_replicate.mp hr).2]; simp⟩⟩

/-- Non-vacuity: a 7 × 7 image and a 6 × 6 filter. -/
example : ∃ x f : Plane Nat, Rectangular x ∧ Rectangular f ∧ 6 ≤ f.h ∧ 6 ≤ f.w ∧
    f.h ≤ x.h ∧ f.w ≤ x.w :=
  ⟨⟨7, 7, List.replicate 7 (List.replicate 7 1)⟩, ⟨6, 6, List.replicate 6 (List.replicate 6 1)⟩,
    ⟨rfl, by decide⟩, ⟨rfl, by decide⟩, by decide, by decide, by decide, by decide⟩

end Menpofit
