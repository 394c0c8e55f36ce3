import Verif.Lemmas.Noise
/-!
# C69, C86, C87: noisy alignments and alignment with a bounding box
-/

namespace Menpofit
open MI Noise Spec Matrix

variable {n : Nat}

/-- C69 (zero noise): with all percentages zero and either kind of noise, the result is exactly the
alignment, whatever is drawn; the shapes built from it are the aligned ones. -/
theorem C69_zero_noise (source target : Pts n 2) (kind : String)
    (hk : kind = "gaussian" ∨ kind = "uniform") (percentage : Percentage)
    (hp : percentage = .float 0 ∨ percentage = .list [0] ∨ percentage = .tuple [0] ∨
      percentage = .list [0, 0, 0] ∨ percentage = .tuple [0, 0, 0]) (rotation : Bool) (d : Draws) :
    (noisyAlignment source target kind percentage rotation d).1 =
      .ok (alignSim rotation source target) ∧
    noisyShapeFromShape source target kind percentage rotation d =
      .ok ((alignSim rotation source target).apply source) := by
  have h : (noisyAlignment source target kind percentage rotation d).1 =
      .ok (alignSim rotation source target) := by
    have key : noise target kind [0, 0, 0] d = .ok (0, 0, 0) := by
      rcases hk with rfl | rfl
      · simp [noise, item, bind, Except.bind, pure, Except.pure]; rfl
      · simp [noise, item, bind, Except.bind, pure, Except.pure]; rfl
    have hpp : (percentages percentage).1 = .ok [0, 0, 0] := by
      rcases hp with rfl | rfl | rfl | rfl | rfl <;> simp [percentages]
    unfold noisyAlignment
    obtain ⟨a, b⟩ : ∃ a b, percentages percentage = (a, b) := ⟨_, _, rfl⟩
    obtain ⟨b, hb⟩ := b
    rw [hb] at hpp ⊢
    simp only at hpp
    subst hpp
    simp only [key, Pi.zero_apply, noisy_zero, after_id]
  refine ⟨h, ?_⟩
  unfold noisyShapeFromShape
  rw [h]; rfl

/-- C69 (the alignment itself, rotation not allowed): the source is moved and scaled, without
rotation, so that centroid and spread are those of the target. -/
theorem C69_alignment (hn : 0 < n) (source target : Pts n 2) (hs : spread source ≠ 0) :
    ∃ (c : ℝ) (t : Fin 2 → ℝ), 0 ≤ c ∧
      (∀ ij, (alignSim false source target).apply source ij = c * source ij + t ij.2) ∧
      (∀ j, centroid ((alignSim false source target).apply source) j = centroid target j) ∧
      spread ((alignSim false source target).apply source) = spread target := by
  refine ⟨(alignSim false source target).a, ![(alignSim false source target).tx,
    (alignSim false source target).ty], ?_, ?_, alignSim_centroid hn _ _ _, ?_⟩
  · simp only [alignSim, Bool.false_eq_true, if_false]; positivity
  · rintro ⟨i, j⟩
    match j with
    | 0 => simp [Sim.apply, alignSim]
    | 1 => simp [Sim.apply, alignSim]
  · rw [spread_apply hn]
    have h1 : 0 ≤ spread source := by rw [spread_eq]; exact pts_dot_self_nonneg _
    have h2 : 0 ≤ spread target := by rw [spread_eq]; exact pts_dot_self_nonneg _
    simp only [alignSim, ← spread_eq]
    simp only [Bool.false_eq_true, if_false]
    rw [div_pow, Real.sq_sqrt h1, Real.sq_sqrt h2]
    field_simp
    ring

/-- C69 (the alignment itself, rotation allowed): centroid and spread are those of the target, and no
other similarity with these two properties brings the source closer to the target. -/
theorem C69_alignment_rotation (hn : 0 < n) (source target : Pts n 2) (hs : spread source ≠ 0)
    (hc : ¬(centred source ⬝ᵥ centred target = 0 ∧
      rotatedCcw (centred source) ⬝ᵥ centred target = 0)) :
    (∀ j, centroid ((alignSim true source target).apply source) j = centroid target j) ∧
    spread ((alignSim true source target).apply source) = spread target ∧
    ∀ s : Sim, (∀ j, centroid (s.apply source) j = centroid target j) →
      spread (s.apply source) = spread target →
      sqDist ((alignSim true source target).apply source) target ≤
        sqDist (s.apply source) target := by
  have h1 : 0 < spread source :=
    lt_of_le_of_ne (by rw [spread_eq]; exact pts_dot_self_nonneg _) (Ne.symm hs)
  have h2 : 0 ≤ spread target := by rw [spread_eq]; exact pts_dot_self_nonneg _
  obtain ⟨c, hcd⟩ : ∃ c, c = centred source ⬝ᵥ centred target := ⟨_, rfl⟩
  obtain ⟨e, hed⟩ : ∃ e, e = rotatedCcw (centred source) ⬝ᵥ centred target := ⟨_, rfl⟩
  rw [← hcd, ← hed] at hc
  have hr : 0 < c ^ 2 + e ^ 2 := by
    rcases lt_or_eq_of_le (by positivity : (0 : ℝ) ≤ c ^ 2 + e ^ 2) with h | h
    · exact h
    · exact absurd ⟨by nlinarith [sq_nonneg c, sq_nonneg e],
        by nlinarith [sq_nonneg c, sq_nonneg e]⟩ hc
  have hrr : Real.sqrt (c ^ 2 + e ^ 2) ^ 2 = c ^ 2 + e ^ 2 := Real.sq_sqrt hr.le
  obtain ⟨r, hrd⟩ : ∃ r, r = Real.sqrt (c ^ 2 + e ^ 2) := ⟨_, rfl⟩
  have hrp : 0 < r := hrd ▸ Real.sqrt_pos.2 hr
  obtain ⟨k, hkd⟩ : ∃ k, k = Real.sqrt (spread target) / Real.sqrt (spread source) := ⟨_, rfl⟩
  have hk2 : k ^ 2 = spread target / spread source := by
    rw [hkd, div_pow, Real.sq_sqrt h1.le, Real.sq_sqrt h2]
  have hk0 : 0 ≤ k := by rw [hkd]; positivity
  have ha : (alignSim true source target).a = k * (c / r) := by
    simp only [alignSim, procrustes, if_true, ← spread_eq, ← hcd, ← hed, hrd, hkd]
  have hb : (alignSim true source target).b = k * (e / r) := by
    simp only [alignSim, procrustes, if_true, ← spread_eq, ← hcd, ← hed, hrd, hkd]
  rw [← hrd] at hrr
  have hab : (alignSim true source target).a ^ 2 + (alignSim true source target).b ^ 2 = k ^ 2 := by
    rw [ha, hb]
    field_simp
    rw [hrr]
  have hsp : spread ((alignSim true source target).apply source) = spread target := by
    rw [spread_apply hn, hab, hk2]
    field_simp
  refine ⟨alignSim_centroid hn _ _ _, hsp, fun s hsc hss => ?_⟩
  have dist : ∀ s : Sim, (∀ j, centroid (s.apply source) j = centroid target j) →
      spread (s.apply source) = spread target →
      sqDist (s.apply source) target = 2 * spread target - 2 * (s.a * c + s.b * e) := by
    intro s hsc hss
    have e1 : s.apply source - target = centred (s.apply source) - centred target := by
      funext ⟨i, j⟩
      simp only [Pi.sub_apply, centred, hsc]
      ring
    rw [sqDist_eq, e1, sub_dotProduct, dotProduct_sub, dotProduct_sub, ← spread_eq, hss,
      ← spread_eq, dotProduct_comm (centred target), centred_apply hn, add_dotProduct,
      smul_dotProduct, smul_dotProduct, ← hcd, ← hed, smul_eq_mul, smul_eq_mul]
    ring
  rw [dist _ (alignSim_centroid hn _ _ _) hsp, dist s hsc hss, ha, hb]
  have hs2 : s.a ^ 2 + s.b ^ 2 = k ^ 2 := by
    have := spread_apply hn s source
    rw [hss] at this
    rw [hk2]; field_simp; linarith
  have e2 : k * (c / r) * c + k * (e / r) * e = k * r := by
    field_simp
    rw [← hrr]
  rw [e2]
  have : s.a * c + s.b * e ≤ k * r := by
    apply le_of_sq_le_sq _ (by positivity)
    rw [mul_pow, hrr, ← hs2]
    nlinarith [sq_nonneg (s.a * e - s.b * c)]
  linarith

/-- Two points aligned with two others. -/
example : ∃ source target : Pts 2 2, spread source ≠ 0 ∧ source ≠ target ∧
    ¬(centred source ⬝ᵥ centred target = 0 ∧
      rotatedCcw (centred source) ⬝ᵥ centred target = 0) := by
  refine ⟨fun ij => if ij = (1, 0) then 1 else 0, fun ij => if ij = (1, 0) then 2 else 0, ?_, ?_, ?_⟩
  · simp [spread, centroid, Fin.sum_univ_two]; norm_num
  · intro h; simpa using congrFun h (1, 0)
  · rintro ⟨h, -⟩
    rw [dot2] at h
    simp [centred, centroid, Fin.sum_univ_two] at h
    norm_num at h

/-- C69: any other noise type raises `ValueError`, an integer percentage `TypeError`, and two
percentages `IndexError`. -/
theorem C69_invalid (source target : Pts n 2) (rotation : Bool) (d : Draws) :
    (∀ kind percentage, kind ≠ "gaussian" → kind ≠ "uniform" → (∀ k, percentage ≠ .int k) →
      (noisyAlignment source target kind percentage rotation d).1 = .error .valueError) ∧
    (∀ kind k, (noisyAlignment source target kind (.int k) rotation d).1 = .error .typeError) ∧
    (∀ x y, (noisyAlignment source target "uniform" (.list [x, y]) rotation d).1 =
      .error .indexError) := by
  refine ⟨fun kind percentage h1 h2 h3 => ?_, fun kind k => rfl, fun x y => ?_⟩
  · cases percentage with
    | int k => exact absurd rfl (h3 k)
    | float x => simp [noisyAlignment, percentages, noise, h1, h2]
    | list l =>
      by_cases hl : l.length = 1 <;> simp [noisyAlignment, percentages, noise, h1, h2, hl]
    | tuple l =>
      by_cases hl : l.length = 1 <;> simp [noisyAlignment, percentages, noise, h1, h2, hl]
  · simp [noisyAlignment, percentages, noise, item, bind, Except.bind]

/-- C69 (uniform noise, partial): before the alignment the source is turned about the centroid of
the target by an angle of at most the given fraction of half a turn and moved by at most the
given fraction of the sides of the target.  Missing: the scale change is not bounded
(`C69_scale_violated`), and the move is measured before the alignment
(`C69_translation_violated`). -/
theorem C69_uniform_partial (source target : Pts n 2) (hn : n ≠ 0) (p0 p1 p2 : ℝ) (h1 : 0 ≤ p1)
    (h2 : 0 ≤ p2) (rotation : Bool) (d : Draws) (hr : 0 ≤ d.rot ∧ d.rot ≤ 1)
    (ht : ∀ j, 0 ≤ d.tr j ∧ d.tr j ≤ 1) :
    ∃ s θ t, (noisyAlignment source target "uniform" (.list [p0, p1, p2]) rotation d).1 = .ok s ∧
      (∀ p : Pts n 2, s.apply p = (alignSim rotation source target).apply
        (turned (centroid target) (1 + p0 / 2 * (2 * d.scale - 1)) θ t p)) ∧
      |θ| ≤ p1 * Real.pi ∧ ∀ j, |t j| ≤ p2 * side target j := by
  have b : ∀ x : ℝ, 0 ≤ x ∧ x ≤ 1 → |2 * x - 1| ≤ 1 := fun x hx => by
    rw [abs_le]; constructor <;> linarith [hx.1, hx.2]
  refine ⟨_, p1 * 180 * (2 * d.rot - 1) * (Real.pi / 180), ![p2 * rangeOf target 0 *
    (2 * d.tr 0 - 1), p2 * rangeOf target 1 * (2 * d.tr 1 - 1)], rfl, fun p => ?_, ?_, fun j => ?_⟩
  · rw [after_apply, noise_apply]
    congr 3
    ring
  · rw [show p1 * 180 * (2 * d.rot - 1) * (Real.pi / 180) = p1 * Real.pi * (2 * d.rot - 1) by ring,
      abs_mul, abs_of_nonneg (mul_nonneg h1 Real.pi_pos.le)]
    exact mul_le_of_le_one_right (mul_nonneg h1 Real.pi_pos.le) (b _ hr)
  · have hs : ∀ j, 0 ≤ p2 * side target j := fun j =>
      mul_nonneg h2 (extent_nonneg hn _ j)
    have : ∀ j, |p2 * rangeOf target j * (2 * d.tr j - 1)| ≤ p2 * side target j := fun j => by
      show |p2 * side target j * (2 * d.tr j - 1)| ≤ p2 * side target j
      rw [abs_mul, abs_of_nonneg (hs j)]
      exact mul_le_of_le_one_right (hs j) (b _ (ht j))
    match j with
    | 0 => exact this 0
    | 1 => exact this 1

example : ∃ (source target : Pts 2 2) (d : Draws), (0 ≤ d.rot ∧ d.rot ≤ 1) ∧
    (∀ j, 0 ≤ d.tr j ∧ d.tr j ≤ 1) ∧ spread source ≠ 0 ∧ source ≠ target := by
  refine ⟨fun ij => if ij.1 = 0 then 0 else 1, 0, ⟨5, 1 / 2, fun _ => 1 / 3⟩, by norm_num,
    fun j => by norm_num, ?_, fun h => by simpa using congrFun h (1, 0)⟩
  simp [spread, centroid, Fin.sum_univ_two]
  norm_num

/-- C69 (Gaussian noise): scale, angle and move are the draws multiplied by the percentages of a
sixth, a third of half a turn and a third of the sides. -/
theorem C69_gaussian (source target : Pts n 2) (p0 p1 p2 : ℝ) (rotation : Bool) (d : Draws) :
    ∃ s, (noisyAlignment source target "gaussian" (.list [p0, p1, p2]) rotation d).1 = .ok s ∧
      ∀ p : Pts n 2, s.apply p = (alignSim rotation source target).apply
        (turned (centroid target) (1 + p0 / 6 * d.scale) (p1 * (Real.pi / 3) * d.rot)
          (fun j => p2 * (side target j / 3) * d.tr j) p) := by
  refine ⟨_, rfl, fun p => ?_⟩
  rw [after_apply, noise_apply]
  congr 1
  have e1 : 1 + p0 * (1 / 2 / 3) * d.scale = 1 + p0 / 6 * d.scale := by ring
  have e2 : p1 * (180 / 3) * d.rot * (Real.pi / 180) = p1 * (Real.pi / 3) * d.rot := by ring
  have e3 : (![p2 * (rangeOf target 0 / 3) * d.tr 0, p2 * (rangeOf target 1 / 3) * d.tr 1] :
      Fin 2 → ℝ) = fun j => p2 * (side target j / 3) * d.tr j := by
    funext j
    match j with
    | 0 => rfl
    | 1 => rfl
  rw [e1, e2, e3]

/-- C69 fails for the scale of uniform noise: the draw is normal, so for every positive percentage,
every alignment and every bound some draw makes the resulting shape larger than that multiple
of the target. -/
theorem C69_scale_violated (hn : 0 < n) (source target : Pts n 2) (hs : spread source ≠ 0)
    (ht : spread target ≠ 0) (p0 : ℝ) (hp : 0 < p0) (bound : ℝ) :
    ∃ (d : Draws) (r : Pts n 2),
      noisyShapeFromShape source target "uniform" (.list [p0, 0, 0]) false d = .ok r ∧
      bound * spread target < spread r := by
  obtain ⟨b, hb⟩ : ∃ b, b = |bound| + 1 := ⟨_, rfl⟩
  have hb1 : 1 ≤ b := by rw [hb]; linarith [abs_nonneg bound]
  refine ⟨⟨(2 * b / p0 + 1) / 2, 0, 0⟩, _, rfl, ?_⟩
  obtain ⟨c, -, -, -, -, hsp⟩ := C69_alignment hn source target hs
  have h2 : 0 < spread target :=
    lt_of_le_of_ne (by rw [spread_eq]; exact pts_dot_self_nonneg _) (Ne.symm ht)
  have hsc : spread ((alignSim false source target).apply source) =
      (alignSim false source target).a ^ 2 * spread source := by
    rw [spread_apply hn]; simp [alignSim]
  rw [hsp] at hsc
  rw [after_apply, noise_apply, spread_apply hn]
  have e : turned (centroid target) (1 + p0 * (1 / 2) * (2 * ((2 * b / p0 + 1) / 2) - 1))
      (0 * 180 * (2 * 0 - 1) * (Real.pi / 180)) ![0 * rangeOf target 0 * (2 * (0 : Fin 2 → ℝ) 0 - 1),
        0 * rangeOf target 1 * (2 * (0 : Fin 2 → ℝ) 1 - 1)] source =
      (⟨1 + b, 0, -(b * centroid target 0), -(b * centroid target 1)⟩ : Sim).apply source := by
    have e1 : 1 + p0 * (1 / 2) * (2 * ((2 * b / p0 + 1) / 2) - 1) = 1 + b := by
      field_simp; ring
    rw [e1]
    funext ⟨i, j⟩
    match j with
    | 0 => simp [turned, Sim.apply]; ring
    | 1 => simp [turned, Sim.apply]; ring
  have e' := congrArg spread e
  simp only [spread_apply hn] at e'
  rw [e']
  have h0 : (alignSim false source target).b = 0 := by simp [alignSim]
  rw [h0]
  have : ((alignSim false source target).a ^ 2 + 0 ^ 2) * (((1 + b) ^ 2 + 0 ^ 2) * spread source) =
      (1 + b) ^ 2 * spread target := by rw [hsc]; ring
  rw [this]
  have : bound < (1 + b) ^ 2 := by nlinarith [le_abs_self bound]
  exact mul_lt_mul_of_pos_right this h2

/-- C69 fails for the translation: it is applied before the alignment, so for every positive
percentage and every bound there are a source, a target and a draw for which the centroid of
the result is further from that of the target than that multiple of its side. -/
theorem C69_translation_violated (p2 : ℝ) (hp : 0 < p2) (bound : ℝ) :
    ∃ (source target : Pts 2 2) (d : Draws) (r : Pts 2 2),
      (∀ j, 0 ≤ d.tr j ∧ d.tr j ≤ 1) ∧ 0 < side target 0 ∧
      noisyShapeFromShape source target "uniform" (.list [0, 0, p2]) false d = .ok r ∧
      bound * side target 0 < |centroid r 0 - centroid target 0| := by
  obtain ⟨b, hb⟩ : ∃ b, b = (|bound| + 1) / p2 := ⟨_, rfl⟩
  have hb0 : 0 < b := by rw [hb]; positivity
  have hside : side (fun ij : Fin 2 × Fin 2 => if ij = (1, 0) then b else 0) 0 = b := by
    unfold side Error.extent
    simp [Stats.npMax, Stats.npMin, List.ofFn_succ, hb0.le]
  refine ⟨fun ij => if ij = (1, 0) then 1 else 0, fun ij => if ij = (1, 0) then b else 0,
    ⟨1 / 2, 1 / 2, fun _ => 1⟩, _, fun j => by norm_num, by rw [hside]; exact hb0, rfl, ?_⟩
  rw [hside, after_apply, noise_apply]
  rw [(centroid_apply two_pos _ _).1]
  have hs : spread (fun ij : Fin 2 × Fin 2 => if ij = (1, 0) then (1 : ℝ) else 0) = 1 / 2 := by
    simp [spread, centroid, Fin.sum_univ_two]; norm_num
  have ht : spread (fun ij : Fin 2 × Fin 2 => if ij = (1, 0) then b else 0) = b ^ 2 / 2 := by
    simp [spread, centroid, Fin.sum_univ_two]; ring
  have ha : (alignSim false (fun ij : Fin 2 × Fin 2 => if ij = (1, 0) then (1 : ℝ) else 0)
      (fun ij => if ij = (1, 0) then b else 0)).a = b := by
    simp only [alignSim, ← spread_eq, hs, ht, Bool.false_eq_true, if_false]
    rw [← Real.sqrt_div' _ (by norm_num), show b ^ 2 / 2 / (1 / 2) = b ^ 2 by ring,
      Real.sqrt_sq hb0.le]
  have hbb : (alignSim false (fun ij : Fin 2 × Fin 2 => if ij = (1, 0) then (1 : ℝ) else 0)
      (fun ij => if ij = (1, 0) then b else 0)).b = 0 := by
    simp [alignSim]
  have htx : (alignSim false (fun ij : Fin 2 × Fin 2 => if ij = (1, 0) then (1 : ℝ) else 0)
      (fun ij => if ij = (1, 0) then b else 0)).tx = 0 := by
    have : (alignSim false (fun ij : Fin 2 × Fin 2 => if ij = (1, 0) then (1 : ℝ) else 0)
      (fun ij => if ij = (1, 0) then b else 0)).tx = b / 2 -
      (alignSim false (fun ij : Fin 2 × Fin 2 => if ij = (1, 0) then (1 : ℝ) else 0)
      (fun ij => if ij = (1, 0) then b else 0)).a * (1 / 2) := by
      simp [alignSim, centroid, Fin.sum_univ_two]
    rw [this, ha]; ring
  rw [ha, hbb, htx]
  have hc : centroid (turned (centroid fun ij : Fin 2 × Fin 2 => if ij = (1, 0) then b else 0)
      (1 + 0 * (1 / 2) * (2 * (1 / 2) - 1)) (0 * 180 * (2 * (1 / 2) - 1) * (Real.pi / 180))
      ![p2 * rangeOf (fun ij : Fin 2 × Fin 2 => if ij = (1, 0) then b else 0) 0 * (2 * 1 - 1),
        p2 * rangeOf (fun ij : Fin 2 × Fin 2 => if ij = (1, 0) then b else 0) 1 * (2 * 1 - 1)]
      (fun ij : Fin 2 × Fin 2 => if ij = (1, 0) then (1 : ℝ) else 0)) 0 = 1 / 2 + p2 * b := by
    rw [show rangeOf (fun ij : Fin 2 × Fin 2 => if ij = (1, 0) then b else 0) 0 = b from hside]
    simp [centroid, turned, Fin.sum_univ_two]
    ring
  rw [hc]
  have hct : centroid (fun ij : Fin 2 × Fin 2 => if ij = (1, 0) then b else 0) 0 = b / 2 := by
    simp [centroid, Fin.sum_univ_two]
  rw [hct]
  rw [zero_mul, show b * (1 / 2 + p2 * b) - 0 + 0 - b / 2 = p2 * b * b by ring, abs_of_pos (by positivity)]
  apply mul_lt_mul_of_pos_right _ hb0
  rw [hb, mul_div_cancel₀ _ hp.ne']
  linarith [le_abs_self bound]

/-- C69 (argument, partial): floats, tuples and lists that do not have exactly one element are left
as they were.  Missing: `C69_argument_modified_violated`. -/
theorem C69_argument_partial (source target : Pts n 2) (kind : String) (percentage : Percentage)
    (rotation : Bool) (d : Draws) (h : ∀ x, percentage ≠ .list [x]) :
    (noisyAlignment source target kind percentage rotation d).2 = percentage := by
  have key : (percentages percentage).2 = percentage := by
    cases percentage with
    | float x => rfl
    | int k => rfl
    | tuple l => by_cases hl : l.length = 1 <;> simp [percentages, hl]
    | list l =>
      unfold percentages
      by_cases hl : l.length = 1
      · obtain ⟨x, rfl⟩ := List.length_eq_one_iff.1 hl
        exact absurd rfl (h x)
      · simp [hl]
  unfold noisyAlignment
  obtain ⟨a, b, hab⟩ : ∃ a b, percentages percentage = (a, b) := ⟨_, _, rfl⟩
  rw [hab] at key ⊢
  simp only at key
  subst key
  cases a with
  | error e => rfl
  | ok np =>
    simp only
    cases noise target kind np d <;> rfl

/-- C69 fails for the argument: a list with one element of the caller has three afterwards. -/
theorem C69_argument_modified_violated (source target : Pts n 2) (kind : String) (x : ℝ)
    (rotation : Bool) (d : Draws) :
    (noisyAlignment source target kind (.list [x]) rotation d).2 = .list [x, x, x] := by
  unfold noisyAlignment
  simp only [percentages, List.length_singleton, if_true]
  cases h : noise target kind ([x] ++ [x] ++ [x]) d <;> rfl

/-! ## C87 -/

/-- C87: the shape aligned with a bounding box is not rotated, its own bounding box has the centre
and the diagonal of the given box, and if the two boxes have the same proportions it is the
given box. -/
theorem C87_align_with_box (shape : Pts n 2) (lo hi lo' hi' : Fin 2 → ℝ) (hn : n ≠ 0)
    (hb : IsBoundingBox shape lo hi)
    (h : 0 < (hi 0 - lo 0) * (hi' 0 - lo' 0) + (hi 1 - lo 1) * (hi' 1 - lo' 1)) :
    ∃ (r : Pts n 2) (c : ℝ) (t : Fin 2 → ℝ) (lr hr : Fin 2 → ℝ),
      alignShapeWithBoundingBox shape (corners lo' hi') = .ok r ∧
      0 ≤ c ∧ (∀ ij, r ij = c * shape ij + t ij.2) ∧ IsBoundingBox r lr hr ∧
      (∀ j, (lr j + hr j) / 2 = (lo' j + hi' j) / 2) ∧
      (hr 0 - lr 0) ^ 2 + (hr 1 - lr 1) ^ 2 = (hi' 0 - lo' 0) ^ 2 + (hi' 1 - lo' 1) ^ 2 ∧
      ((∀ j, 0 ≤ hi' j - lo' j) → (hi 0 - lo 0) * (hi' 1 - lo' 1) = (hi 1 - lo 1) * (hi' 0 - lo' 0) →
        lr = lo' ∧ hr = hi') := by
  obtain ⟨c, hc⟩ : ∃ c, c = Real.sqrt ((hi' 0 - lo' 0) ^ 2 + (hi' 1 - lo' 1) ^ 2) /
        Real.sqrt ((hi 0 - lo 0) ^ 2 + (hi 1 - lo 1) ^ 2) := ⟨_, rfl⟩
  have hc0 : 0 ≤ c := by rw [hc]; positivity
  have hq : 0 < (hi 0 - lo 0) ^ 2 + (hi 1 - lo 1) ^ 2 := by
    rcases lt_or_eq_of_le (by positivity : (0 : ℝ) ≤ (hi 0 - lo 0) ^ 2 + (hi 1 - lo 1) ^ 2) with
      h' | h'
    · exact h'
    · have e0 : hi 0 - lo 0 = 0 := by nlinarith [sq_nonneg (hi 0 - lo 0), sq_nonneg (hi 1 - lo 1)]
      have e1 : hi 1 - lo 1 = 0 := by nlinarith [sq_nonneg (hi 0 - lo 0), sq_nonneg (hi 1 - lo 1)]
      rw [e0, e1] at h; simp at h
  have hc2 : c ^ 2 * ((hi 0 - lo 0) ^ 2 + (hi 1 - lo 1) ^ 2) =
      (hi' 0 - lo' 0) ^ 2 + (hi' 1 - lo' 1) ^ 2 := by
    rw [hc, div_pow, Real.sq_sqrt (by positivity), Real.sq_sqrt hq.le, div_mul_cancel₀ _ hq.ne']
  obtain ⟨t, ht⟩ : ∃ t : Fin 2 → ℝ, t = fun j => (lo' j + hi' j) / 2 - c * ((lo j + hi j) / 2) :=
    ⟨_, rfl⟩
  refine ⟨fun ij => c * shape ij + t ij.2, c, t, fun j => c * lo j + t j, fun j => c * hi j + t j,
    ?_, hc0, fun ij => rfl, ?_, ?_, ?_, ?_⟩
  · simp only [alignShapeWithBoundingBox, boundingBox_of hn hb, bind, Except.bind, alignSim,
      if_true, procrustes_corners lo hi lo' hi' h, ← hc]
    show Except.ok _ = Except.ok _
    congr 1
    funext ⟨i, j⟩
    match j with
    | 0 => simp [Sim.apply, ht]
    | 1 => simp [Sim.apply, ht]
  · intro j
    obtain ⟨h1, ⟨i, hi⟩, ⟨k, hk⟩⟩ := hb j
    refine ⟨fun m => ⟨?_, ?_⟩, ⟨i, ?_⟩, ⟨k, ?_⟩⟩
    · have := mul_le_mul_of_nonneg_left (h1 m).1 hc0; simpa using this
    · have := mul_le_mul_of_nonneg_left (h1 m).2 hc0; simpa using this
    · simp [hi]
    · simp [hk]
  · intro j; simp only [ht]; ring
  · simp only
    rw [← hc2]; ring
  · intro hp hpp
    have key : ∀ j, c * (hi j - lo j) = hi' j - lo' j := by
      have hlo : ∀ j, 0 ≤ hi j - lo j := fun j => by
        obtain ⟨h1, ⟨i, hi⟩, -⟩ := hb j
        linarith [(h1 i).1, (h1 i).2]
      intro j
      have hw := hp 0
      have hh := hp 1
      have sq : ∀ j, (c * (hi j - lo j)) ^ 2 = (hi' j - lo' j) ^ 2 := by
        have q1 : (hi' 0 - lo' 0) ^ 2 * ((hi 0 - lo 0) ^ 2 + (hi 1 - lo 1) ^ 2) =
            (hi 0 - lo 0) ^ 2 * ((hi' 0 - lo' 0) ^ 2 + (hi' 1 - lo' 1) ^ 2) := by
          linear_combination (-(hi 0 - lo 0) * (hi' 1 - lo' 1) - (hi 1 - lo 1) * (hi' 0 - lo' 0)) * hpp
        have q2 : (hi' 1 - lo' 1) ^ 2 * ((hi 0 - lo 0) ^ 2 + (hi 1 - lo 1) ^ 2) =
            (hi 1 - lo 1) ^ 2 * ((hi' 0 - lo' 0) ^ 2 + (hi' 1 - lo' 1) ^ 2) := by
          linear_combination ((hi 0 - lo 0) * (hi' 1 - lo' 1) + (hi 1 - lo 1) * (hi' 0 - lo' 0)) * hpp
        intro j
        match j with
        | 0 =>
          apply mul_right_cancel₀ hq.ne'
          rw [q1, ← hc2]; ring
        | 1 =>
          apply mul_right_cancel₀ hq.ne'
          rw [q2, ← hc2]; ring
      exact (sq_eq_sq₀ (mul_nonneg hc0 (hlo j)) (hp j)).1 (sq j)
    constructor
    · funext j
      have := key j
      simp only [ht]; linarith
    · funext j
      have := key j
      simp only [ht]; linarith

/-- A unit segment aligned with a box of sides 3 and 4. -/
example : ∃ (shape : Pts 2 2) (lo hi : Fin 2 → ℝ), IsBoundingBox shape lo hi ∧
    0 < (hi 0 - lo 0) * (3 - 0) + (hi 1 - lo 1) * (4 - 0) := by
  refine ⟨fun ij => if ij.1 = 0 then 0 else 1, 0, 1, fun j => ⟨fun i => ?_, ⟨0, rfl⟩, ⟨1, rfl⟩⟩, ?_⟩
  · fin_cases i <;> simp
  · norm_num

/-- C69 for `noisy_shape_from_bounding_box`: without noise the bounding box of the result has the
centre of the given box and its diagonal, without rotation. -/
theorem C69_zero_noise_box (shape : Pts n 2) (lo hi lo' hi' : Fin 2 → ℝ) (hn : n ≠ 0)
    (hb : IsBoundingBox shape lo hi)
    (h : 0 < (hi 0 - lo 0) * (hi' 0 - lo' 0) + (hi 1 - lo 1) * (hi' 1 - lo' 1)) (rotation : Bool)
    (d : Draws) :
    noisyShapeFromBoundingBox shape (corners lo' hi') "uniform" (.float 0) rotation d =
      alignShapeWithBoundingBox shape (corners lo' hi') := by
  simp only [noisyShapeFromBoundingBox, alignShapeWithBoundingBox, boundingBox_of hn hb, bind,
    Except.bind, (C69_zero_noise (corners lo hi) (corners lo' hi') "uniform" (.inr rfl) (.float 0)
      (.inl rfl) rotation d).1]
  have : alignSim rotation (corners lo hi) (corners lo' hi') =
      alignSim true (corners lo hi) (corners lo' hi') := by
    cases rotation
    · have e : ∀ x y : ℝ, x * x + y * y = x ^ 2 + y ^ 2 := fun x y => by ring
      simp only [alignSim, if_true, procrustes_corners lo hi lo' hi' h, corners_dot, e,
        centroid_corners, Bool.false_eq_true, if_false]
    · rfl
  rw [this]

/-! ## C86 -/

/-- C86 (noise on the target, partial): with one standard deviation the transform aligns the source
with the target whose coordinates are each disturbed by the draw times that fraction of the
side; with zero it is the alignment with the target.  Missing: one value per point, see
`C86_per_point_violated`. -/
theorem C86_noisy_target_partial {T : Type} (align : Pts n 2 → Pts n 2 → T) (source target : Pts n 2)
    (d : Pts n 2) :
    (∀ x, noisyTargetAlignment align source target (.float x) d =
      .ok (align source fun ij => target ij + x * side target ij.2 * d ij)) ∧
    noisyTargetAlignment align source target (.float 0) d = .ok (align source target) := by
  refine ⟨fun x => rfl, ?_⟩
  show Except.ok _ = Except.ok _
  congr 2
  funext ij
  simp

/-- C86 fails for a list with one value per point, as documented: with three or more points it
raises, and with two points the values are used per axis. -/
theorem C86_per_point_violated {T : Type} (align : Pts n 2 → Pts n 2 → T)
    (source target : Pts n 2) (d : Pts n 2) (l : List ℝ) (h : l.length = n) :
    (3 ≤ n → noisyTargetAlignment align source target (.list l) d = .error .valueError) ∧
    (∀ x y, l = [x, y] → noisyTargetAlignment align source target (.list l) d =
      .ok (align source fun ij => target ij + (if ij.2 = 0 then x else y) * side target ij.2 *
        d ij)) := by
  constructor
  · intro hn
    have : stdTimesRange (.list l) (rangeOf target) = .error .valueError := by
      match l, h with
      | [], h => simp at h; omega
      | [_], h => simp at h; omega
      | [_, _], h => simp at h; omega
      | _ :: _ :: _ :: _, _ => rfl
    unfold noisyTargetAlignment
    rw [this]; rfl
  · rintro x y rfl
    rfl

end Menpofit
