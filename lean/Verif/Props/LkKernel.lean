import Verif.Lemmas.LkKernel
/-!
# Lucas-Kanade fitting with a kernel (C130)
-/

namespace Menpofit
open Matrix GN Dft Lk Spec

variable {c h w n : Nat} {Im T : Type}

/-- **C130** (forward additive).  With an even kernel of non-negative weights, in space or in the Fourier domain, the
increment is the only minimiser of the filtered energy of the linearised error, where the gradient of the image is
warped to the template's frame. -/
theorem C130_forward_additive [NeZero h] [NeZero w] (env : Lk.Env c h w Im T) (dW : Jac h w n)
    (template : Planes c h w) (im : Im) (t : T) (k : Fin h × Fin w → ℝ) (hk : EvenKernel k) (hk0 : ∀ f, 0 ≤ k f)
    (fourier : Bool) (dp : Fin n → ℝ)
    (hdp : faIncrement (if fourier then fourierSsd env (some fun f => (k f : ℂ)) else ssd env (some fun f => (k f : ℂ)))
      env dW template () im t = .ok ((), dp)) :
    UniqueMin (fun d => filteredEnergy k fun i p => env.warp im t i p +
      ∑ j, (∑ a, env.fwdGrad im t a i p * dW a p j) * d j - template i p) dp := by
  have hdp' : (npSolve ((filterAll c k * sdi (env.fwdGrad im t) dW)ᵀ * sdi (env.fwdGrad im t) dW)
      ((filterAll c k * sdi (env.fwdGrad im t) dW)ᵀ *ᵥ difference (env.warp im t) template)).map
        (fun d => ((), -d)) = .ok ((), dp) := by
    rw [← hdp, ← solveRe_weighted]
    cases fourier
    · simp only [Bool.false_eq_true, if_false, faIncrement, ssd, bind, Except.bind, pure, Except.pure, gradientOf,
        filterAll_images hk]
      cases solveRe _ _ <;> rfl
    · simp only [if_true, faIncrement, fourierSsd, bind, Except.bind, pure, Except.pure, gradientOf, filtered_fourier]
      rw [solve_fourier _ _ (filtered_isReal (realFilter_even hk) _), filterAll_images hk]
      cases solveRe _ _ <;> rfl
  cases hs : npSolve ((filterAll c k * sdi (env.fwdGrad im t) dW)ᵀ * sdi (env.fwdGrad im t) dW)
      ((filterAll c k * sdi (env.fwdGrad im t) dW)ᵀ *ᵥ difference (env.warp im t) template) with
  | error e => rw [hs] at hdp'; cases hdp'
  | ok d =>
    rw [hs] at hdp'
    injection hdp' with hdp'
    injection hdp' with _ hdp'
    exact filtered_min_neg hk hk0 hs hdp'.symm fun z i p => by
      simp only [difference, mulVec, dotProduct, sdi]; ring

/-- **C130** (forward compositional).  The same, with the gradient of the warped image. -/
theorem C130_forward_compositional [NeZero h] [NeZero w] (env : Lk.Env c h w Im T) (dW : Jac h w n)
    (template iwxp : Planes c h w) (k : Fin h × Fin w → ℝ) (hk : EvenKernel k) (hk0 : ∀ f, 0 ≤ k f)
    (fourier : Bool) (dp : Fin n → ℝ)
    (hdp : fcIncrement (if fourier then fourierSsd env (some fun f => (k f : ℂ)) else ssd env (some fun f => (k f : ℂ)))
      dW template () iwxp = .ok ((), dp)) :
    UniqueMin (fun d => filteredEnergy k fun i p => iwxp i p +
      ∑ j, (∑ a, env.grad iwxp a i p * dW a p j) * d j - template i p) dp := by
  have hdp' : (npSolve ((filterAll c k * sdi (env.grad iwxp) dW)ᵀ * sdi (env.grad iwxp) dW)
      ((filterAll c k * sdi (env.grad iwxp) dW)ᵀ *ᵥ difference iwxp template)).map
        (fun d => ((), -d)) = .ok ((), dp) := by
    rw [← hdp, ← solveRe_weighted]
    cases fourier
    · simp only [Bool.false_eq_true, if_false, fcIncrement, ssd, bind, Except.bind, pure, Except.pure, gradientOf,
        filterAll_images hk]
      cases solveRe _ _ <;> rfl
    · simp only [if_true, fcIncrement, fourierSsd, bind, Except.bind, pure, Except.pure, gradientOf, filtered_fourier]
      rw [solve_fourier _ _ (filtered_isReal (realFilter_even hk) _), filterAll_images hk]
      cases solveRe _ _ <;> rfl
  cases hs : npSolve ((filterAll c k * sdi (env.grad iwxp) dW)ᵀ * sdi (env.grad iwxp) dW)
      ((filterAll c k * sdi (env.grad iwxp) dW)ᵀ *ᵥ difference iwxp template) with
  | error e => rw [hs] at hdp'; cases hdp'
  | ok d =>
    rw [hs] at hdp'
    injection hdp' with hdp'
    injection hdp' with _ hdp'
    exact filtered_min_neg hk hk0 hs hdp'.symm fun z i p => by
      simp only [difference, mulVec, dotProduct, sdi]; ring

/-- **C130** (inverse compositional).  The increment, whose inverse is composed with the transform, is the only
minimiser of the filtered energy of the difference between the warped image and the linearised template. -/
theorem C130_inverse [NeZero h] [NeZero w] (env : Lk.Env c h w Im T) (dW : Jac h w n)
    (template iwxp : Planes c h w) (k : Fin h × Fin w → ℝ) (hk : EvenKernel k) (hk0 : ∀ f, 0 ≤ k f)
    (r : Residual c h w n Im T Unit (Matrix (Px c h w) (Fin n) ℂ) (Matrix (Fin n) (Fin n) ℂ) (Fin n → ℂ))
    (hr : r = fourierSsd env (some fun f => (k f : ℂ)) ∨ r = ssd env (some fun f => (k f : ℂ))) (dp : Fin n → ℝ)
    (hdp : ((icPrecompute r dW template ()).bind fun pre => icIncrement r pre template iwxp) = .ok ((), dp)) :
    UniqueMin (fun d => filteredEnergy k fun i p => iwxp i p -
      (template i p + ∑ j, (∑ a, env.grad template a i p * dW a p j) * d j)) dp := by
  have hdp' : (npSolve ((filterAll c k * sdi (env.grad template) dW)ᵀ * sdi (env.grad template) dW)
      ((filterAll c k * sdi (env.grad template) dW)ᵀ *ᵥ difference iwxp template)).map
        (fun d => ((), d)) = .ok ((), dp) := by
    rw [← hdp, ← solveRe_weighted]
    rcases hr with rfl | rfl
    · simp only [icPrecompute, icIncrement, fourierSsd, bind, Except.bind, pure, Except.pure, gradientOf,
        filtered_fourier]
      rw [solve_fourier _ _ (filtered_isReal (realFilter_even hk) _), filterAll_images hk]
      cases solveRe _ _ <;> rfl
    · simp only [icPrecompute, icIncrement, ssd, bind, Except.bind, pure, Except.pure, gradientOf,
        filterAll_images hk]
      cases solveRe _ _ <;> rfl
  cases hs : npSolve ((filterAll c k * sdi (env.grad template) dW)ᵀ * sdi (env.grad template) dW)
      ((filterAll c k * sdi (env.grad template) dW)ᵀ *ᵥ difference iwxp template) with
  | error e => rw [hs] at hdp'; cases hdp'
  | ok d =>
    rw [hs] at hdp'
    injection hdp' with hdp'
    injection hdp' with _ hdp'
    subst hdp'
    refine uniqueMin_congr (fun z => ?_) (filtered_min hk hk0 hs)
    congr 1
    funext i p
    simp only [difference, mulVec, dotProduct, sdi]; ring

/-- **C130** (costs).  Without a kernel a run with `return_costs=True` that returns reports for every iteration the
energy of its error image: that of the transform with which the iteration starts.  Missing: kernels
(`C130_costs_violated`). -/
theorem C130_costs_partial {S V : Type} (cost : Planes c h w → Except PyErr ℂ)
    (hcost : cost = ssdCost none ∨ cost = fourierSsdCost none)
    (body : T → Except PyErr (T × ℝ)) (error : T → Planes c h w) (shape : T → S) (vector : T → V) (eps : ℝ)
    (maxIters : Int) (t : T) {tr : Optim.Trace S V Unit} {costs : List ℂ}
    (hr : costRun body error cost shape vector eps maxIters t = .ok (tr, costs)) :
    ∃ (N : Nat) (ts : Nat → T), ts 0 = t ∧ N ≤ maxIters.toNat ∧
      (∀ i < N, ∃ e, body (ts i) = .ok (ts (i + 1), e)) ∧
      tr.shapes = (List.range (N + 1)).map (fun i => shape (ts i)) ∧
      costs = (List.range N).map fun i => ((∑ x : Fin c × Fin h × Fin w, error (ts i) x.1 x.2 ^ 2 : ℝ) : ℂ) := by
  have hc : ∀ x, cost x = .ok ((∑ i : Fin c × Fin h × Fin w, x i.1 i.2 ^ 2 : ℝ) : ℂ) := by
    intro x
    rcases hcost with rfl | rfl <;>
    · simp only [ssdCost, fourierSsdCost]
      congr 1
      push_cast
      exact Finset.sum_congr rfl fun i _ => by ring
  unfold costRun at hr
  simp only at hr
  obtain ⟨sF, hsF⟩ : ∃ sF, sF = (Optim.run (costMachine body error cost shape vector) true maxIters eps false (t, [])).1 :=
    ⟨_, rfl⟩
  cases h2 : (Optim.run (costMachine body error cost shape vector) true maxIters eps false (t, [])).2 with
  | error e => rw [h2] at hr; cases hr
  | ok tr' =>
    rw [h2] at hr
    simp only [Except.map] at hr
    injection hr with hr
    injection hr with htr hco
    subst htr
    have hrun : Optim.run (costMachine body error cost shape vector) true maxIters eps false (t, []) =
        (sF, .ok tr') := Prod.ext hsF.symm h2
    unfold Optim.run at hrun
    obtain ⟨N, st, mv, h0, hN, hle, hst, -, -, -, hsh, -, -⟩ :=
      loop_spec _ _ _ _ _ _ _ _ _ _ _ rfl hrun
    have step : ∀ i < N, body (st i).1 = .ok ((st (i + 1)).1, mv i) ∧
        (st (i + 1)).2 = (st i).2 ++ [((∑ x : Fin c × Fin h × Fin w, error (st i).1 x.1 x.2 ^ 2 : ℝ) : ℂ)] := by
      intro i hi
      have := hst i hi
      simp only [costMachine] at this
      cases hb : body (st i).1 with
      | error e => rw [hb] at this; simp at this
      | ok b =>
        obtain ⟨t', e⟩ := b
        rw [hb] at this
        simp only [hc] at this
        rw [Prod.mk.injEq] at this
        obtain ⟨h1, h3⟩ := this
        injection h3 with h3
        rw [← h1, ← h3]
        exact ⟨rfl, rfl⟩
    refine ⟨N, fun i => (st i).1, by simp [h0], by simpa using hle, fun i hi => ⟨_, (step i hi).1⟩, ?_, ?_⟩
    · rw [hsh, List.range_succ_eq_map]
      simp only [List.map_cons, List.map_map, h0]
      rfl
    · rw [← hco, ← hsF, ← hN]
      have : ∀ M ≤ N, (st M).2 = (List.range M).map fun i =>
          ((∑ x : Fin c × Fin h × Fin w, error (st i).1 x.1 x.2 ^ 2 : ℝ) : ℂ) := by
        intro M
        induction M with
        | zero => intro _; rw [h0]; rfl
        | succ M ih =>
          intro hM
          rw [(step M hM).2, ih (by omega), List.range_succ, List.map_append]
          rfl
      exact this N le_rfl

/-- **C130** (violated).  With a kernel of the size of the picture, one plane for all channels or one per channel, and
more rows than channels, a run with `return_costs=True` and at least one iteration never returns: the cost of any
error image raises `ValueError`, since the new axis of the kernel is put behind the columns. -/
theorem C130_costs_violated {S V : Type} (hc0 : 0 < c) (hc : c < h) (hw : 0 < w) (k : Arr)
    (hk : k.shape = [w, h] ∨ k.shape = [w, h, 1] ∨ k.shape = [w, h, c])
    (cost : Planes c h w → Except PyErr ℂ) (hcost : cost = ssdCost (some k) ∨ cost = fourierSsdCost (some k)) :
    (∀ x, cost x = .error .valueError) ∧
    ∀ (body : T → Except PyErr (T × ℝ)) (error : T → Planes c h w) (shape : T → S) (vector : T → V) (eps : ℝ)
      (maxIters : Int) (t : T), 0 < maxIters → ∀ r, costRun body error cost shape vector eps maxIters t ≠ .ok r := by
  have fc : ∀ y : Arr, y.shape = [w, h, c] → filteredCost k y = .error .valueError := by
    intro y hy
    have hb : ∀ s, broadcast (1 :: k.shape) [w, h, c] = .ok s →
        (∃ r, s = w :: h :: r) ∧ s.prod = w * h * h ∧ c = 1 := by
      intro s hs
      have h1 : broadcast [h] [c] = if c = 1 then .ok [h] else .error .valueError := by
        simp only [broadcast, bind, Except.bind, pure, Except.pure]
        rw [if_neg (by omega : ¬ h = c), if_neg (by omega : ¬ h = 1)]
      have h2 : broadcast [h, 1] [c] = if c = 1 then .ok [h, 1] else .error .valueError := by
        simp only [broadcast, bind, Except.bind, pure, Except.pure]
        rw [if_neg (by omega : ¬ h = c), if_neg (by omega : ¬ h = 1)]
      have h3 : broadcast [h, c] [c] = if c = 1 then .ok [h, c] else .error .valueError := by
        simp only [broadcast, bind, Except.bind, pure, Except.pure]
        rw [if_neg (by omega : ¬ h = c), if_neg (by omega : ¬ h = 1)]
      by_cases hc1 : c = 1
      · rw [if_pos hc1] at h1 h2 h3
        have hm : ∀ (l r : List Nat), broadcast l [c] = .ok r → broadcast (1 :: w :: l) [w, h, c] = .ok s →
            s = w :: h :: r := by
          intro l r hl h'
          rw [broadcast, broadcast, hl] at h'
          simp only [bind, Except.bind, pure, Except.pure] at h'
          by_cases e1 : w = h
          · rw [if_pos e1] at h'
            simp only at h'
            by_cases e2 : 1 = w
            · rw [if_pos e2] at h'; injection h' with h'; rw [← h', e1, ← e1, ← e2]
            · rw [if_neg e2] at h'; simp only [if_true] at h'; injection h' with h'; rw [← h', e1]
          · rw [if_neg e1] at h'
            by_cases e3 : w = 1
            · rw [if_pos e3] at h'
              simp only at h'
              rw [if_pos e3.symm] at h'; injection h' with h'; rw [← h', e3]
            · rw [if_neg e3, if_neg (by omega : ¬ h = 1)] at h'; cases h'
        rcases hk with hk | hk | hk <;> rw [hk] at hs
        · have := hm _ _ h1 hs; exact ⟨⟨_, this⟩, by rw [this]; simp [mul_assoc], hc1⟩
        · have := hm _ _ h2 hs; exact ⟨⟨_, this⟩, by rw [this]; simp [mul_assoc], hc1⟩
        · have := hm _ _ h3 hs; exact ⟨⟨_, this⟩, by rw [this]; simp [mul_assoc, hc1], hc1⟩
      · rw [if_neg hc1] at h1 h2 h3
        exfalso
        have hm : ∀ l : List Nat, broadcast l [c] = .error .valueError →
            broadcast (1 :: w :: l) [w, h, c] = .error .valueError := by
          intro l hl
          rw [broadcast, broadcast, hl]; rfl
        rcases hk with hk | hk | hk <;> rw [hk] at hs
        · rw [hm _ h1] at hs; cases hs
        · rw [hm _ h2] at hs; cases hs
        · rw [hm _ h3] at hs; cases hs
    have he : ∀ e, broadcast (1 :: k.shape) [w, h, c] = .error e → e = .valueError := by
      have : ∀ s t e, broadcast s t = .error e → e = .valueError := by
        intro s
        induction s with
        | nil => intro t e h'; simp [broadcast] at h'
        | cons a s ih =>
          intro t e h'
          cases t with
          | nil => simp [broadcast] at h'
          | cons b t =>
            rw [broadcast] at h'
            cases hr : broadcast s t with
            | error e' =>
              rw [hr] at h'
              injection h' with h'
              rw [← h']; exact ih t e' hr
            | ok r =>
              rw [hr] at h'
              simp only [bind, Except.bind, pure, Except.pure] at h'
              split_ifs at h'
              injection h' with h'
              exact h'.symm
      exact this _ _
    unfold filteredCost Arr.mul Arr.newAxis
    simp only [Arr.onLastTwo, hy, bind, Except.bind, pure, Except.pure]
    cases hs : broadcast (1 :: k.shape) [w, h, c] with
    | error e => simp only [he e hs]
    | ok s =>
      obtain ⟨⟨r, rfl⟩, hp, hc1⟩ := hb s hs
      simp only [Arr.dot, hy]
      rw [if_neg]
      rw [hp, hc1]
      simp only [List.prod_cons, List.prod_nil, mul_one]
      intro h'
      have h0 : 0 < w * h := Nat.mul_pos hw (by omega)
      have : w * h * 1 = w * h * h := by rw [mul_one]; exact h'
      have := Nat.eq_of_mul_eq_mul_left h0 this
      omega
  have hall : ∀ x, cost x = .error .valueError := by
    intro x
    rcases hcost with rfl | rfl
    · have hne : ¬ (w * h = 0 ∨ c * (h * w) % (w * h) ≠ 0) := by
        rintro (h' | h')
        · rcases Nat.mul_eq_zero.1 h' with h' | h' <;> omega
        · exact h' (by rw [Nat.mul_comm h w]; exact Nat.mul_mod_left _ _)
      have hdiv : c * (h * w) / (w * h) = c := by
        rw [Nat.mul_comm h w]
        exact Nat.mul_div_cancel _ (Nat.mul_pos hw (by omega))
      simp only [ssdCost, reshapeLike]
      rcases hk with hk' | hk' | hk' <;>
      · rw [hk']
        simp only [if_neg hne, bind, Except.bind]
        exact fc _ (by simp only [hdiv])
    · exact fc _ rfl
  refine ⟨hall, fun body error shape vector eps maxIters t hm r hr => ?_⟩
  unfold costRun Optim.run at hr
  rw [loop_unfold, if_pos ⟨hm, by simp [Optim.goOn]⟩] at hr
  simp only [costMachine, hall] at hr
  cases hb : body t with
  | error e => rw [hb] at hr; cases hr
  | ok b => rw [hb] at hr; cases hr

/-- **C130** (violated).  Where the cost with a kernel does not raise it can be wrong: for square pictures with as many
channels as rows there are kernels and error images whose reported cost is zero although the filtered error is not:
the rows of the kernel are applied to the channels. -/
theorem C130_wrong_cost_violated (n : Nat) [NeZero n] (hn : 2 ≤ n) :
    ∃ (k : Fin n × Fin n → ℝ) (x : Planes n n n), EvenKernel k ∧ (∀ f, 0 ≤ k f) ∧
      ssdCost (some (planeArr fun f => (k f : ℂ))) x = .ok 0 ∧
      fourierSsdCost (some (planeArr fun f => (k f : ℂ))) x = .ok 0 ∧ 0 < filteredEnergy k x := by
  obtain ⟨k, hk⟩ : ∃ k : Fin n × Fin n → ℝ, k = fun f => if f.1 = 0 then 1 else 0 := ⟨_, rfl⟩
  obtain ⟨x, hx⟩ : ∃ x : Planes n n n, x = fun i _ => if i = 0 then 0 else 1 := ⟨_, rfl⟩
  have hn1 : n ≠ 1 := by omega
  have chan0 : ∀ a b, (arrOf x).entry [a, b, 0] = 0 := by
    intro a b
    simp only [arrOf]
    split_ifs with hi
    · have : (⟨0, hi.1⟩ : Fin n) = 0 := rfl
      rw [hx, this]; simp
    · rfl
  have key : ∀ y : Arr, y.shape = [n, n, n] → (∀ a b, a < n → b < n → y.entry [a, b, 0] = 0) →
      filteredCost (planeArr fun f => (k f : ℂ)) y = .ok 0 := by
    intro y hy h0
    have hb : broadcast [1, n, n] [n, n, n] = .ok [n, n, n] := by
      simp only [broadcast, bind, Except.bind, pure, Except.pure]
      simp [hn1.symm]
    unfold filteredCost Arr.mul Arr.newAxis
    simp only [Arr.onLastTwo, hy, bind, Except.bind, pure, Except.pure, planeArr, hb]
    simp only [Arr.dot, hy, if_true]
    congr 1
    apply List.sum_eq_zero
    intro z hz
    obtain ⟨i, hi, rfl⟩ := List.mem_iff_getElem.1 hz
    rw [List.getElem_zipWith]
    apply mul_eq_zero_of_right
    generalize (indices [n, n, n])[i]'_ = is
    match is with
    | [] => rfl
    | [_] => rfl
    | v :: u :: r =>
      simp only
      split_ifs with huv
      swap
      · rfl
      have hz : (fun p : Fin n × Fin n => (match (pick [1, n, n] ((p.2 : ℕ) :: (p.1 : ℕ) :: r)).tail with
          | [v, u] => if hi : u < n ∧ v < n then ((k (⟨u, hi.1⟩, ⟨v, hi.2⟩) : ℝ) : ℂ) else 0
          | _ => 0) *
          (match pick [n, n, n] ((p.2 : ℕ) :: (p.1 : ℕ) :: r) with
          | v :: u :: r => if hu : u < n ∧ v < n then
              fft2 (fun q : Fin n × Fin n => y.entry ((q.2 : ℕ) :: (q.1 : ℕ) :: r)) (⟨u, hu.1⟩, ⟨v, hu.2⟩) else 0
          | _ => 0)) = fun _ => 0 := by
        funext p
        match r with
        | [] => simp [pick]
        | 0 :: r' =>
          simp only [pick, if_neg hn1]
          apply mul_eq_zero_of_right
          split_ifs with hu
          · have : (fun q : Fin n × Fin n => y.entry [(q.2 : ℕ), (q.1 : ℕ), 0]) = 0 := by
              funext q; exact h0 _ _ q.2.2 q.1.2
            rw [this]; simp [fft2]
          · rfl
        | (i + 1) :: r' =>
          simp only [pick, if_neg hn1, List.tail_cons]
          apply mul_eq_zero_of_left
          split_ifs with hu
          · have : (⟨i + 1, hu.1⟩ : Fin n) ≠ 0 := by
              intro h'
              have := congrArg Fin.val h'
              simp at this
            rw [hk]; simp [this]
          · rfl
      have h3 := congrArg (fun g => ifft2 g ((⟨u, huv.1⟩, ⟨v, huv.2⟩) : Fin n × Fin n)) hz
      refine Eq.trans h3 ?_
      simp [ifft2, mulVec, dotProduct]
  refine ⟨k, x, ?_, ?_, ?_, key _ rfl fun a b _ _ => chan0 a b, ?_⟩
  · intro a b
    rw [hk]; simp
  · intro f; rw [hk]; simp only; split_ifs <;> norm_num
  · have hpos : 0 < n * n := Nat.mul_pos (by omega) (by omega)
    simp only [ssdCost, reshapeLike, planeArr]
    rw [if_neg (by rw [Nat.mul_mod_left]; omega)]
    simp only [bind, Except.bind]
    refine key _ ?_ fun a b ha hb => ?_
    · simp only [Nat.mul_div_cancel _ hpos]
    · simp only
      have : ((0 * n + b) * n + a) / (n * n) = 0 := by
        apply Nat.div_eq_of_lt
        nlinarith
      rw [this]; exact chan0 _ _
  · have h1 : (⟨1, hn⟩ : Fin n) ≠ 0 := by
      intro h'; have := congrArg Fin.val h'; simp at this
    have ha : amplitude (x ⟨1, hn⟩) (0, 0) = ((n * n : ℕ) : ℂ) := by
      unfold amplitude
      rw [hx]
      simp [h1]
    unfold filteredEnergy
    refine Finset.sum_pos' (fun i _ => Finset.sum_nonneg fun f _ => mul_nonneg ?_ (sq_nonneg _))
      ⟨⟨1, hn⟩, Finset.mem_univ _, Finset.sum_pos' (fun f _ => mul_nonneg ?_ (sq_nonneg _))
        ⟨(0, 0), Finset.mem_univ _, ?_⟩⟩
    · rw [hk]; simp only; split_ifs <;> norm_num
    · rw [hk]; simp only; split_ifs <;> norm_num
    · rw [ha, hk]
      simp only [if_true, one_mul]
      have : (0 : ℝ) < n := by exact_mod_cast (by omega : 0 < n)
      rw [Complex.norm_natCast]
      positivity

/-! ### The hypotheses are met -/

/-- A kernel that keeps only the mean of the error, and one that keeps everything but the mean. -/
example [NeZero h] [NeZero w] : EvenKernel (fun f : Fin h × Fin w => if f = 0 then (1 : ℝ) else 0) ∧
    EvenKernel (fun f : Fin h × Fin w => if f = 0 then (0 : ℝ) else 1) := by
  constructor <;>
  · intro a b
    simp [Prod.ext_iff]

/-- With the same positive weight for all waves the increments are those without a kernel, which exist (see the
example for `C96_ssd_forward_compositional`). -/
example (hh : 0 < h) (hw : 0 < w) (env : Lk.Env c h w Im T) (dW : Jac h w n) (template iwxp : Planes c h w) (a : ℝ)
    (ha : 0 < a) : fcIncrement (ssd env (some fun _ => (a : ℂ))) dW template () iwxp =
      fcIncrement (ssd env none) dW template () iwxp := by
  have e : ∀ s : Matrix (Px c h w) (Fin n) ℂ, onPlanes (fun x => ifft2 ((fun _ => (a : ℂ)) * fft2 x)) s = (a : ℂ) • s := by
    intro s
    ext x j
    have e : ∀ y : Pos h w → ℂ, ((fun _ => (a : ℂ)) * fft2 y) = fft2 ((a : ℂ) • y) := by
      intro y; unfold fft2; rw [mulVec_smul]; rfl
    simp only [onPlanes, e]
    rw [ifft2_fft2 hh hw]
    simp
  simp only [fcIncrement, ssd, bind, Except.bind, pure, Except.pure, e, transpose_smul, smul_mul, smul_mulVec]
  rw [solveRe_smul (by exact_mod_cast ha.ne')]

/-- A run without a kernel returns. -/
example : ∃ r, costRun (c := 1) (h := 2) (w := 2) (fun t : ℕ => .ok (t + 1, 1)) (fun t _ _ => (t : ℝ)) (ssdCost none)
    id id 0 2 0 = .ok r := by
  unfold costRun Optim.run
  rw [loop_unfold, if_pos ⟨by norm_num, by simp [Optim.goOn]⟩]
  simp only [costMachine, ssdCost]
  rw [loop_unfold, if_pos ⟨by norm_num, by simp [Optim.goOn]⟩]
  simp only
  rw [loop_unfold, if_neg (by norm_num)]
  exact ⟨_, rfl⟩

end Menpofit
