import Verif.Lemmas.Placement
import Verif.Lemmas.AamSolvers
/-!
# Helper lemmas for moving pictures: the runs (C124)
-/

namespace Menpofit
namespace Place
open MI Matrix Warp ClmRun Spec Optim GN

/-! ### Simulation -/

/-- A trace with its shapes and parameters replaced. -/
def mapTrace {S V C : Type} (f : S → S) (g : V → V) (r : Trace S V C) : Trace S V C :=
  ⟨r.shapes.map f, r.params.map g, r.costs⟩

theorem loop_moved {σ S V C E : Type} [LinearOrder E] (m m' : Machine σ S V C E) (f : S → S) (g : V → V)
    (R : σ → σ → Prop) (maxIters : Int) (tol : E)
    (hshape : ∀ s t, R s t → m'.shape t = f (m.shape s))
    (hparams : ∀ s t, R s t → m'.params t = g (m.params s))
    (hcost : ∀ s t, R s t → m'.cost t = m.cost s)
    (hstep : ∀ s t, R s t → (m'.step t).2 = (m.step s).2 ∧
      ∀ e, (m.step s).2 = .ok e → R (m.step s).1 (m'.step t).1) :
    ∀ (k : Nat) (j : Int) (eps : Option E) (s t : σ) (tr : Trace S V C),
      (maxIters - j).toNat = k → R s t →
      (loop m' false maxIters tol j eps t (mapTrace f g tr)).2 =
        (loop m false maxIters tol j eps s tr).2.map (mapTrace f g) := by
  intro k
  induction k with
  | zero =>
    intro j eps s t tr hk hR
    rw [loop_unfold, loop_unfold m, if_neg (by omega), if_neg (by omega)]
    rfl
  | succ k ih =>
    intro j eps s t tr hk hR
    rw [loop_unfold, loop_unfold m]
    by_cases hg : j < maxIters ∧ goOn tol eps
    · rw [if_pos hg, if_pos hg]
      obtain ⟨h1, h2⟩ := hstep s t hR
      rcases hs1 : m.step s with ⟨s', x⟩
      rcases hs2 : m'.step t with ⟨t', y⟩
      rw [hs1, hs2] at h1 h2
      simp only at h1 h2
      subst h1
      cases y with
      | error e => rfl
      | ok e =>
        simp only
        have hR' := h2 e rfl
        rw [← ih (j + 1) (some e) s' t' _ (by omega) hR']
        congr 2
        simp only [mapTrace, List.map_append, List.map_cons, List.map_nil, hshape _ _ hR',
          hparams _ _ hR', hcost _ _ hR', Bool.false_eq_true, if_false]
    · rw [if_neg hg, if_neg hg]; rfl

theorem run_moved {σ S V C E : Type} [LinearOrder E] (m m' : Machine σ S V C E) (f : S → S) (g : V → V)
    (R : σ → σ → Prop) (maxIters : Int) (tol : E)
    (hshape : ∀ s t, R s t → m'.shape t = f (m.shape s))
    (hparams : ∀ s t, R s t → m'.params t = g (m.params s))
    (hcost : ∀ s t, R s t → m'.cost t = m.cost s)
    (hstep : ∀ s t, R s t → (m'.step t).2 = (m.step s).2 ∧
      ∀ e, (m.step s).2 = .ok e → R (m.step s).1 (m'.step t).1)
    (costs : Bool) (s t : σ) (hR : R s t) :
    (Optim.run m' false maxIters tol costs t).2 = (Optim.run m false maxIters tol costs s).2.map (mapTrace f g) := by
  unfold Optim.run
  rw [← loop_moved m m' f g R maxIters tol hshape hparams hcost hstep _ 0 none s t _ rfl hR]
  congr 2
  simp [mapTrace, hshape _ _ hR, hparams _ _ hR, hcost _ _ hR]

/-! ### Priors that do not see the move -/

section
variable {n a m : Nat} {S Im W E : Type}

theorem mapStep_moved {nH k : Nat} (H : Matrix (Fin nH) (Fin nH) ℝ) (J : Matrix (Fin k) (Fin nH) ℝ)
    (e : Fin k → ℝ) (prior p p' : Fin nH → ℝ) (h : prior * p' = prior * p) :
    mapStep H J e prior p' = mapStep H J e prior p := by
  simp only [mapStep, h]

theorem append_moved {n k : Nat} {P p p' : Fin n → ℝ} {Q q q' : Fin k → ℝ} (h : P * p' = P * p)
    (h' : Q * q' = Q * q) : Fin.append P Q * Fin.append p' q' = Fin.append P Q * Fin.append p q := by
  funext i
  refine Fin.addCases (fun i => ?_) (fun i => ?_) i
  · simpa using congrFun h i
  · simpa using congrFun h' i

theorem solveShapeMap_moved {nH np k : Nat} (H : Matrix (Fin nH) (Fin nH) ℝ)
    (J : Matrix (Fin k) (Fin nH) ℝ) (e : Fin k → ℝ) (prior p p' : Fin np → ℝ) (h : prior * p' = prior * p) :
    solveShapeMap H J e prior p' = solveShapeMap H J e prior p := by
  unfold solveShapeMap
  split
  · split
    · exact mapStep_moved _ _ _ _ _ _ (by funext i; exact congrFun h _)
    · rfl
  · split
    · exact mapStep_moved _ _ _ _ _ _ (by funext i; exact congrFun (append_moved h h) _)
    · rfl

theorem solveAllMap_moved {nH k n m : Nat} (H : Matrix (Fin nH) (Fin nH) ℝ)
    (J : Matrix (Fin k) (Fin nH) ℝ) (e : Fin k → ℝ) (priorA c : Fin m → ℝ) (prior p p' : Fin n → ℝ)
    (h : prior * p' = prior * p) :
    solveAllMap H J e priorA c prior p' = solveAllMap H J e priorA c prior p := by
  unfold solveAllMap
  split
  · split
    · dsimp only
      rw [mapStep_moved _ _ _ _ _ _ (by funext i; exact congrFun (append_moved rfl h) _)]
    · rfl
  · split
    · dsimp only
      rw [mapStep_moved _ _ _ _ _ _ (by funext i; exact congrFun (append_moved rfl (append_moved h h)) _)]
    · rfl

/-! ### The AAM algorithms -/

/-- The two pictures, shapes and parameters correspond. -/
structure Corresponds {P : Type} (setTarget : S → P) (target : P → S) (warp : Im → P → Except PyErr W)
    (dist : S → S → E) (f : S → S) (g : P → P) (im im' : Im) : Prop where
  setTarget : ∀ s, setTarget (f s) = g (setTarget s)
  target : ∀ p, target (g p) = f (target p)
  warp : ∀ p, warp im' (g p) = warp im p
  dist : ∀ s s', dist (f s) (f s') = dist s s'

theorem aam_moved [LinearOrder E] (z : Aam.Setup n a m ℝ S Im W E) (f : S → S) (τ : Fin n → ℝ) (im im' : Im)
    (hz : Corresponds z.setTarget z.target z.warp z.dist f (· + τ) im im') (alg : Aam.Alg)
    (inverse map : Bool) (hmap : map = true → z.priorS * τ = 0) (maxIters : Int) (tol : E) (costs : Bool)
    (init : S) :
    Aam.run z alg inverse map maxIters tol costs im' (f init) =
      (Aam.run z alg inverse map maxIters tol costs im init).map
        (mapTrace f fun v => (v.1 + τ, v.2)) := by
  have key : ∀ s s' : Aam.St n a m ℝ W, s' = ⟨s.p + τ, s.c, s.i, s.Jdp⟩ →
      (Aam.step z alg inverse map im' s').2 = (Aam.step z alg inverse map im s).2 ∧
      ∀ e, (Aam.step z alg inverse map im s).2 = .ok e →
        (Aam.step z alg inverse map im' s').1 =
          ⟨(Aam.step z alg inverse map im s).1.p + τ, (Aam.step z alg inverse map im s).1.c,
            (Aam.step z alg inverse map im s).1.i, (Aam.step z alg inverse map im s).1.Jdp⟩ := by
    intro s s' hs
    have hc : s'.c = s.c := by rw [hs]
    have hi : s'.i = s.i := by rw [hs]
    have hj : s'.Jdp = s.Jdp := by rw [hs]
    have hp : s'.p = s.p + τ := by rw [hs]
    have hjac : Aam.jacobian z inverse s' = Aam.jacobian z inverse s := by
      unfold Aam.jacobian; rw [hc, hi]
    have hpr : map = true → z.priorS * s'.p = z.priorS * s.p := by
      intro h; rw [hp, mul_add, hmap h, add_zero]
    have hadv : ∀ (J : Matrix (Fin m) (Fin n) ℝ) (dp : Fin n → ℝ) (c' : W → Fin a → ℝ),
        (Aam.advance z inverse im' s' J dp c').2 = (Aam.advance z inverse im s J dp c').2 ∧
        ∀ e, (Aam.advance z inverse im s J dp c').2 = .ok e →
          (Aam.advance z inverse im' s' J dp c').1 =
            ⟨(Aam.advance z inverse im s J dp c').1.p + τ, (Aam.advance z inverse im s J dp c').1.c,
             (Aam.advance z inverse im s J dp c').1.i, (Aam.advance z inverse im s J dp c').1.Jdp⟩ := by
      intro J dp c'
      have hu : Aam.updateWarp inverse s'.p dp = Aam.updateWarp inverse s.p dp + τ := by
        unfold Aam.updateWarp; rw [hp]; cases inverse <;> simp <;> abel
      unfold Aam.advance
      simp only [hu, hz.warp (Aam.updateWarp inverse s.p dp)]
      cases z.warp im (Aam.updateWarp inverse s.p dp) with
      | error e => exact ⟨rfl, fun e h => by simp at h⟩
      | ok i' =>
        simp only [hp, hz.target, hz.dist]
        exact ⟨trivial, fun _ _ => trivial⟩
    cases alg
    · simp only [Aam.step, Aam.simStep, hjac, hc, hi]
      have hr : (if map = true then
            (solveAllMap ((Aam.simJacobian z.A (Aam.jacobian z inverse s))ᵀ *
              Aam.simJacobian z.A (Aam.jacobian z inverse s)) (Aam.simJacobian z.A (Aam.jacobian z inverse s))
              (z.mask s.i - Aam.appearance z s.c) z.priorA s.c z.priorS s'.p)
          else .error .valueError) = (if map = true then
            (solveAllMap ((Aam.simJacobian z.A (Aam.jacobian z inverse s))ᵀ *
              Aam.simJacobian z.A (Aam.jacobian z inverse s)) (Aam.simJacobian z.A (Aam.jacobian z inverse s))
              (z.mask s.i - Aam.appearance z s.c) z.priorA s.c z.priorS s.p)
          else .error .valueError) := by
        cases hm : map with
        | false => rfl
        | true => simp only [if_true]; exact solveAllMap_moved _ _ _ _ _ _ _ _ (hpr hm)
      cases hm : map with
      | false =>
        simp only [Bool.false_eq_true, if_false]
        split
        · exact ⟨rfl, fun e h => by cases h⟩
        · exact hadv _ _ _
      | true =>
        simp only [hm, if_true] at hr
        simp only [if_true, hr]
        generalize solveAllMap _ _ _ _ _ _ s.p = r
        cases r with
        | error e => exact ⟨rfl, fun e h => by cases h⟩
        | ok v => exact hadv _ _ _
    · have h1 : Aam.altAppearance z map s' = Aam.altAppearance z map s := by
        unfold Aam.altAppearance; rw [hc, hi, hj]
      have h2 : ∀ dc, Aam.altShape z inverse map s' dc = Aam.altShape z inverse map s dc := by
        intro dc
        unfold Aam.altShape
        simp only [hc, hi, hjac]
        cases hm : map with
        | false => rfl
        | true =>
          simp only [if_true]
          congr 1; funext Adc; congr 1; funext r
          rw [solveShapeMap_moved _ _ _ _ _ _ (hpr hm)]
      simp only [Aam.step, Aam.altStep, h1, h2, hjac, hc]
      split
      · exact ⟨rfl, fun e h => by cases h⟩
      · split
        · exact ⟨rfl, fun e h => by cases h⟩
        · exact hadv _ _ _
    · simp only [Aam.step, Aam.modStep, hjac, hc, hi]
      cases hm : map with
      | false =>
        simp only [Bool.false_eq_true, if_false]
        split
        · exact ⟨rfl, fun e h => by cases h⟩
        · exact hadv _ _ _
      | true =>
        simp only [if_true, solveShapeMap_moved _ _ _ _ _ _ (hpr hm)]
        split
        · exact ⟨rfl, fun e h => by cases h⟩
        · exact hadv _ _ _
    · simp only [Aam.step, Aam.wibStep, hjac, hc, hi]
      cases hm : map with
      | false =>
        simp only [Bool.false_eq_true, if_false]
        split
        · exact ⟨rfl, fun e h => by cases h⟩
        · exact hadv _ _ _
      | true =>
        simp only [if_true, solveShapeMap_moved _ _ _ _ _ _ (hpr hm)]
        split
        · exact ⟨rfl, fun e h => by cases h⟩
        · exact hadv _ _ _
  unfold Aam.run
  simp only [hz.setTarget, hz.warp]
  cases z.warp im (z.setTarget init) with
  | error e => rfl
  | ok i =>
    simp only
    refine run_moved (Aam.machine z alg inverse map im) (Aam.machine z alg inverse map im') f _
      (fun s s' => s' = ⟨s.p + τ, s.c, s.i, s.Jdp⟩) maxIters tol ?_ ?_ ?_ ?_ costs _ _ rfl
    · rintro s t rfl; exact hz.target _
    · rintro s t rfl; rfl
    · rintro s t rfl; cases alg <;> rfl
    · intro s t h; exact key s t h

/-! ### The project-out and template algorithms -/

theorem po_moved [LinearOrder E] (env : GN.Env n m ℝ S Im W E) (f : S → S) (τ : Fin n → ℝ)
    (inverse : Bool) (tol : E) (cache : Cache n m ℝ) (x x' : Input S Im E)
    (hz : Corresponds env.setTarget env.target env.warp env.dist f (· + τ) x.im x'.im)
    (hx : x' = { x with im := x'.im, init := f x.init })
    (hmap : x.map = true → env.prior * τ = 0) :
    (poRun env inverse tol cache x').2 = (poRun env inverse tol cache x).2.map (mapTrace f (· + τ)) := by
  have hinit : x'.init = f x.init := by rw [hx]
  have hm' : x'.map = x.map := by rw [hx]
  have hmi : x'.maxIters = x.maxIters := by rw [hx]
  have hco : x'.costs = x.costs := by rw [hx]
  have key : ∀ s s' : PState n m ℝ W, s' = ⟨s.cache, s.p + τ, s.i⟩ →
      (poStep env inverse x.map x'.im s').2 = (poStep env inverse x.map x.im s).2 ∧
      ∀ e, (poStep env inverse x.map x.im s).2 = .ok e →
        (poStep env inverse x.map x'.im s').1 =
          ⟨(poStep env inverse x.map x.im s).1.cache, (poStep env inverse x.map x.im s).1.p + τ,
            (poStep env inverse x.map x.im s).1.i⟩ := by
    intro s s' hs
    have hc : s'.cache = s.cache := by rw [hs]
    have hi : s'.i = s.i := by rw [hs]
    have hp : s'.p = s.p + τ := by rw [hs]
    have hpr : x.map = true → env.prior * s'.p = env.prior * s.p := by
      intro h; rw [hp, mul_add, hmap h, add_zero]
    have hsol : (if inverse then solveInverse env x.map s' else (s'.cache, solveForward env x.map s')) =
        (if inverse then solveInverse env x.map s else (s.cache, solveForward env x.map s)) := by
      cases hm : x.map with
      | false => cases inverse <;> simp [solveInverse, solveForward, hc, hi]
      | true =>
        cases inverse <;> simp only [solveInverse, solveForward, hc, hi, if_true, Bool.false_eq_true, if_false,
          solveShapeMap_moved _ _ _ _ _ _ (hpr hm)]
    unfold poStep
    simp only [hsol]
    cases (if inverse then solveInverse env x.map s else (s.cache, solveForward env x.map s)).2 with
    | error e => exact ⟨rfl, fun e h => by cases h⟩
    | ok dp =>
      simp only
      have hu : (if inverse then s'.p - dp else s'.p + dp) = (if inverse then s.p - dp else s.p + dp) + τ := by
        rw [hp]; cases inverse <;> simp <;> abel
      simp only [hu, hz.warp (if inverse then s.p - dp else s.p + dp)]
      cases env.warp x.im (if inverse then s.p - dp else s.p + dp) with
      | error e => exact ⟨rfl, fun e h => by simp at h⟩
      | ok i' =>
        simp only [hp, hz.target, hz.dist]
        exact ⟨trivial, fun _ _ => trivial⟩
  unfold poRun
  simp only [hinit, hz.setTarget, hz.warp]
  cases env.warp x.im (env.setTarget x.init) with
  | error e => rfl
  | ok i =>
    simp only [hm', hmi, hco]
    refine run_moved (poMachine env inverse x.map x.im) (poMachine env inverse x.map x'.im) f _
      (fun s s' => s' = ⟨s.cache, s.p + τ, s.i⟩) x.maxIters tol ?_ ?_ ?_ ?_ x.costs _ _ rfl
    · rintro s t rfl; exact hz.target _
    · rintro s t rfl; rfl
    · rintro s t rfl; rfl
    · intro s t h; exact key s t h

end

/-! ### Landmark targets -/

open Clm Stats

theorem probMap_ok {h w : Nat} {maps out : List (List ℝ)} (hl : ∀ m ∈ maps, m.length = h * w)
    (ho : probabilityMap h w maps = .ok out) :
    out.length = maps.length ∧
      ∀ o ∈ out, o.length = h * w ∧ (∀ v ∈ o, 0 ≤ v) ∧ ∃ v ∈ o, 0 < v := by
  have good : ∀ m ∈ maps, 0 < (m.map (· - npMin m)).sum →
      ((m.map (· - npMin m)).map (· / (m.map (· - npMin m)).sum)).length = h * w ∧
      (∀ v ∈ (m.map (· - npMin m)).map (· / (m.map (· - npMin m)).sum), 0 ≤ v) ∧
      ∃ v ∈ (m.map (· - npMin m)).map (· / (m.map (· - npMin m)).sum), 0 < v := by
    intro m hm hp
    obtain ⟨t, ht⟩ : ∃ t, t = (m.map (· - npMin m)).sum := ⟨_, rfl⟩
    rw [← ht] at hp ⊢
    refine ⟨by simp [hl m hm], ?_, ?_⟩
    · intro v hv
      obtain ⟨y, hy, rfl⟩ := List.mem_map.1 hv
      obtain ⟨z, hz, rfl⟩ := List.mem_map.1 hy
      exact div_nonneg (sub_nonneg.2 (npMin_le hz)) hp.le
    · by_contra hc
      push Not at hc
      have : t ≤ 0 := by
        have h2 : (((m.map (· - npMin m)).map (· / t)).sum) ≤ 0 :=
          by
            have gen : ∀ l : List ℝ, (∀ v ∈ l, v ≤ 0) → l.sum ≤ 0 := by
              intro l
              induction l with
              | nil => simp
              | cons v l ih =>
                intro h
                rw [List.sum_cons]
                have := ih fun x hx => h x (by simp [hx])
                have := h v (by simp)
                linarith
            exact gen _ hc
        rw [sum_div_list, ← ht, div_self hp.ne'] at h2
        linarith
      linarith
  unfold probabilityMap at ho
  split at ho
  · cases ho
  · next h0 =>
    simp only at ho
    split at ho
    · next hall =>
      injection ho with ho; subst ho
      refine ⟨by simp, ?_⟩
      intro o hmem
      obtain ⟨x, hx, rfl⟩ := List.mem_map.1 hmem
      obtain ⟨m, hm, rfl⟩ := List.mem_map.1 hx
      rw [List.all_eq_true] at hall
      exact good m hm (by simpa using hall _ hx)
    · split at ho
      · next hh =>
        injection ho with ho; subst ho
        refine ⟨by simp, ?_⟩
        intro o hmem
        obtain ⟨x, hx, rfl⟩ := List.mem_map.1 hmem
        obtain ⟨m, hm, rfl⟩ := List.mem_map.1 hx
        split
        · next hp => exact good m hm hp
        · have hlm := hl m hm
          rw [hh.1, hh.2] at hlm ⊢
          cases m with
          | nil => simp at hlm
          | cons v m => exact ⟨by simpa using hlm, by simp, 1 / 2, by simp, by norm_num⟩
      · cases ho

theorem weightedMean_moved (ws : List ℝ) (cs : List (ℝ × ℝ)) (u v : ℝ) (hl : ws.length = cs.length)
    (hs : ws.sum ≠ 0) :
    weightedMean ws (cs.map fun c => (c.1 + u, c.2 + v)) =
      ((weightedMean ws cs).1 + u, (weightedMean ws cs).2 + v) := by
  have key : ∀ (f : ℝ × ℝ → ℝ) (x : ℝ) (ks : List ℝ) (cs : List (ℝ × ℝ)), ks.length = cs.length →
      (List.zipWith (fun k c => k * (f c + x)) ks cs).sum =
        (List.zipWith (fun k c => k * f c) ks cs).sum + ks.sum * x := by
    intro f x ks
    induction ks with
    | nil => intro cs _; simp
    | cons k ks ih =>
      intro cs hl
      cases cs with
      | nil => simp at hl
      | cons c cs => simp only [List.zipWith_cons_cons, List.sum_cons, ih cs (by simpa using hl)]; ring
  have one : (ws.map (· / ws.sum)).sum = 1 := by rw [sum_div_list, div_self hs]
  unfold weightedMean
  simp only [List.zipWith_map_right]
  rw [key Prod.fst u _ _ (by simpa using hl), key Prod.snd v _ _ (by simpa using hl), one]
  simp

theorem candidates_moved (h w : Nat) (pt : ℝ × ℝ) (u v : ℝ) :
    candidates h w (pt.1 + u, pt.2 + v) = (candidates h w pt).map fun c => (c.1 + u, c.2 + v) := by
  unfold candidates
  rw [List.map_map]
  apply List.map_congr_left
  intro g _
  simp only [Function.comp, Prod.mk.injEq]
  constructor <;> ring

theorem rlmsError_moved {h w : Nat} {c : ℝ} (hc : 0 < c) {r : List ℝ} (hl : r.length = h * w)
    (h0 : ∀ v ∈ r, 0 ≤ v) (hp : ∃ v ∈ r, 0 < v) (pt : ℝ × ℝ) (u v : ℝ) :
    rlmsError h w c (pt.1 + u, pt.2 + v) r = rlmsError h w c pt r := by
  unfold rlmsError rlmsTarget
  rw [candidates_moved, weightedMean_moved _ _ _ _ (by simp [candidates, offsets_length, hl])]
  · simp
  · apply ne_of_gt
    obtain ⟨x, hx, hx0⟩ := hp
    obtain ⟨k, hk, rfl⟩ := List.mem_iff_getElem.1 hx
    have hk' : k < (List.zipWith (· * ·) r
        ((offsets h w).map fun g => gauss c ((g.1 : ℝ), (g.2 : ℝ)))).length := by
      simp [offsets_length, hl]; rw [hl] at hk; exact hk
    refine list_sum_pos ?_ (List.getElem_mem hk') ?_
    · intro y hy
      obtain ⟨j, hj, rfl⟩ := List.mem_iff_getElem.1 hy
      rw [List.getElem_zipWith, List.getElem_map]
      exact mul_nonneg (h0 _ (List.getElem_mem _)) (gauss_pos hc _).le
    · rw [List.getElem_zipWith, List.getElem_map]
      exact mul_pos hx0 (gauss_pos hc _)

theorem asmError_moved {h w : Nat} {c : ℝ} (hc : 0 < c) {r : List ℝ} (hl : r.length = h * w)
    (hp : ∃ v ∈ r, 0 < v) (pt : ℝ × ℝ) (u v : ℝ) :
    asmError h w c (pt.1 + u, pt.2 + v) r = asmError h w c pt r := by
  have hne : h * w ≠ 0 := by
    intro e
    rw [e] at hl
    obtain ⟨x, hx, -⟩ := hp
    rw [List.length_eq_zero_iff.1 hl] at hx
    cases hx
  have hh : 0 < h := Nat.pos_of_ne_zero fun e => hne (by rw [e, zero_mul])
  have hw : 0 < w := Nat.pos_of_ne_zero fun e => hne (by rw [e, mul_zero])
  unfold asmError
  obtain ⟨e1, e2⟩ := asmTarget_eq hc hh hw pt r
  obtain ⟨e3, e4⟩ := asmTarget_eq hc hh hw (pt.1 + u, pt.2 + v) r
  simp only [e1, e2, e3, e4]
  simp

/-! ### Constrained local models and unified models -/

variable {N k a m : Nat} {Im W : Type}

/-- The two pictures, shapes and parameters correspond for a constrained local model. -/
structure ClmCorresponds (env : ClmRun.Env N k Im) (t : Fin 2 → ℝ) (τ : Fin k → ℝ) (im im' : Im) : Prop where
  setTarget : ∀ s, env.setTarget (movedShape t s) = env.setTarget s + τ
  shape : ∀ p, env.shape (p + τ) = movedShape t (env.shape p)
  respond : ∀ s, env.respond im' (movedShape t s) = env.respond im s
  maps : ∀ s r, env.respond im s = .ok r →
    ∀ i, (r i).length = env.h * env.w ∧ (∀ v ∈ r i, 0 ≤ v) ∧ ∃ v ∈ r i, 0 < v
  cov : 0 < env.c
  prior : env.prior * τ = 0

theorem landmarks_moved (t : Fin 2 → ℝ) (s : Pts N 2) (i : Fin N) :
    landmarks (movedShape t s) i = ((landmarks s i).1 + t 0, (landmarks s i).2 + t 1) := rfl

theorem clmMapStep_moved {n k : Nat} (J : Matrix (Fin n) (Fin k) ℝ) (prior : Fin k → ℝ) (e : Fin n → ℝ)
    (p p' : Fin k → ℝ) (h : prior * p' = prior * p) :
    clmMapStep J prior e p' = clmMapStep J prior e p := by
  unfold clmMapStep; rw [h]

theorem update_moved {env : ClmRun.Env N k Im} {t : Fin 2 → ℝ} {τ : Fin k → ℝ} {im im' : Im}
    (h : ClmCorresponds env t τ im im') (alg : ClmRun.Alg) (map : Bool) (p : Fin k → ℝ) :
    update env alg map im' (p + τ) = (update env alg map im p).map (· + τ) := by
  have hpr : env.prior * (p + τ) = env.prior * p := by rw [mul_add, h.prior, add_zero]
  cases alg with
  | activeShape =>
    simp only [update, asmStep, h.shape, h.respond]
    cases hr : env.respond im (env.shape p) with
    | error e => rfl
    | ok r =>
      have he : (ravel fun i => asmError env.h env.w env.c (landmarks (movedShape t (env.shape p)) i) (r i)) =
          ravel fun i => asmError env.h env.w env.c (landmarks (env.shape p) i) (r i) := by
        congr 1; funext i
        obtain ⟨h1, -, h3⟩ := h.maps _ _ hr i
        rw [landmarks_moved, asmError_moved h.cov h1 h3]
      simp only [bind, Except.bind, he, clmMapStep_moved _ _ _ _ _ hpr]
      cases map with
      | true =>
        simp only [if_true]
        generalize clmMapStep _ _ _ p = d
        cases d with
        | error e => rfl
        | ok dp => simp only [pure, Except.pure, Except.map, add_right_comm]
      | false =>
        simp only [Bool.false_eq_true, if_false]
        generalize clmMlStep env.J _ = d
        cases d with
        | error e => rfl
        | ok dp => simp only [pure, Except.pure, Except.map, add_right_comm]
  | meanShift =>
    simp only [update, h.shape, h.respond]
    cases hr : env.respond im (env.shape p) with
    | error e => rfl
    | ok r =>
      have he : (ravel fun i => rlmsError env.h env.w env.c (landmarks (movedShape t (env.shape p)) i) (r i)) =
          ravel fun i => rlmsError env.h env.w env.c (landmarks (env.shape p) i) (r i) := by
        congr 1; funext i
        obtain ⟨h1, h2, h3⟩ := h.maps _ _ hr i
        rw [landmarks_moved, rlmsError_moved h.cov h1 h2 h3]
      simp only [bind, Except.bind, he, clmMapStep_moved _ _ _ _ _ hpr]
      cases map with
      | true =>
        simp only [if_true]
        generalize clmMapStep _ _ _ p = d
        cases d with
        | error e => rfl
        | ok dp => simp only [pure, Except.pure, Except.map, add_right_comm]
      | false =>
        simp only [Bool.false_eq_true, if_false]
        generalize clmMlStep env.J _ = d
        cases d with
        | error e => rfl
        | ok dp => simp only [pure, Except.pure, Except.map, add_right_comm]

theorem clm_moved {env : ClmRun.Env N k Im} {t : Fin 2 → ℝ} {τ : Fin k → ℝ} {im im' : Im}
    (h : ClmCorresponds env t τ im im') (alg : ClmRun.Alg) (map : Bool) (maxIters : Int) (tol : ℝ)
    (init : Pts N 2) :
    ClmRun.run env alg map maxIters tol im' (movedShape t init) =
      (ClmRun.run env alg map maxIters tol im init).map (mapTrace (movedShape t) (· + τ)) := by
  unfold ClmRun.run
  rw [h.setTarget]
  refine run_moved (ClmRun.machine env alg map im) (ClmRun.machine env alg map im') (movedShape t) (· + τ)
    (fun s s' => s' = s + τ) maxIters tol ?_ ?_ ?_ ?_ false _ _ rfl
  · rintro s _ rfl; exact h.shape _
  · rintro s _ rfl; rfl
  · rintro s _ rfl; rfl
  · rintro s _ rfl
    simp only [ClmRun.machine, update_moved h]
    cases update env alg map im s with
    | error e => exact ⟨rfl, fun e h => by cases h⟩
    | ok p' =>
      simp only [Except.map, h.shape, distance_moved]
      exact ⟨trivial, fun _ _ => trivial⟩

theorem look_moved {env : ClmRun.UEnv N k a m Im W} {t : Fin 2 → ℝ} {τ : Fin k → ℝ} {im im' : Im}
    (h : ClmCorresponds env.toEnv t τ im im')
    (hw : ∀ s, env.warp im' (movedShape t s) = env.warp im s) (p : Fin k → ℝ) :
    look env im' (p + τ) = (look env im p).map fun s => { s with p := s.p + τ } := by
  unfold look clmError
  simp only [h.shape, hw, h.respond]
  cases env.warp im (env.shape p) with
  | error e => rfl
  | ok i =>
    simp only [bind, Except.bind]
    cases hr : env.respond im (env.shape p) with
    | error e => rfl
    | ok r =>
      simp only [pure, Except.pure, Except.map]
      congr 2
      congr 1; funext i
      obtain ⟨h1, h2, h3⟩ := h.maps _ _ hr i
      rw [landmarks_moved, rlmsError_moved h.cov h1 h2 h3]

theorem unified_moved {env : ClmRun.UEnv N k a m Im W} {t : Fin 2 → ℝ} {τ : Fin k → ℝ} {im im' : Im}
    (h : ClmCorresponds env.toEnv t τ im im')
    (hw : ∀ s, env.warp im' (movedShape t s) = env.warp im s) (alg : ClmRun.UAlg) (prior : Bool) (α : ℝ)
    (maxIters : Int) (tol : ℝ) (costs : Bool) (init : Pts N 2) :
    ClmRun.uRun env alg prior α maxIters tol costs im' (movedShape t init) =
      (ClmRun.uRun env alg prior α maxIters tol costs im init).map
        (mapTrace (movedShape t) fun v => (v.1 + τ, v.2)) := by
  unfold ClmRun.uRun
  rw [h.setTarget, look_moved h hw]
  cases look env im (env.setTarget init) with
  | error e => rfl
  | ok s =>
    simp only [Except.map, bind, Except.bind]
    refine run_moved (ClmRun.uMachine env alg prior α im) (ClmRun.uMachine env alg prior α im') (movedShape t) _
      (fun s s' => s' = { s with p := s.p + τ }) maxIters tol ?_ ?_ ?_ ?_ costs _ _ rfl
    · rintro s _ rfl; exact h.shape _
    · rintro s _ rfl; rfl
    · rintro s _ rfl; cases alg <;> rfl
    · rintro s _ rfl
      have hpr : env.prior * (s.p + τ) = env.prior * s.p := by rw [mul_add, h.prior, add_zero]
      have hinc : increment env alg prior α { s with p := s.p + τ } = increment env alg prior α s := by
        cases alg with
        | projectOut =>
          simp only [increment, Unified.projectOutStep, hpr]
          rfl
        | alternating =>
          simp only [increment, Unified.alternatingStep, hpr]
          rfl
      simp only [ClmRun.uMachine, hinc]
      cases increment env alg prior α s with
      | error e => exact ⟨rfl, fun e h => by cases h⟩
      | ok dp =>
        simp only [add_right_comm s.p τ dp, look_moved h hw]
        cases look env im (s.p + dp) with
        | error e => exact ⟨rfl, fun e h => by cases h⟩
        | ok s' =>
          simp only [Except.map, h.shape, distance_moved]
          exact ⟨trivial, fun _ _ => trivial⟩

end Place
end Menpofit
