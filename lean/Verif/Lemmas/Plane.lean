import Verif.Model.Plane
import Verif.Spec.Plane
import Verif.Lemmas.Placement
import Verif.Spec.Fitter
/-!
# Lemmas: whole fits of pictures of the plane
-/

namespace Menpofit
namespace Plane
open MI Warp Fitter Matrix Spec

variable {N : Nat} {C F V K : Type}

/-- The homogeneous matrix of a zoom. -/
def zoomH (m : ℝ) (o : Fin 2 → ℝ) : Matrix (Fin 3) (Fin 3) ℝ := !![m, 0, o 0; 0, m, o 1; 0, 0, 1]

/-- The homogeneous matrix of the inverse of a zoom. -/
noncomputable def unzoomH (m : ℝ) (o : Fin 2 → ℝ) : Matrix (Fin 3) (Fin 3) ℝ :=
  !![m⁻¹, 0, -(m⁻¹ * o 0); 0, m⁻¹, -(m⁻¹ * o 1); 0, 0, 1]

theorem hPoints_zoom (m : ℝ) (o : Fin 2 → ℝ) (s : Pts N 2) :
    hPoints (zoomedShape m o s) = zoomH m o * hPoints s := by
  ext r i
  fin_cases r <;> simp [hPoints, zoomedShape, zoomH, Matrix.mul_apply, Fin.sum_univ_three]

theorem zoomH_det (m : ℝ) (o : Fin 2 → ℝ) : (zoomH m o).det = m ^ 2 := by
  simp [zoomH, Matrix.det_fin_three]
  ring

theorem unzoom_mul {m : ℝ} (hm : m ≠ 0) (o : Fin 2 → ℝ) : unzoomH m o * zoomH m o = 1 := by
  ext r i
  fin_cases r <;> fin_cases i <;>
    simp [unzoomH, zoomH, Matrix.mul_apply, Fin.sum_univ_three, hm]

/-- The determinant that decides whether the points are on a line. -/
noncomputable def gram (s : Pts N 2) : ℝ := (hPoints s * (hPoints s)ᵀ).det

theorem gram_zoom (m : ℝ) (o : Fin 2 → ℝ) (s : Pts N 2) : gram (zoomedShape m o s) = m ^ 4 * gram s := by
  unfold gram
  rw [hPoints_zoom, transpose_mul, Matrix.mul_assoc, ← Matrix.mul_assoc (hPoints s), det_mul, det_mul,
    det_transpose, zoomH_det]
  ring

theorem alignH_zoom {m : ℝ} (hm : m ≠ 0) (o : Fin 2 → ℝ) (s : Pts N 2) :
    alignH (zoomedShape m o s) s = if gram s = 0 then .error .linAlgError else .ok (unzoomH m o) := by
  unfold alignH GN.npSolveMat
  simp only
  have hg : (hPoints (zoomedShape m o s) * (hPoints (zoomedShape m o s))ᵀ).det = m ^ 4 * gram s :=
    gram_zoom m o s
  by_cases h : gram s = 0
  · rw [if_pos (by rw [hg, h, mul_zero]), if_pos h]
    rfl
  · have hd : (hPoints (zoomedShape m o s) * (hPoints (zoomedShape m o s))ᵀ).det ≠ 0 := by
      rw [hg]; exact mul_ne_zero (pow_ne_zero _ hm) h
    rw [if_neg hd, if_neg h]
    simp only [bind, Except.bind, pure, Except.pure]
    congr 1
    have e : hPoints (zoomedShape m o s) * (hPoints s)ᵀ =
        (hPoints (zoomedShape m o s) * (hPoints (zoomedShape m o s))ᵀ) * (unzoomH m o)ᵀ := by
      have : (hPoints s)ᵀ = (hPoints (zoomedShape m o s))ᵀ * (unzoomH m o)ᵀ := by
        rw [hPoints_zoom, ← transpose_mul, ← Matrix.mul_assoc, unzoom_mul hm, Matrix.one_mul]
      rw [this, Matrix.mul_assoc]
    rw [e, ← Matrix.mul_assoc, Matrix.nonsing_inv_mul _ (isUnit_iff_ne_zero.mpr hd), Matrix.one_mul,
      transpose_transpose]

theorem align_zoom (fe : Features F C) (reference : Pts N 2) {m : ℝ} (hm : m ≠ 0) (o : Fin 2 → ℝ)
    (s : Pts N 2) :
    (gram s = 0 ∧ (ext fe reference).align (zoomedShape m o s) s = .error .linAlgError) ∨
    (gram s ≠ 0 ∧ ∃ a, (ext fe reference).align (zoomedShape m o s) s = .ok a ∧
      ∀ y, a.symm y = zoomedShape m o y) := by
  by_cases h : gram s = 0
  · left
    refine ⟨h, ?_⟩
    show (do let x ← alignH _ _; affinePerm x : Except PyErr _) = _
    rw [alignH_zoom hm, if_pos h]
    rfl
  · right
    have hd : ¬ (unzoomH m o 0 0 * unzoomH m o 1 1 - unzoomH m o 0 1 * unzoomH m o 1 0 = 0) := by
      simp [unzoomH, hm]
    obtain ⟨a, ha⟩ : ∃ a : Equiv.Perm (Pts N 2), affinePerm (unzoomH m o) = .ok a := by
      unfold affinePerm
      rw [dif_neg hd]
      exact ⟨_, rfl⟩
    refine ⟨h, a, ?_, ?_⟩
    · show (do let x ← alignH _ _; affinePerm x : Except PyErr _) = _
      rw [alignH_zoom hm, if_neg h]
      exact ha
    · intro y
      unfold affinePerm at ha
      rw [dif_neg hd] at ha
      injection ha with ha
      subst ha
      funext ⟨i, j⟩
      match j with
      | 0 => simp [unzoomH, zoomedShape]; field_simp
      | 1 => simp [unzoomH, zoomedShape]; field_simp

/-! ### Both return -/

theorem both_bind {α β α' β' : Type} {R : α → α' → Prop} {Q : β → β' → Prop} {x : Except PyErr α}
    {x' : Except PyErr α'} {f : α → Except PyErr β} {f' : α' → Except PyErr β'} (h : BothReturn R x x')
    (hf : ∀ a a', R a a' → BothReturn Q (f a) (f' a')) : BothReturn Q (x >>= f) (x' >>= f') := by
  cases x <;> cases x' <;> simp only [BothReturn] at h
  · exact h
  · exact hf _ _ h

theorem both_refl {α : Type} {R : α → α → Prop} (hR : ∀ a, R a a) (x : Except PyErr α) : BothReturn R x x := by
  cases x with
  | error e => rfl
  | ok a => exact hR a

theorem both_mono {α β : Type} {R Q : α → β → Prop} (hRQ : ∀ a b, R a b → Q a b) {x : Except PyErr α}
    {y : Except PyErr β} (h : BothReturn R x y) : BothReturn Q x y := by
  cases x <;> cases y <;> simp only [BothReturn] at h ⊢
  · exact h
  · exact hRQ _ _ h

/-! ### Preparing the image -/

theorem zoomed_one (u : Fin 2 → ℝ) : (zoomedShape 1 u : Pts N 2 → Pts N 2) = movedShape u := by
  funext s ij
  simp [zoomedShape, movedShape]

theorem resize_zoomed {c : ℝ} (hc : 0 < c) {k : ℝ} (hk : 0 < k) {u : Fin 2 → ℝ} {im im' : Pic N C}
    (h : ZoomedImage k u im im') : ZoomedImage 1 ((c / k) • u) (resize c im) (resize (c / k) im') := by
  refine ⟨fun x => ?_, fun g => ?_⟩
  · simp only [resize]
    rw [← h.pixels]
    have e : k * c⁻¹ * (c / k) = 1 := by field_simp
    rw [one_smul, smul_add, smul_smul, WithLp.toLp_smul, smul_smul, inv_div, div_eq_mul_inv, e, one_smul]
  · simp only [resize, h.landmarks, Option.map_map]
    congr 1
    funext s ij
    simp only [Function.comp, Pi.smul_apply, smul_eq_mul, zoomedShape]
    field_simp

/-- What the fitter has of one scale of a picture, and of the zoomed picture. -/
structure Lev (N : Nat) (C F : Type) where
  f : F
  sc : Rat
  im : Pic N C
  im' : Pic N C
  a : Equiv.Perm (Pts N 2)
  a' : Equiv.Perm (Pts N 2)
  s : Equiv.Perm (Pts N 2)

variable (fe : Features F C) (m m' : ℝ) (t : Fin 2 → ℝ)

/-- The vector the picture of feature `f` is moved by. -/
def vec (f : F) : Fin 2 → ℝ := (fe.step f * m') • t

structure Step (f : F) (x x' : Pic N C × Equiv.Perm (Pts N 2)) : Prop where
  img : ZoomedImage 1 (vec fe m' t f) x.1 x'.1
  aff : ∀ y, x.2.symm y = zoomedShape (fe.step f * m) (fe.off f) y
  aff' : ∀ y, x'.2.symm y = zoomedShape (fe.step f * m') (fe.off f) y

structure LevOk (l : Lev N C F) : Prop where
  pos : 0 < (l.sc : ℝ)
  img : ZoomedImage 1 ((l.sc : ℝ) • vec fe m' t l.f) l.im l.im'
  aff : ∀ y, l.a.symm y = zoomedShape (fe.step l.f * m) (fe.off l.f) y
  aff' : ∀ y, l.a'.symm y = zoomedShape (fe.step l.f * m') (fe.off l.f) y
  scl : ∀ y, l.s.symm y = (l.sc : ℝ) • y

variable {fe m m' t}

theorem fresh_step {k : ℝ} (hk : k ≠ 0) (hm : m = k * m') (hm0 : m' ≠ 0)
    (hf : FeaturesFollow fe.op fe.step) (hs : ∀ f, fe.step f ≠ 0) (reference init : Pts N 2) {tmp tmp' : Pic N C}
    (hi : tmp.lm "__initial_shape" = some (m • init))
    (hz : ZoomedImage 1 (m' • t) tmp tmp') (f : F) :
    BothReturn (Step fe m m' t f)
      (do
        let fi' ← (ext fe reference).feature f tmp
        let src ← getLm fi' "__initial_shape"
        let a ← (ext fe reference).align src init
        return (fi', a))
      (do
        let fi' ← (ext fe reference).feature f tmp'
        let src ← getLm fi' "__initial_shape"
        let a ← (ext fe reference).align src (zoomedShape k t init)
        return (fi', a)) := by
  have hop := hf f (WithLp.toLp 2 (m' • t)) tmp.px tmp'.px (fun x => by
    have := hz.pixels x
    rwa [one_smul] at this)
  simp only [ext]
  cases hp : fe.op f tmp.px with
  | error e =>
    rw [hp] at hop
    cases hp' : fe.op f tmp'.px with
    | error e' => rw [hp'] at hop; exact hop
    | ok q' => rw [hp'] at hop; exact hop.elim
  | ok q =>
    rw [hp] at hop
    cases hp' : fe.op f tmp'.px with
    | error e' => rw [hp'] at hop; exact hop.elim
    | ok q' =>
      rw [hp'] at hop
      simp only [BothReturn] at hop
      simp only [bind, Except.bind, pure, Except.pure, getLm, hz.landmarks, hi, Option.map_some]
      have e1 : (fun ij : Fin N × Fin 2 => fe.step f * (m • init) ij + fe.off f ij.2) =
          zoomedShape (fe.step f * m) (fe.off f) init := by
        funext ij
        simp only [zoomedShape, Pi.smul_apply, smul_eq_mul]
        ring
      have e2 : (fun ij : Fin N × Fin 2 => fe.step f * zoomedShape 1 (m' • t) (m • init) ij + fe.off f ij.2) =
          zoomedShape (fe.step f * m') (fe.off f) (zoomedShape k t init) := by
        funext ij
        simp only [zoomedShape, Pi.smul_apply, smul_eq_mul, hm]
        ring
      have hm1 : m ≠ 0 := by rw [hm]; exact mul_ne_zero hk hm0
      have A := align_zoom fe reference (mul_ne_zero (hs f) hm1) (fe.off f) init
      have A' := align_zoom fe reference (mul_ne_zero (hs f) hm0) (fe.off f) (zoomedShape k t init)
      rw [gram_zoom] at A'
      simp only [ext, bind, Except.bind] at A A'
      rw [e1, e2]
      rcases A with ⟨g, A⟩ | ⟨g, a, A, ha⟩
      · rcases A' with ⟨g', A'⟩ | ⟨g', a', A', ha'⟩
        · rw [A, A']; rfl
        · rw [g, mul_zero] at g'; exact (g' rfl).elim
      · rcases A' with ⟨g', A'⟩ | ⟨g', a', A', ha'⟩
        · exact ((mul_ne_zero (pow_ne_zero _ hk) g) g').elim
        · rw [A, A']
          refine ⟨⟨fun x => ?_, fun gr => ?_⟩, ha, ha'⟩
          · show q' _ = q x
            rw [one_smul, ← hop x]
            congr 2
            simp only [vec, mul_smul, WithLp.toLp_smul]
          · simp only [Option.map_map]
            congr 1
            funext s ij
            simp only [Function.comp, zoomedShape, vec, Pi.smul_apply, smul_eq_mul]
            ring

/-- A feature is repeated only if it is that of the first scale. -/
def FirstOnly (f0 : F) : Option F → List (F × Rat) → Prop
  | _, [] => True
  | p, x :: xs => (p = some x.1 → x.1 = f0) ∧ FirstOnly f0 (some x.1) xs

def ofLev (L : List (Lev N C F)) : Prep (Pts N 2) (P 2 → C) := ⟨L.map (·.im), L.map (·.a), L.map (·.s)⟩

def ofLev' (L : List (Lev N C F)) : Prep (Pts N 2) (P 2 → C) := ⟨L.map (·.im'), L.map (·.a'), L.map (·.s)⟩

theorem prepLoop_sim [DecidableEq F] {k : ℝ} (hk : k ≠ 0) (hm : m = k * m') (hm0 : m' ≠ 0)
    (hf : FeaturesFollow fe.op fe.step) (hs : ∀ f, fe.step f ≠ 0) (reference init : Pts N 2) {tmp tmp' : Pic N C}
    (hi : tmp.lm "__initial_shape" = some (m • init)) (hz : ZoomedImage 1 (m' • t) tmp tmp') (f0 : F) :
    ∀ (fs : List (F × Rat)) (prev prev' : Option (F × Pic N C)) (L : List (Lev N C F)),
      (∀ l ∈ L, LevOk fe m m' t l) → (∀ l ∈ L.head?, l.f = f0) → (L = [] → ∀ x ∈ fs.head?, x.1 = f0) →
      FirstOnly f0 (prev.map (·.1)) fs →
      ((prev = none ∧ prev' = none) ∨ ∃ f fi fi', L ≠ [] ∧ prev = some (f, fi) ∧ prev' = some (f, fi') ∧
        ZoomedImage 1 (vec fe m' t f) fi fi') →
      BothReturn (fun p p' => ∃ L' : List (Lev N C F), p = ofLev L' ∧ p' = ofLev' L' ∧
          (∀ l ∈ L', LevOk fe m m' t l) ∧ L'.map (fun l => (l.f, l.sc)) = L.map (fun l => (l.f, l.sc)) ++ fs)
        (prepLoop (ext fe reference) tmp init prev (ofLev L) fs)
        (prepLoop (ext fe reference) tmp' (zoomedShape k t init) prev' (ofLev' L) fs) := by
  intro fs
  induction fs with
  | nil =>
    intro prev prev' L hL _ _ _ _
    simp only [prepLoop, BothReturn]
    exact ⟨L, rfl, rfl, hL, by simp⟩
  | cons x fs ih =>
    obtain ⟨f, sc⟩ := x
    intro prev prev' L hL h0 h0' hfo hprev
    simp only [prepLoop]
    refine both_bind (R := Step fe m m' t f) ?_ ?_
    · rcases hprev with ⟨rfl, rfl⟩ | ⟨g, fi, fi', hne, rfl, rfl, hg⟩
      · exact fresh_step hk hm hm0 hf hs reference init hi hz f
      · by_cases hfg : f = g
        · subst hfg
          simp only [ne_eq, not_true_eq_false, if_false]
          have hff : f = f0 := hfo.1 rfl
          cases L with
          | nil => exact (hne rfl).elim
          | cons l ls =>
            have hl := hL l (by simp)
            have hlf : l.f = f0 := h0 l (by simp)
            simp only [ofLev, ofLev', List.map_cons, pure, Except.pure, BothReturn]
            refine ⟨hg, ?_, ?_⟩
            · intro y; have := hl.aff y; rwa [hlf, ← hff] at this
            · intro y; have := hl.aff' y; rwa [hlf, ← hff] at this
        · simp only [ne_eq, hfg, not_false_eq_true, if_true]
          exact fresh_step hk hm hm0 hf hs reference init hi hz f
    · rintro ⟨fi, a⟩ ⟨fi', a'⟩ ⟨himg, haff, haff'⟩
      refine both_bind (R := fun x x' => ∃ l : Lev N C F, LevOk fe m m' t l ∧ l.f = f ∧ l.sc = sc ∧ l.im = x.1 ∧
        l.im' = x'.1 ∧ l.a = a ∧ l.a' = a' ∧ l.s = x.2 ∧ l.s = x'.2) ?_ ?_
      · by_cases h1 : sc = 1
        · subst h1
          simp only [ne_eq, not_true_eq_false, if_false, BothReturn]
          refine ⟨⟨f, 1, fi, fi', a, a', 1⟩, ⟨by norm_num, ?_, haff, haff', ?_⟩, rfl, rfl, rfl, rfl, rfl, rfl, rfl, rfl⟩
          · simpa using himg
          · intro y
            show y = ((1 : ℚ) : ℝ) • y
            simp
        · simp only [ne_eq, h1, not_false_eq_true, if_true, ext]
          by_cases hc : 0 < (sc : ℝ)
          · simp only [hc, dif_pos, BothReturn]
            refine ⟨⟨f, sc, resize sc fi, resize sc fi', a, a', shrink sc hc.ne'⟩,
              ⟨hc, ?_, haff, haff', ?_⟩, rfl, rfl, rfl, rfl, rfl, rfl, rfl, rfl⟩
            · have := resize_zoomed hc one_pos himg
              simpa using this
            · intro y; rfl
          · simp only [hc, dif_neg, not_false_eq_true, BothReturn]
      · rintro ⟨si, s⟩ ⟨si', s'⟩ ⟨l, hl, hlf, hls, e1, e2, e3, e4, e5, e6⟩
        simp only at e1 e2 e5 e6 ⊢
        have E : (⟨(ofLev L).images ++ [si], (ofLev L).affine ++ [a], (ofLev L).scale ++ [s]⟩ :
            Prep (Pts N 2) (P 2 → C)) = ofLev (L ++ [l]) := by
          simp [ofLev, e1, e3, e5]
        have E' : (⟨(ofLev' L).images ++ [si'], (ofLev' L).affine ++ [a'], (ofLev' L).scale ++ [s']⟩ :
            Prep (Pts N 2) (P 2 → C)) = ofLev' (L ++ [l]) := by
          simp [ofLev', e2, e4, e6]
        rw [E, E']
        refine both_mono ?_ (ih (some (f, fi)) (some (f, fi')) (L ++ [l]) ?_ ?_ (by simp) hfo.2
          (.inr ⟨f, fi, fi', by simp, rfl, rfl, himg⟩))
        · rintro p p' ⟨L', h1, h2, h3, h4⟩
          exact ⟨L', h1, h2, h3, by rw [h4]; simp [hlf, hls]⟩
        · intro l' hl'
          rcases List.mem_append.1 hl' with h | h
          · exact hL _ h
          · rw [List.mem_singleton.1 h]; exact hl
        · intro l' hl'
          cases L with
          | nil =>
            simp at hl'
            rw [← hl', hlf]
            exact h0' rfl (f, sc) (by simp)
          | cons l0 ls =>
            apply h0
            simpa using hl'

theorem firstOnly_of {f0 : F} : ∀ (fs : List (F × Rat)) (p : Option F),
    (∀ x ∈ fs.head?, p = some x.1 → x.1 = f0) →
    (∀ (i : Nat) (x y : F × Rat), fs[i]? = some x → fs[i + 1]? = some y → x.1 = y.1 → x.1 = f0) →
    FirstOnly f0 p fs := by
  intro fs
  induction fs with
  | nil => intro p _ _; trivial
  | cons x fs ih =>
    intro p h1 h2
    refine ⟨h1 x (by simp), ih _ ?_ ?_⟩
    · intro y hy he
      have := h2 0 x y (by simp) (by simpa [List.head?_eq_getElem?] using hy) (Option.some.inj he)
      exact (Option.some.inj he) ▸ this
    · intro i a b ha hb he
      exact h2 (i + 1) a b (by simpa using ha) (by simpa using hb) he

theorem firstOnly_zip {features : List F} (hr : RepeatsOnlyFirst features) (scales : List Rat) (f0 : F)
    (h0 : ∀ x ∈ (features.zip scales).head?, x.1 = f0) : FirstOnly f0 none (features.zip scales) := by
  refine firstOnly_of _ _ (fun x _ h => by cases h) ?_
  have key : ∀ (i : Nat) (x : F × Rat), (features.zip scales)[i]? = some x → features[i]? = some x.1 := by
    intro i x hx
    rw [List.getElem?_zip_eq_some] at hx
    exact hx.1
  intro i x y hx hy he
  have h1 := hr i x.1 (key i x hx) (by rw [key (i + 1) y hy, he])
  cases hz : features.zip scales with
  | nil => rw [hz] at hx; simp at hx
  | cons z zs =>
    have h2 := h0 z (by rw [hz]; simp)
    have h3 := key 0 z (by rw [hz]; simp)
    rw [h1] at h3
    rw [Option.some.inj h3, h2]

theorem mapM_lev (g : String) : ∀ (L : List (Lev N C F)), (∀ l ∈ L, LevOk fe m m' t l) →
    BothReturn (fun v v' => v.length = L.length ∧
        v' = List.zipWith (fun l x => movedShape ((l.sc : ℝ) • vec fe m' t l.f) x) L v)
      ((L.map (·.im)).mapM fun i => getLm i g) ((L.map (·.im')).mapM fun i => getLm i g) := by
  intro L
  induction L with
  | nil => intro _; exact ⟨rfl, rfl⟩
  | cons l L ih =>
    intro h
    simp only [List.map_cons, List.mapM_cons]
    have hl := (h l (by simp)).img.landmarks g
    rw [zoomed_one] at hl
    refine both_bind (R := fun x x' => x' = movedShape ((l.sc : ℝ) • vec fe m' t l.f) x) ?_ ?_
    · unfold getLm
      rw [hl]
      cases l.im.lm g with
      | none => rfl
      | some s => rfl
    · rintro x x' rfl
      refine both_bind (ih fun l hl => h l (by simp [hl])) ?_
      rintro v v' ⟨h1, rfl⟩
      exact ⟨by simp [h1], by simp⟩

theorem norm_zoom (hN : 0 < N) {k : ℝ} (hk : 0 < k) (t : Fin 2 → ℝ) (s : Pts N 2) :
    norm (zoomedShape k t s) = k * norm s := by
  have e : centred (zoomedShape k t s) = k • centred s := by
    funext ij
    have hn' : (N : ℝ) ≠ 0 := by exact_mod_cast hN.ne'
    simp only [centred, centroid, zoomedShape, Finset.sum_add_distrib, ← Finset.mul_sum, Finset.sum_const,
      Finset.card_univ, Fintype.card_fin, nsmul_eq_mul, Pi.smul_apply, smul_eq_mul]
    field_simp
    ring
  unfold norm
  rw [e, smul_dotProduct, dotProduct_smul, smul_eq_mul, smul_eq_mul, ← mul_assoc, Real.sqrt_mul (by positivity),
    Real.sqrt_mul_self hk.le]

theorem norm_empty (hN : ¬ 0 < N) (s : Pts N 2) : norm s = 0 := by
  have : N = 0 := by omega
  subst this
  have : centred s = 0 := by funext ⟨i, _⟩; exact i.elim0
  rw [norm, this]
  simp

/-- The prepared images of a picture and of the zoomed picture. -/
structure PrepOk (fe : Features F C) (k : ℝ) (t : Fin 2 → ℝ) (features : List F) (scales : List Rat)
    (hasGt : Bool) (p p' : Prepared (Pts N 2) (P 2 → C)) : Prop where
  some_lev : ∃ (m m' : ℝ) (L : List (Lev N C F)), m = k * m' ∧ m' ≠ 0 ∧ (∀ l ∈ L, LevOk fe m m' t l) ∧
    L.map (fun l => (l.f, l.sc)) = features.zip scales ∧
    p.images = L.map (·.im) ∧ p.affine = L.map (·.a) ∧ p.scale = L.map (·.s) ∧
    p'.images = L.map (·.im') ∧ p'.affine = L.map (·.a') ∧ p'.scale = L.map (·.s) ∧
    (p.initialShapes.length = L.length ∧ p'.initialShapes =
      List.zipWith (fun l x => movedShape ((l.sc : ℝ) • vec fe m' t l.f) x) L p.initialShapes) ∧
    ((hasGt = false ∧ p.gtShapes = none ∧ p'.gtShapes = none) ∨
      ∃ v, v.length = L.length ∧ p.gtShapes = some v ∧ p'.gtShapes =
        some (List.zipWith (fun l x => movedShape ((l.sc : ℝ) • vec fe m' t l.f) x) L v))

theorem prepBody_sim [DecidableEq F] {k : ℝ} (hk : 0 < k)
    (hf : FeaturesFollow fe.op fe.step) (hs : ∀ f, fe.step f ≠ 0) (reference init : Pts N 2)
    {features : List F} (hr : RepeatsOnlyFirst features) (scales : List Rat) {im im' : Pic N C}
    (hz : ZoomedImage k t im im') (hi : im.lm "__initial_shape" = some init) (gt gt' : Option (Pts N 2))
    (hgt : gt'.isSome = gt.isSome) :
    BothReturn (PrepOk fe k t features scales gt.isSome)
      (prepBody (ext fe reference) features scales im init gt)
      (prepBody (ext fe reference) features scales im' (zoomedShape k t init) gt') := by
  unfold prepBody
  have hi' : im'.lm "__initial_shape" = some (zoomedShape k t init) := by rw [hz.landmarks, hi]; rfl
  refine both_bind (R := fun tmp tmp' => ∃ m m', m = k * m' ∧ m' ≠ 0 ∧
    tmp.lm "__initial_shape" = some (m • init) ∧ ZoomedImage 1 (m' • t) tmp tmp') ?_ ?_
  · have e : norm reference / norm (zoomedShape k t init) = norm reference / norm init / k := by
      by_cases hN : 0 < N
      · rw [norm_zoom hN hk, mul_comm, div_div]
      · simp [norm_empty hN]
    simp only [ext, getLm, hi, hi', bind, Except.bind]
    rw [e]
    by_cases hp : 0 < norm reference / norm init
    · rw [if_pos hp, if_pos (div_pos hp hk)]
      refine ⟨norm reference / norm init, norm reference / norm init / k, ?_, (div_pos hp hk).ne', ?_,
        resize_zoomed hp hk hz⟩
      · field_simp
      · simp [resize, hi]
    · rw [if_neg hp, if_neg]
      · rfl
      · intro h
        apply hp
        have := mul_pos h hk
        rwa [div_mul_cancel₀ _ hk.ne'] at this
  · rintro tmp tmp' ⟨m, m', hm, hm0, hti, htz⟩
    have loop : BothReturn (fun p p' => ∃ L' : List (Lev N C F), p = ofLev L' ∧ p' = ofLev' L' ∧
          (∀ l ∈ L', LevOk fe m m' t l) ∧ L'.map (fun l => (l.f, l.sc)) = features.zip scales)
        (prepLoop (ext fe reference) tmp init none ⟨[], [], []⟩ (features.zip scales))
        (prepLoop (ext fe reference) tmp' (zoomedShape k t init) none ⟨[], [], []⟩ (features.zip scales)) := by
      cases hzip : features.zip scales with
      | nil => exact ⟨[], rfl, rfl, by simp, rfl⟩
      | cons x xs =>
        rw [← hzip]
        have := prepLoop_sim hk.ne' hm hm0 hf hs reference init hti htz x.1 (features.zip scales) none none []
          (by simp) (by simp) (by intro _ y hy; rw [hzip] at hy; simp at hy; rw [hy])
          (firstOnly_zip hr scales x.1 (by intro y hy; rw [hzip] at hy; simp at hy; rw [hy])) (.inl ⟨rfl, rfl⟩)
        simp only [List.map_nil, List.nil_append] at this
        exact this
    refine both_bind loop ?_
    rintro p p' ⟨L, rfl, rfl, hL, hfs⟩
    refine both_bind (mapM_lev "__initial_shape" L hL) ?_
    rintro v v' ⟨hv, rfl⟩
    refine both_bind (R := fun g g' => (gt.isSome = false ∧ g = none ∧ g' = none) ∨
      ∃ v, v.length = L.length ∧ g = some v ∧ g' =
        some (List.zipWith (fun l x => movedShape ((l.sc : ℝ) • vec fe m' t l.f) x) L v)) ?_ ?_
    · cases gt with
      | none =>
        cases gt' with
        | some g => simp at hgt
        | none => exact .inl ⟨rfl, rfl, rfl⟩
      | some g0 =>
        cases gt' with
        | none => simp at hgt
        | some g => 
          refine both_bind (mapM_lev "__gt_shape" L hL) ?_
          rintro w w' ⟨hw, rfl⟩
          exact .inr ⟨w, hw, rfl, rfl⟩
    · intro g g' hg
      exact ⟨⟨m, m', L, hm, hm0, hL, hfs, rfl, rfl, rfl, rfl, rfl, rfl, ⟨hv, rfl⟩, hg⟩⟩

/-! ### The loop over the scales -/

variable {m m' : ℝ} {k : ℝ}

theorem conj_perm {S : Type} {A A' : Equiv.Perm S} {f g : S → S} (h : ∀ z, A'.symm (g z) = f (A.symm z)) (y : S) :
    A' (f y) = g (A y) := by
  rw [Equiv.apply_eq_iff_eq_symm_apply, h, Equiv.symm_apply_apply]

/-- The vector the picture of a scale is moved by. -/
def lvec (fe : Features F C) (m' : ℝ) (t : Fin 2 → ℝ) (l : Lev N C F) : Fin 2 → ℝ := (l.sc : ℝ) • vec fe m' t l.f

theorem affine_sim (hm : m = k * m') {l : Lev N C F} (hl : LevOk fe m m' t l) (y : Pts N 2) :
    l.a' (movedShape (vec fe m' t l.f) y) = zoomedShape k t (l.a y) := by
  apply conj_perm
  intro z
  rw [hl.aff, hl.aff']
  funext ij
  simp only [movedShape, zoomedShape, vec, Pi.smul_apply, smul_eq_mul, hm]
  ring

theorem scale_sim {l : Lev N C F} (hl : LevOk fe m m' t l) (u : Fin 2 → ℝ) (y : Pts N 2) :
    l.s (movedShape ((l.sc : ℝ) • u) y) = movedShape u (l.s y) := by
  apply conj_perm
  intro z
  rw [hl.scl, hl.scl]
  funext ij
  simp only [movedShape, Pi.smul_apply, smul_eq_mul]
  ring

theorem scale_zoom {l : Lev N C F} (hl : LevOk fe m m' t l) (y : Pts N 2) :
    l.s (zoomedShape k ((l.sc : ℝ) • t) y) = zoomedShape k t (l.s y) := by
  apply conj_perm
  intro z
  rw [hl.scl, hl.scl]
  funext ij
  simp only [zoomedShape, Pi.smul_apply, smul_eq_mul]
  ring

theorem toImage_sim (hm : m = k * m') {l : Lev N C F} (hl : LevOk fe m m' t l) (y : Pts N 2) :
    l.a' (l.s (movedShape (lvec fe m' t l) y)) = zoomedShape k t (l.a (l.s y)) := by
  rw [lvec, scale_sim hl, affine_sim hm hl]

/-- The transforms in the order in which `_fit` composes them between scales with different
features. -/
theorem toImage_swapped (hm : m = k * m') {l : Lev N C F} (hl : LevOk fe m m' t l) (y : Pts N 2) :
    l.s (l.a' (movedShape (lvec fe m' t l) y)) = zoomedShape k t (l.s (l.a y)) := by
  rw [← scale_zoom hl]
  congr 1
  apply conj_perm
  intro z
  rw [hl.aff, hl.aff']
  funext ij
  simp only [movedShape, zoomedShape, vec, lvec, Pi.smul_apply, smul_eq_mul, hm]
  ring

theorem fromImage_sim (hm : m = k * m') {l : Lev N C F} (hl : LevOk fe m m' t l) (y : Pts N 2) :
    l.s.symm (l.a'.symm (zoomedShape k t y)) = movedShape (lvec fe m' t l) (l.s.symm (l.a.symm y)) := by
  rw [Equiv.symm_apply_eq, Equiv.symm_apply_eq, toImage_sim hm hl]
  simp

/-- Everything the loop uses at one scale. -/
structure Lvl (N : Nat) (C F V K : Type) where
  lev : Lev N C F
  gt : Option (Pts N 2)
  iters : Int
  alg : Algorithm (Pts N 2) (P 2 → C) (Result.Res (Pts N 2) V K)

def Lvl.here (q : Lvl N C F V K) : Level (Pts N 2) (P 2 → C) F (Result.Res (Pts N 2) V K) :=
  ⟨q.lev.f, q.lev.sc, q.lev.im, q.lev.a, q.lev.s, q.gt, q.iters, q.alg⟩

def Lvl.there (fe : Features F C) (m' : ℝ) (t : Fin 2 → ℝ) (q : Lvl N C F V K) :
    Level (Pts N 2) (P 2 → C) F (Result.Res (Pts N 2) V K) :=
  ⟨q.lev.f, q.lev.sc, q.lev.im', q.lev.a', q.lev.s, q.gt.map (movedShape (lvec fe m' t q.lev)), q.iters, q.alg⟩

theorem carry_sim [DecidableEq F] (hm : m = k * m') {q q' : Lvl N C F V K} (hq : LevOk fe m m' t q.lev)
    (hq' : LevOk fe m m' t q'.lev) (y : Pts N 2) :
    carry (q.there fe m' t) (q'.there fe m' t) (movedShape (lvec fe m' t q.lev) y) =
      movedShape (lvec fe m' t q'.lev) (carry q.here q'.here y) := by
  unfold carry
  simp only [Lvl.here, Lvl.there]
  by_cases hf : q'.lev.f = q.lev.f
  · by_cases hs : q.lev.sc = q'.lev.sc
    · simp only [hf, hs, ne_eq, not_true_eq_false, if_false, and_false, lvec]
    · simp only [hf, hs, ne_eq, not_true_eq_false, if_false, not_false_eq_true, and_self, if_true,
        Equiv.Perm.mul_apply, Equiv.Perm.inv_def]
      rw [lvec, scale_sim hq, lvec, Equiv.symm_apply_eq, scale_sim hq', hf]
      simp
  · simp only [ne_eq, hf, not_false_eq_true, if_true, Equiv.Perm.mul_apply, Equiv.Perm.inv_def]
    rw [toImage_swapped hm hq, fromImage_sim hm hq']

/-- The shape the loop starts from in the moved picture. -/
def startOf (fe : Features F C) (m' : ℝ) (t : Fin 2 → ℝ) (Q : List (Lvl N C F V K)) (s : Pts N 2) : Pts N 2 :=
  match Q with
  | [] => s
  | q :: _ => movedShape (lvec fe m' t q.lev) s

theorem fitLoop_sim [DecidableEq F] (hm : m = k * m') : ∀ (Q : List (Lvl N C F V K)) (s : Pts N 2),
    (∀ q ∈ Q, LevOk fe m m' t q.lev) → (∀ q ∈ Q, FollowsFace q.alg) →
    BothReturn (fun rs rs' => ∃ W : List (Lev N C F × Result.Res (Pts N 2) V K × Result.Res (Pts N 2) V K),
        W.map (·.1) = Q.map (·.lev) ∧ rs = W.map (·.2.1) ∧ rs' = W.map (·.2.2) ∧
        ∀ w ∈ W, SameFitUnder (movedShape (lvec fe m' t w.1)) w.2.1 w.2.2)
      (fitLoop (fun r => r.final) s (Q.map Lvl.here))
      (fitLoop (fun r => r.final) (startOf fe m' t Q s) (Q.map (Lvl.there fe m' t))) := by
  intro Q
  induction Q with
  | nil => intro s _ _; exact ⟨[], rfl, rfl, rfl, by simp⟩
  | cons q Q ih =>
    intro s hQ hA
    have hq := hQ q (by simp)
    simp only [List.map_cons, fitLoop]
    refine both_bind (R := SameFitUnder (movedShape (lvec fe m' t q.lev))) ?_ ?_
    · exact hA q (by simp) _ _ _ hq.img s q.gt q.iters
    · intro r r' hr
      refine both_bind (R := fun rs rs' =>
        ∃ W : List (Lev N C F × Result.Res (Pts N 2) V K × Result.Res (Pts N 2) V K),
        W.map (·.1) = Q.map (·.lev) ∧ rs = W.map (·.2.1) ∧ rs' = W.map (·.2.2) ∧
        ∀ w ∈ W, SameFitUnder (movedShape (lvec fe m' t w.1)) w.2.1 w.2.2) ?_ ?_
      · cases Q with
        | nil => exact ⟨[], rfl, rfl, rfl, by simp⟩
        | cons q' Q =>
          simp only [List.map_cons]
          rw [hr.final, carry_sim hm hq (hQ q' (by simp))]
          exact ih (carry q.here q'.here r.final) (fun x hx => hQ x (by simp [hx])) fun x hx => hA x (by simp [hx])
      · rintro rs rs' ⟨W, h1, rfl, rfl, h2⟩
        refine ⟨(q.lev, r, r') :: W, by simp [h1], by simp, by simp, ?_⟩
        intro w hw
        rcases List.mem_cons.1 hw with rfl | hw
        · exact hr
        · exact h2 w hw

end Plane
end Menpofit
