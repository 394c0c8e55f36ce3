import Verif.Spec.Sdm
import Verif.Lemmas.Training
/-!
# Lemmas about supervised descent training
-/

namespace Menpofit
open Sdm Spec

variable {V W Row Reg I : Type} [AddCommGroup W]

theorem deltaRows_fst (co : Coord V W) : ∀ (gts : List V) (cur : List (List V)),
    (deltaRows co gts cur).map Prod.fst = perShape (fun g c => co.proj g - co.proj c) gts cur
  | [], _ => by simp [deltaRows, perShape]
  | _ :: _, [] => by simp [deltaRows, perShape]
  | g :: gs, ss :: sss => by
    simp only [deltaRows, perShape, List.map_append, List.map_map]
    rw [deltaRows_fst co gs sss]; rfl

theorem deltaRows_snd (co : Coord V W) : ∀ (gts : List V) (cur : List (List V)),
    (deltaRows co gts cur).map Prod.snd = perShape (fun g _ => co.proj g) gts cur
  | [], _ => by simp [deltaRows, perShape]
  | _ :: _, [] => by simp [deltaRows, perShape]
  | g :: gs, ss :: sss => by
    simp only [deltaRows, perShape, List.map_append, List.map_map]
    rw [deltaRows_snd co gs sss]; rfl

theorem perShape_length {A B C : Type} (f : A → B → C) : ∀ (as : List A) (bss : List (List B)),
    as.length = bss.length → (perShape f as bss).length = (bss.map List.length).sum
  | [], [], _ => rfl
  | a :: as, bs :: bss, h => by
    simp only [perShape, List.length_append, List.length_map, List.map_cons, List.sum_cons]
    rw [perShape_length f as bss (by simpa using h)]

theorem flatten_length_eq {B : Type} (bss : List (List B)) :
    bss.flatten.length = (bss.map List.length).sum := by
  rw [List.length_flatten]

theorem featureRows_ok {feat : I → V → Row} : ∀ {ims : List I} {cur : List (List V)} {r : List Row},
    featureRows feat ims cur = .ok r → ims.length = cur.length → r = perShape feat ims cur
  | [], [], r, h, _ => by simp [featureRows] at h; simp [perShape, h]
  | _ :: _, [], r, h, hl => by simp at hl
  | [], _ :: _, r, h, hl => by simp at hl
  | im :: ims, ss :: sss, r, h, hl => by
    unfold featureRows at h
    split at h
    · cases h
    · obtain ⟨q, hq, h⟩ := bind_ok h
      injection h with h
      rw [← h, featureRows_ok hq (by simpa using hl)]
      rfl

theorem zipWith_take {A B C : Type} (f : A → B → C) : ∀ (as : List A) (bs cs : List B),
    as.length ≤ bs.length → List.zipWith f as (bs ++ cs) = List.zipWith f as bs
  | [], _, _, _ => by simp
  | _ :: _, [], _, h => by simp at h
  | a :: as, b :: bs, cs, h => by
    rw [List.cons_append, List.zipWith_cons_cons, List.zipWith_cons_cons,
      zipWith_take f as bs cs (by simpa using h)]

theorem zipWith_append_drop {A B C : Type} (f : A → B → C) (as as' : List A) (bs : List B)
    (h : as.length ≤ bs.length) :
    List.zipWith f (as ++ as') bs = List.zipWith f as bs ++ List.zipWith f as' (bs.drop as.length) := by
  have e := List.take_append_drop as.length bs
  have ht : as.length = (bs.take as.length).length := by rw [List.length_take]; omega
  conv_lhs => rw [← e]
  rw [List.zipWith_append ht]
  congr 1
  conv_rhs => rw [← e]
  rw [zipWith_take _ _ _ _ ht.le]

theorem updateShapes_ok (co : Coord V W) (est gt : List W) :
    ∀ (ss : List V) (j : Nat) (r : List V × List W), updateShapes co est gt j ss = .ok r →
    r.1 = List.zipWith (fun c e => co.inst (co.proj c + e)) ss (est.drop j) ∧
    r.2 = List.zipWith (fun x g => g - x)
      (List.zipWith (fun c e => co.proj c + e) ss (est.drop j)) (gt.drop j) ∧
    ss.length ≤ (est.drop j).length ∧ ss.length ≤ (gt.drop j).length := by
  intro ss
  induction ss with
  | nil =>
    intro j r h
    injection h with h
    subst h
    simp
  | cons s ss ih =>
    intro j r h
    unfold updateShapes at h
    cases he : est[j]? with
    | none => rw [he] at h; cases h
    | some e =>
      cases hg : gt[j]? with
      | none => rw [he, hg] at h; cases h
      | some g =>
        rw [he, hg] at h
        simp only at h
        obtain ⟨q, hq, h⟩ := bind_ok h
        injection h with h
        subst h
        obtain ⟨hj, hje⟩ := List.getElem?_eq_some_iff.1 he
        obtain ⟨hk, hke⟩ := List.getElem?_eq_some_iff.1 hg
        have d1 : est.drop j = e :: est.drop (j + 1) := by
          rw [← hje]; exact List.drop_eq_getElem_cons hj
        have d2 : gt.drop j = g :: gt.drop (j + 1) := by
          rw [← hke]; exact List.drop_eq_getElem_cons hk
        obtain ⟨h1, h2, h3, h4⟩ := ih (j + 1) q hq
        rw [d1, d2]
        refine ⟨by rw [List.zipWith_cons_cons, h1], by simp [h2], by simpa using h3,
          by simpa using h4⟩

theorem updateAll_ok (co : Coord V W) (est gt : List W) :
    ∀ (sss : List (List V)) (j : Nat) (r : List (List V) × List W),
    updateAll co est gt j sss = .ok r →
    r.1.map List.length = sss.map List.length ∧
    r.1.flatten = List.zipWith (fun c e => co.inst (co.proj c + e)) sss.flatten (est.drop j) ∧
    r.2 = List.zipWith (fun x g => g - x)
      (List.zipWith (fun c e => co.proj c + e) sss.flatten (est.drop j)) (gt.drop j) ∧
    sss.flatten.length ≤ (est.drop j).length ∧ sss.flatten.length ≤ (gt.drop j).length := by
  intro sss
  induction sss with
  | nil =>
    intro j r h
    injection h with h
    subst h
    simp
  | cons ss sss ih =>
    intro j r h
    unfold updateAll at h
    obtain ⟨a, ha, h⟩ := bind_ok h
    obtain ⟨q, hq, h⟩ := bind_ok h
    injection h with h
    subst h
    obtain ⟨i1, i2, i3, i4, i5⟩ := ih _ q hq
    obtain ⟨h1, h2, h3, h4⟩ := updateShapes_ok co est gt ss j a ha
    have hl : a.1.length = ss.length := by rw [h1, List.length_zipWith]; omega
    have hl' : (List.zipWith (fun c e => co.proj c + e) ss (est.drop j)).length = ss.length := by
      rw [List.length_zipWith]; omega
    have e1 := zipWith_append_drop (fun c e => co.inst (co.proj c + e)) ss sss.flatten
      (est.drop j) h3
    have e2 := zipWith_append_drop (fun c e => co.proj c + e) ss sss.flatten (est.drop j) h3
    rw [List.drop_drop] at e1 e2
    simp only [List.length_drop] at h3 h4 i4 i5 ⊢
    refine ⟨by simp [i1, hl], ?_, ?_, ?_, ?_⟩
    · rw [List.flatten_cons, List.flatten_cons, e1, h1, i2]
    · rw [List.flatten_cons, e2, h2, i3,
        zipWith_append_drop _ _ _ _ (by rw [hl', List.length_drop]; omega), hl', List.drop_drop]
    · rw [List.flatten_cons, List.length_append]
      cases hs : sss.flatten with
      | nil => simpa using h3
      | cons x y => rw [hs] at i4; simp only [List.length_cons] at i4 ⊢; omega
    · rw [List.flatten_cons, List.length_append]
      cases hs : sss.flatten with
      | nil => simpa using h4
      | cons x y => rw [hs] at i5; simp only [List.length_cons] at i5 ⊢; omega

theorem perShape_const {A B C : Type} (f : A → C) : ∀ (as : List A) (bss css : List (List B)),
    css.map List.length = bss.map List.length →
    perShape (fun a _ => f a) as css = perShape (fun a _ => f a) as bss
  | [], _, _, _ => by simp [perShape]
  | _ :: _, [], [], _ => rfl
  | _ :: _, [], _ :: _, h => by simp at h
  | _ :: _, _ :: _, [], h => by simp at h
  | a :: as, bs :: bss, cs :: css, h => by
    simp only [List.map_cons, List.cons.injEq] at h
    simp only [perShape]
    rw [perShape_const f as bss css h.2, List.map_const', List.map_const', h.1]

theorem zipWith_const_left {B C D : Type} (f : C → B → D) (c : C) :
    ∀ (bs : List B) (n : Nat), n = bs.length →
      List.zipWith f (List.replicate n c) bs = bs.map (f c)
  | [], _, h => by simp
  | b :: bs, n, h => by
    subst h
    rw [List.length_cons, List.replicate_succ, List.zipWith_cons_cons, List.map_cons,
      zipWith_const_left f c bs _ rfl]

theorem perShape_zipWith {A B C : Type} (f : A → B → C) : ∀ (as : List A) (bss : List (List B)),
    perShape f as bss = List.zipWith f (perShape (fun a _ => a) as bss) bss.flatten
  | [], _ => by simp [perShape]
  | _ :: _, [] => by simp [perShape]
  | a :: as, bs :: bss => by
    simp only [perShape, List.flatten_cons]
    rw [List.zipWith_append (by simp), ← perShape_zipWith f as bss, List.map_const',
      zipWith_const_left _ _ _ _ rfl]

theorem perShape_map {A B C D : Type} (f : A → B → C) (h : C → D) :
    ∀ (as : List A) (bss : List (List B)),
      (perShape f as bss).map h = perShape (fun a b => h (f a b)) as bss
  | [], _ => by simp [perShape]
  | _ :: _, [] => by simp [perShape]
  | a :: as, bs :: bss => by
    simp only [perShape, List.map_append, List.map_map, perShape_map f h as bss]
    rfl

theorem zipWith_perShape (co : Coord V W) (gts : List V) (cur : List (List V)) :
    List.zipWith (fun x g => g - x) (cur.flatten.map co.proj)
      (perShape (fun g _ => co.proj g) gts cur) =
      perShape (fun g c => co.proj g - co.proj c) gts cur := by
  rw [perShape_zipWith (fun g c => co.proj g - co.proj c),
    ← perShape_map (fun g _ => g) co.proj, List.zipWith_map, List.zipWith_comm]

/-- The invariant of the cascade. -/
theorem stages_ok {ops : RegOps Row W Reg} {co : Coord V W} (hco : ∀ w, co.proj (co.inst w) = w)
    {feat : I → V → Row} {ims : List I} {gts : List V} {gt : List W} {increment : Bool} :
    ∀ (m k : Nat) (regs : List Reg) (delta : List W) (cur : List (List V))
      (r : List Reg × List (List V) × List (Stage V W Row)),
      stages ops co feat ims gt increment m k regs delta cur = .ok r →
      ims.length = cur.length → gts.length = cur.length →
      gt = perShape (fun g _ => co.proj g) gts cur →
      delta = perShape (fun g c => co.proj g - co.proj c) gts cur →
      r.2.2.length = m ∧ (∀ s ∈ r.2.2, Consistent co.proj co.inst feat ims gts s) ∧
      r.2.2.map Stage.before ++ [r.2.1] = cur :: r.2.2.map Stage.after
  | 0, k, regs, delta, cur, r, h, _, _, _, _ => by
    injection h with h
    subst h
    simp
  | m + 1, k, regs, delta, cur, r, h, h1, h2, h3, h4 => by
    unfold stages at h
    obtain ⟨f, hf, h⟩ := bind_ok h
    obtain ⟨reg, -, h⟩ := bind_ok h
    obtain ⟨u, hu, h⟩ := bind_ok h
    obtain ⟨q, hq, h⟩ := bind_ok h
    injection h with h
    subst h
    obtain ⟨u1, u2, u3, u4, u5⟩ := updateAll_ok co _ _ _ _ _ hu
    simp only [List.drop_zero] at u2 u3 u4 u5
    have hl : u.1.length = cur.length := by
      have := congrArg List.length u1
      simpa using this
    have hp : u.1.flatten.map co.proj =
        List.zipWith (fun c e => co.proj c + e) cur.flatten (ops.predict reg f) := by
      rw [u2, List.map_zipWith]
      simp only [hco]
    have hu3 : u.2 = perShape (fun g c => co.proj g - co.proj c) gts u.1 := by
      rw [u3, ← hp, h3, ← perShape_const _ gts cur u.1 u1, zipWith_perShape]
    have hd : delta.length = u.2.length := by
      rw [h4, hu3, perShape_length _ _ _ h2, perShape_length _ _ _ (by rw [hl, h2]), u1]
    rw [← hd, List.drop_length, List.append_nil] at hq
    obtain ⟨q1, q2, q3⟩ := stages_ok hco m (k + 1) _ _ _ q hq (by rw [hl, h1]) (by rw [hl, h2])
      (by rw [perShape_const _ gts cur u.1 u1, h3]) hu3
    refine ⟨by simp [q1], ?_, by simp [q3]⟩
    intro s hs
    rcases List.mem_cons.1 hs with rfl | hs
    · exact ⟨featureRows_ok hf h1, h4, hp, u2, u1⟩
    · exact q2 s hs

/-- Each new regressor is trained on the features and targets of its stage. -/
theorem stages_train {ops : RegOps Row W Reg} {co : Coord V W}
    {feat : I → V → Row} {ims : List I} {gt : List W} :
    ∀ (m k : Nat) (regs : List Reg) (delta : List W) (cur : List (List V))
      (r : List Reg × List (List V) × List (Stage V W Row)),
      stages ops co feat ims gt false m k regs delta cur = .ok r →
      ∃ new, r.1 = regs ++ new ∧
        List.Forall₂ (fun s reg => ops.train s.features s.delta = .ok reg ∧
          s.predicted = ops.predict reg s.features) r.2.2 new
  | 0, k, regs, delta, cur, r, h => by
    injection h with h
    subst h
    exact ⟨[], by simp, .nil⟩
  | m + 1, k, regs, delta, cur, r, h => by
    unfold stages at h
    obtain ⟨f, hf, h⟩ := bind_ok h
    obtain ⟨reg, hr, h⟩ := bind_ok h
    obtain ⟨u, hu, h⟩ := bind_ok h
    obtain ⟨q, hq, h⟩ := bind_ok h
    injection h with h
    subst h
    obtain ⟨new, e, hn⟩ := stages_train m (k + 1) _ _ _ q hq
    refine ⟨reg :: new, ?_, .cons ⟨by simpa using hr, rfl⟩ hn⟩
    rw [e]
    simp

/-- Each existing regressor is incremented with the features and targets of its stage. -/
theorem stages_increment {ops : RegOps Row W Reg} {co : Coord V W}
    {feat : I → V → Row} {ims : List I} {gt : List W} :
    ∀ (m k : Nat) (regs : List Reg) (delta : List W) (cur : List (List V))
      (r : List Reg × List (List V) × List (Stage V W Row)),
      stages ops co feat ims gt true m k regs delta cur = .ok r →
      r.1.length = regs.length ∧ (∀ i, i < k ∨ k + m ≤ i → r.1[i]? = regs[i]?) ∧
      ∀ i (s : Stage V W Row), r.2.2[i]? = some s → ∃ old new, regs[k + i]? = some old ∧
        r.1[k + i]? = some new ∧ ops.increment old s.features s.delta = .ok new ∧
        s.predicted = ops.predict new s.features
  | 0, k, regs, delta, cur, r, h => by
    injection h with h
    subst h
    simp
  | m + 1, k, regs, delta, cur, r, h => by
    unfold stages at h
    obtain ⟨f, hf, h⟩ := bind_ok h
    obtain ⟨reg, hr, h⟩ := bind_ok h
    obtain ⟨u, hu, h⟩ := bind_ok h
    obtain ⟨q, hq, h⟩ := bind_ok h
    injection h with h
    subst h
    rw [if_pos rfl] at hr hq
    cases ho : regs[k]? with
    | none => rw [ho] at hr; cases hr
    | some old =>
      rw [ho] at hr
      have hk : k < regs.length := (List.getElem?_eq_some_iff.1 ho).1
      obtain ⟨q1, q2, q3⟩ := stages_increment m (k + 1) _ _ _ q hq
      rw [List.length_set] at q1
      refine ⟨q1, ?_, ?_⟩
      · intro i hi
        rw [q2 i (by omega), List.getElem?_set_ne (by omega)]
      · intro i s hs
        cases i with
        | zero =>
          simp only [List.getElem?_cons_zero, Option.some.injEq] at hs
          subst hs
          refine ⟨old, reg, ho, ?_, hr, rfl⟩
          rw [Nat.add_zero, q2 k (by omega), List.getElem?_set_self hk]
        | succ i =>
          rw [List.getElem?_cons_succ] at hs
          obtain ⟨o, n, a, b, c, d⟩ := q3 i s hs
          rw [List.getElem?_set_ne (by omega)] at a
          exact ⟨o, n, by rw [← a]; congr 1; omega, by rw [← b]; congr 1; omega, c, d⟩

theorem deltaRows_length (co : Coord V W) (gts : List V) (cur : List (List V))
    (h : gts.length = cur.length) :
    (deltaRows co gts cur).length = (cur.map List.length).sum := by
  rw [← List.length_map (f := Prod.fst), deltaRows_fst, perShape_length _ _ _ h]

theorem sum_length_const {B : Type} (c : Nat) : ∀ (bss : List (List B)),
    (∀ b ∈ bss, b.length = c) → (bss.map List.length).sum = bss.length * c
  | [], _ => by simp
  | b :: bss, h => by
    rw [List.map_cons, List.sum_cons, sum_length_const c bss fun x hx => h x (by simp [hx]),
      h b (by simp), List.length_cons, Nat.succ_mul, Nat.add_comm]

theorem computeDelta_ok {co : Coord V W} {junk : Nat → W} {gts : List V} {cur : List (List V)}
    {d : List W × List W} (h : computeDelta co junk gts cur = .ok d)
    (h1 : gts.length = cur.length) {c : Nat} (hc : ∀ ss ∈ cur, ss.length = c) :
    d = (perShape (fun g c => co.proj g - co.proj c) gts cur,
      perShape (fun g _ => co.proj g) gts cur) := by
  cases gts with
  | nil => cases h
  | cons g gts =>
    cases cur with
    | nil => cases h
    | cons ss sss =>
      simp only [computeDelta] at h
      have hl : (deltaRows co (g :: gts) (ss :: sss)).length =
          (g :: gts).length * ss.length := by
        rw [deltaRows_length _ _ _ h1, sum_length_const c _ hc, h1, hc ss (by simp)]
      rw [if_neg (by omega), hl, Nat.sub_self, List.range_zero, List.map_nil, List.append_nil,
        List.append_nil, deltaRows_fst, deltaRows_snd] at h
      injection h with h
      exact h.symm

/-- The sum of the predictions of one row. -/
theorem chain_sum {proj : V → W} {inst : W → V} {feat : I → V → Row} {ims : List I} {gts : List V}
    (j : Nat) : ∀ (st : List (Stage V W Row)) (cur final : List (List V)),
      (∀ s ∈ st, Consistent proj inst feat ims gts s) →
      st.map Stage.before ++ [final] = cur :: st.map Stage.after →
      ∀ c, cur.flatten[j]? = some c → ∃ f, final.flatten[j]? = some f ∧
        proj f = proj c + (st.map fun s => s.predicted.getD j 0).sum
  | [], cur, final, _, h, c, hc => by
    simp only [List.map_nil, List.nil_append, List.cons.injEq, and_true] at h
    exact ⟨c, by rw [h]; exact hc, by simp⟩
  | s :: st, cur, final, hs, h, c, hc => by
    simp only [List.map_cons, List.cons_append, List.cons.injEq] at h
    obtain ⟨h1, h2⟩ := h
    have hcons := hs s (by simp)
    have hst := hcons.steps
    rw [h1] at hst
    have hlen : s.after.flatten.length = cur.flatten.length := by
      rw [flatten_length_eq, flatten_length_eq, hcons.counts, h1]
    obtain ⟨hj, -⟩ := List.getElem?_eq_some_iff.1 hc
    have hj' : j < s.after.flatten.length := by omega
    have hzl := congrArg List.length hst
    rw [List.length_map, List.length_zipWith] at hzl
    have hjp : j < s.predicted.length := by omega
    have hat := congrArg (fun l => l[j]?) hst
    simp only [List.getElem?_map, List.getElem?_zipWith, hc, List.getElem?_eq_getElem hj',
      List.getElem?_eq_getElem hjp, Option.map_some, Option.some.injEq] at hat
    have h2' : st.map Stage.before ++ [final] = s.after :: st.map Stage.after := by
      rw [h2]
    obtain ⟨f, hf, hsum⟩ := chain_sum j st s.after final (fun x hx => hs x (by simp [hx])) h2'
      (s.after.flatten[j]) (List.getElem?_eq_getElem hj')
    refine ⟨f, hf, ?_⟩
    rw [hsum, hat, List.map_cons, List.sum_cons, List.getD_eq_getElem?_getD,
      List.getElem?_eq_getElem hjp, Option.getD_some, add_assoc]

/-- With a regressor that predicts row by row, one row of the training cascade. -/
theorem chain_row {ops : RegOps Row W Reg} {p : Reg → Row → W}
    (hp : ∀ r rows, ops.predict r rows = rows.map (p r))
    {proj : V → W} {inst : W → V} {feat : I → V → Row} {ims : List I} {gts : List V}
    (j : Nat) (im : I) : ∀ (st : List (Stage V W Row)) (regs : List Reg) (cur final : List (List V)),
      (∀ s ∈ st, Consistent proj inst feat ims gts s) →
      List.Forall₂ (fun s reg => s.predicted = ops.predict reg s.features) st regs →
      st.map Stage.before ++ [final] = cur :: st.map Stage.after →
      (perShape (fun im _ => im) ims cur)[j]? = some im →
      ∀ c, cur.flatten[j]? = some c →
      Result.cascade (fun r s => .ok (inst (proj s + p r (feat im s)))) c regs =
        .ok ((st.map fun s => s.after.flatten[j]?).map fun o => o.getD c) ∧
      ∀ s ∈ st, s.after.flatten[j]?.isSome = true
  | [], _, cur, final, _, hr, h, _, c, hc => by
    cases hr
    exact ⟨rfl, by simp⟩
  | s :: st, _, cur, final, hs, .cons (b := reg) (l₂ := regs) hr hrs, h, him, c, hc => by
    simp only [List.map_cons, List.cons_append, List.cons.injEq] at h
    obtain ⟨h1, h2⟩ := h
    have hcons := hs s (by simp)
    have hst := hcons.moved
    have hfe := hcons.features
    rw [h1] at hst hfe
    have hat := congrArg (fun l => l[j]?) hst
    rw [hr, hp, hfe, perShape_zipWith feat ims cur] at hat
    simp only [List.getElem?_zipWith, List.getElem?_map, hc, him, Option.map_some] at hat
    have h2' : st.map Stage.before ++ [final] = s.after :: st.map Stage.after := by
      rw [h2]
    have him' : (perShape (fun im _ => im) ims s.after)[j]? = some im := by
      rw [perShape_const (fun i : I => i) ims cur s.after (by rw [hcons.counts, h1]), him]
    obtain ⟨i1, i2⟩ := chain_row hp j im st regs s.after final (fun x hx => hs x (by simp [hx])) hrs
      h2' him' _ hat
    refine ⟨?_, ?_⟩
    · simp only [Result.cascade, bind, Except.bind, i1, pure, Except.pure, List.map_cons, hat,
        Option.getD_some]
      congr 2
      simp only [List.map_map]
      apply List.map_congr_left
      intro x hx
      obtain ⟨y, hy⟩ := Option.isSome_iff_exists.1 (i2 x hx)
      simp only [Function.comp, hy, Option.getD_some]
    · intro x hx
      rcases List.mem_cons.1 hx with rfl | hx
      · rw [hat]; rfl
      · exact i2 x hx

theorem cascade_congr {R X : Type} {f g : R → X → Except PyErr X} :
    ∀ (regs : List R) (x : X), (∀ r x, f r x = g r x) →
      Result.cascade f x regs = Result.cascade g x regs
  | [], _, _ => rfl
  | r :: rs, x, h => by
    simp only [Result.cascade, h, bind, Except.bind]
    cases g r x with
    | error e => rfl
    | ok y => simp only [cascade_congr rs y h]

/-- A cascade on the parameters, seen on the shapes. -/
theorem cascade_inst {proj : V → W} {inst : W → V} (hco : ∀ w, proj (inst w) = w)
    (q : Reg → V → W) : ∀ (regs : List Reg) (w : W) (l : List V),
      Result.cascade (fun r s => .ok (inst (proj s + q r s))) (inst w) regs = .ok l →
      ∃ ps, Result.cascade (fun r x => .ok (x + q r (inst x))) w regs = .ok ps ∧ ps.map inst = l
  | [], w, l, h => by
    injection h with h
    exact ⟨[], rfl, h⟩
  | r :: rs, w, l, h => by
    simp only [Result.cascade] at h
    obtain ⟨s, hs, h⟩ := bind_ok h
    injection hs with hs
    obtain ⟨l', hl, h⟩ := bind_ok h
    injection h with h
    rw [hco] at hs
    rw [← hs] at hl
    obtain ⟨ps, h1, h2⟩ := cascade_inst hco q rs _ _ hl
    refine ⟨(w + q r (inst w)) :: ps, ?_, ?_⟩
    · simp only [Result.cascade, bind, Except.bind, h1, pure, Except.pure]
    · rw [List.map_cons, h2, ← h, hs]

end Menpofit
