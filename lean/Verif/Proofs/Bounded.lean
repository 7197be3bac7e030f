import Verif.Spec.Bounded
import Mathlib.Analysis.SpecialFunctions.Pow.Real

/-!
# How far training can move a parameter (lemmas for C100)
-/

namespace SmartDNN
open Net Spec

/-- `m² ≤ C v`: what Adam's moving averages satisfy, with `C = (1-b1)² b2 / ((1-b2)(b2-b1²))`. -/
def MomentsBound (b1 b2 m v : ℝ) : Prop :=
  0 ≤ v ∧ m ^ 2 ≤ (1 - b1) ^ 2 * b2 / ((1 - b2) * (b2 - b1 ^ 2)) * v

theorem momentsBound_zero (b1 b2 : ℝ) : MomentsBound b1 b2 0 0 := ⟨le_rfl, by simp⟩

theorem momentsBound_step {b1 b2 m v : ℝ} (h1 : 0 < b2) (h2 : b2 < 1) (h3 : b1 ^ 2 < b2) (h : MomentsBound b1 b2 m v) (g : ℝ) :
    MomentsBound b1 b2 (b1 * m + (1 - b1) * g) (b2 * v + (1 - b2) * g * g) := by
  obtain ⟨hv, hm⟩ := h
  have q : 0 < b2 - b1 ^ 2 := by linarith
  have p : 0 < 1 - b2 := by linarith
  refine ⟨by nlinarith [mul_nonneg h1.le hv, mul_nonneg p.le (mul_self_nonneg g)], ?_⟩
  have e : (1 - b1) ^ 2 * b2 / ((1 - b2) * (b2 - b1 ^ 2)) * (b2 * v + (1 - b2) * g * g) =
      b2 * ((1 - b1) ^ 2 * b2 / ((1 - b2) * (b2 - b1 ^ 2)) * v) + (1 - b1) ^ 2 * g ^ 2 * b2 / (b2 - b1 ^ 2) := by
    field_simp
  rw [e]
  have e2 : b2 * m ^ 2 + (1 - b1) ^ 2 * g ^ 2 * b2 / (b2 - b1 ^ 2) - (b1 * m + (1 - b1) * g) ^ 2 =
      ((b2 - b1 ^ 2) * m - b1 * (1 - b1) * g) ^ 2 / (b2 - b1 ^ 2) := by
    field_simp
    ring
  have := div_nonneg (sq_nonneg ((b2 - b1 ^ 2) * m - b1 * (1 - b1) * g)) q.le
  nlinarith [mul_le_mul_of_nonneg_left hm h1.le]

theorem one_sub_pow_le {b1 b2 : ℝ} (h0 : 0 ≤ b1) (h1 : b1 < 1) (h3 : 1 - b2 ≤ (1 - b1) ^ 2) (h4 : b2 < 1) :
    ∀ t : Nat, 1 ≤ t → 1 - b2 ^ t ≤ (1 - b1 ^ t) ^ 2 := by
  intro t ht
  have hb2 : 2 * b1 - b1 ^ 2 ≤ b2 := by nlinarith
  have hn : 0 ≤ 2 * b1 - b1 ^ 2 := by nlinarith
  have hp : (2 * b1 - b1 ^ 2) ^ t ≤ b2 ^ t := pow_le_pow_left₀ hn hb2 t
  have hpos : 0 ≤ b1 ^ t := pow_nonneg h0 t
  have key : b1 ^ t * (2 - b1 ^ t) ≤ (2 * b1 - b1 ^ 2) ^ t := by
    rw [show 2 * b1 - b1 ^ 2 = b1 * (2 - b1) by ring, mul_pow]
    refine mul_le_mul_of_nonneg_left ?_ hpos
    have hx : ∀ t : Nat, 1 ≤ t → 2 - b1 ^ t ≤ (2 - b1) ^ t := by
      intro t ht
      induction t, ht using Nat.le_induction with
      | base => simp
      | succ t ht ih =>
        have a1 : b1 ^ t ≤ 1 := pow_le_one₀ h0 h1.le
        have a0 : 0 ≤ b1 ^ t := pow_nonneg h0 t
        calc 2 - b1 ^ (t + 1) ≤ (2 - b1 ^ t) * (2 - b1) := by rw [pow_succ]; nlinarith
          _ ≤ (2 - b1) ^ t * (2 - b1) := mul_le_mul_of_nonneg_right ih (by linarith)
          _ = (2 - b1) ^ (t + 1) := (pow_succ _ _).symm
    exact hx t ht
  nlinarith

theorem cmax_ge_left (a b : ℝ) : a ≤ cmax a b := by
  unfold cmax
  split <;> linarith

theorem alphaT_ratio {o : AdamOptions ℝ} (h : TameAdam o) {t : Nat} (ht : 1 ≤ t) :
    0 ≤ √(1 - cmax (o.beta2 ^ t) o.tiny) / (1 - cmax (o.beta1 ^ t) o.tiny) ∧
      √(1 - cmax (o.beta2 ^ t) o.tiny) / (1 - cmax (o.beta1 ^ t) o.tiny) ≤ 1 / (1 - o.tiny) := by
  have ht0 : t ≠ 0 := by omega
  have b1t : o.beta1 ^ t < 1 := pow_lt_one₀ h.beta1_nonneg h.beta1_lt ht0
  have tl := h.tiny_lt
  have hc : cmax (o.beta1 ^ t) o.tiny < 1 := by
    unfold cmax; split <;> assumption
  have pos : 0 < 1 - cmax (o.beta1 ^ t) o.tiny := by linarith
  refine ⟨div_nonneg (Real.sqrt_nonneg _) pos.le, ?_⟩
  have hs : √(1 - cmax (o.beta2 ^ t) o.tiny) ≤ √((1 - o.beta1 ^ t) ^ 2) :=
    Real.sqrt_le_sqrt (by linarith [cmax_ge_left (o.beta2 ^ t) o.tiny, one_sub_pow_le h.beta1_nonneg h.beta1_lt h.correction h.beta2_lt t ht])
  rw [Real.sqrt_sq (by linarith)] at hs
  have ti : 1 ≤ 1 / (1 - o.tiny) := by
    rw [le_div_iff₀ (by linarith)]
    linarith [h.tiny_nonneg]
  by_cases hlt : o.beta1 ^ t < o.tiny
  · have : cmax (o.beta1 ^ t) o.tiny = o.tiny := if_pos hlt
    rw [this]
    refine div_le_div_of_nonneg_right ?_ (by linarith)
    linarith [pow_nonneg h.beta1_nonneg t]
  · have : cmax (o.beta1 ^ t) o.tiny = o.beta1 ^ t := if_neg hlt
    rw [this]
    refine le_trans ?_ ti
    rw [div_le_one (by linarith)]
    exact hs

theorem vhat_ratio {o : AdamOptions ℝ} (h : TameAdam o) {t : Nat} (ht : 1 ≤ t) {m v : ℝ}
    (hb : MomentsBound o.beta1 o.beta2 m v) :
    |m / (1 - o.beta1 ^ t) / (√(v / (1 - o.beta2 ^ t)) + o.epsilon)| ≤
      (1 - o.beta1) * √(o.beta2 / ((1 - o.beta2) * (o.beta2 - o.beta1 ^ 2))) := by
  obtain ⟨hv, hm⟩ := hb
  have ht0 : t ≠ 0 := by omega
  have b2p : 0 < o.beta2 := lt_of_le_of_lt (sq_nonneg _) h.betas
  have b1t : o.beta1 ^ t < 1 := pow_lt_one₀ h.beta1_nonneg h.beta1_lt ht0
  have b2t : o.beta2 ^ t < 1 := pow_lt_one₀ b2p.le h.beta2_lt ht0
  have hc := one_sub_pow_le h.beta1_nonneg h.beta1_lt h.correction h.beta2_lt t ht
  set A := 1 - o.beta1 ^ t with hA
  set B := 1 - o.beta2 ^ t with hB
  have pA : 0 < A := by rw [hA]; linarith
  have pB : 0 < B := by rw [hB]; linarith
  set D := o.beta2 / ((1 - o.beta2) * (o.beta2 - o.beta1 ^ 2)) with hD
  have pD : 0 ≤ D := by
    rw [hD]
    exact div_nonneg b2p.le (mul_nonneg (by linarith [h.beta2_lt]) (by linarith [h.betas]))
  have hm' : m ^ 2 ≤ (1 - o.beta1) ^ 2 * D * v := by
    rw [hD, ← mul_div_assoc]; exact hm
  have p1 : 0 ≤ 1 - o.beta1 := by linarith [h.beta1_lt]
  have hden : 0 < √(v / B) + o.epsilon := add_pos_of_nonneg_of_pos (Real.sqrt_nonneg _) h.epsilon
  rw [abs_div, abs_of_pos hden, div_le_iff₀ hden]
  have hK : 0 ≤ (1 - o.beta1) * √D := mul_nonneg p1 (Real.sqrt_nonneg _)
  have : |m / A| ≤ (1 - o.beta1) * √D * √(v / B) := by
    refine abs_le_of_sq_le_sq ?_ (mul_nonneg hK (Real.sqrt_nonneg _))
    rw [mul_pow, mul_pow, Real.sq_sqrt pD, Real.sq_sqrt (div_nonneg hv pB.le), div_pow]
    calc m ^ 2 / A ^ 2 ≤ ((1 - o.beta1) ^ 2 * D * v) / A ^ 2 := div_le_div_of_nonneg_right hm' (sq_nonneg _)
      _ ≤ ((1 - o.beta1) ^ 2 * D * v) / B :=
        div_le_div_of_nonneg_left (mul_nonneg (mul_nonneg (sq_nonneg _) pD) hv) pB hc
      _ = (1 - o.beta1) ^ 2 * D * (v / B) := by ring
  nlinarith [mul_nonneg hK h.epsilon.le]

theorem adam_parameter_bound {o : AdamOptions ℝ} (h : TameAdam o) {rate : ℝ} (hr0 : 0 ≤ rate) (hr1 : rate ≤ o.learningRate)
    {t : Nat} (ht : 1 ≤ t) (w g : ℝ) {m v : ℝ} (hb : MomentsBound o.beta1 o.beta2 m v) :
    |(Adam.updateParameter o rate t w g m v (Adam.alphaT o rate t)).1 - w| ≤ adamStep o ∧
      MomentsBound o.beta1 o.beta2 (Adam.updateParameter o rate t w g m v (Adam.alphaT o rate t)).2.1
        (Adam.updateParameter o rate t w g m v (Adam.alphaT o rate t)).2.2 := by
  have b2p : 0 < o.beta2 := lt_of_le_of_lt (sq_nonneg _) h.betas
  have hb' := momentsBound_step b2p h.beta2_lt h.betas hb (g / (o.batchSize : ℝ))
  refine ⟨?_, hb'⟩
  unfold Adam.updateParameter Adam.alphaT
  simp only [if_neg (not_lt.2 h.noL2)]
  simp only [show ∀ (x : ℝ) (n : Nat), MathFn.powi x n = x ^ n from fun _ _ => rfl, show ∀ x : ℝ, MathFn.sqrt x = √x from fun _ => rfl]
  set m' := o.beta1 * m + (1 - o.beta1) * (g / (o.batchSize : ℝ))
  set v' := o.beta2 * v + (1 - o.beta2) * (g / (o.batchSize : ℝ)) * (g / (o.batchSize : ℝ))
  have k1 := vhat_ratio h ht hb'
  obtain ⟨k2, k3⟩ := alphaT_ratio h ht
  set K := (1 - o.beta1) * √(o.beta2 / ((1 - o.beta2) * (o.beta2 - o.beta1 ^ 2))) with hK
  have pK : 0 ≤ K := le_trans (abs_nonneg _) k1
  set R := √(1 - cmax (o.beta2 ^ t) o.tiny) / (1 - cmax (o.beta1 ^ t) o.tiny)
  set S := m' / (1 - o.beta1 ^ t) / (√(v' / (1 - o.beta2 ^ t)) + o.epsilon)
  have e : rate * √(1 - cmax (o.beta2 ^ t) o.tiny) / (1 - cmax (o.beta1 ^ t) o.tiny) * (m' / (1 - o.beta1 ^ t)) /
      (√(v' / (1 - o.beta2 ^ t)) + o.epsilon) = rate * R * S := by
    simp only [R, S]; ring
  rw [e]
  have main : |rate * R * S| ≤ o.learningRate * (K / (1 - o.tiny)) := by
    rw [abs_mul, abs_mul, abs_of_nonneg hr0, abs_of_nonneg k2]
    calc rate * R * |S| ≤ o.learningRate * (1 / (1 - o.tiny)) * K :=
          mul_le_mul (mul_le_mul hr1 k3 k2 h.rate) k1 (abs_nonneg _) (mul_nonneg h.rate (k2.trans k3))
      _ = _ := by ring
  unfold adamStep
  by_cases hl : 0 < o.l1Strength
  · rw [if_pos hl, max_eq_left hl.le, mul_add]
    have hs : |(if 0 < w then (1 : ℝ) else if w < 0 then -1 else 0)| ≤ 1 := by
      split
      · simp
      · split <;> simp
    have : |rate * o.l1Strength * (if 0 < w then (1 : ℝ) else if w < 0 then -1 else 0)| ≤ o.learningRate * o.l1Strength := by
      rw [abs_mul, abs_of_nonneg (mul_nonneg hr0 hl.le)]
      calc _ ≤ o.learningRate * o.l1Strength * 1 :=
            mul_le_mul (mul_le_mul_of_nonneg_right hr1 hl.le) hs (abs_nonneg _) (mul_nonneg h.rate hl.le)
        _ = _ := mul_one _
    rw [sub_sub_cancel_left, abs_neg]
    exact (abs_add_le _ _).trans (add_le_add main this)
  · rw [if_neg hl, max_eq_right (not_lt.1 hl), add_zero, sub_sub_cancel_left, abs_neg]
    exact main

theorem rms_ratio {a e q g : ℝ} (h0 : 0 ≤ a) (h1 : a < 1) (he : 0 < e) (hq : 0 ≤ q) :
    |g / √(a * q + (1 - a) * g * g + e)| ≤ 1 / √(1 - a) := by
  have p : 0 < 1 - a := by linarith
  have hpos : 0 < a * q + (1 - a) * g * g + e := by nlinarith [mul_nonneg h0 hq, mul_nonneg p.le (mul_self_nonneg g)]
  rw [abs_div, abs_of_pos (Real.sqrt_pos.2 hpos), div_le_div_iff₀ (Real.sqrt_pos.2 hpos) (Real.sqrt_pos.2 p), one_mul,
    ← Real.sqrt_sq_eq_abs, ← Real.sqrt_mul (sq_nonneg g)]
  exact Real.sqrt_le_sqrt (by nlinarith [mul_nonneg h0 hq])


theorem movedBy_refl {d : ℝ} (h : 0 ≤ d) (t : Tensor ℝ) : MovedBy d t t := ⟨rfl, rfl, fun j => by simpa using h⟩

theorem Spec.MovedBy.trans {d e : ℝ} {a b c : Tensor ℝ} (h1 : MovedBy d a b) (h2 : MovedBy e b c) : MovedBy (d + e) a c := by
  refine ⟨h2.1.trans h1.1, h2.2.1.trans h1.2.1, fun j => ?_⟩
  have := abs_sub_le (c.data.getD j 0) (b.data.getD j 0) (a.data.getD j 0)
  linarith [h1.2.2 j, h2.2.2 j]

theorem Spec.MovedBy.mono {d e : ℝ} {a b : Tensor ℝ} (h1 : MovedBy d a b) (h : d ≤ e) : MovedBy e a b :=
  ⟨h1.1, h1.2.1, fun j => (h1.2.2 j).trans h⟩

theorem forN_post_idx {σ : Type} {n : Nat} {body : Nat → σ → Res σ} (P : Nat → σ → Prop)
    (hb : ∀ j s s', P j s → body j s = .ok s' → P (j + 1) s') {s s' : σ} (h0 : P 0 s) (h : forN n s body = .ok s') : P n s' := by
  induction n generalizing s' with
  | zero => cases h; exact h0
  | succ n ih =>
    rw [forN_succ] at h
    obtain ⟨s1, h1, h2⟩ := bind_ok h
    exact hb n s1 s' (ih h1) h2

theorem getD_set_real (l : List ℝ) (j i : Nat) (x : ℝ) (hj : j < l.length) :
    (l.set j x).getD i 0 = if i = j then x else l.getD i 0 := by
  rw [List.getD_eq_getElem?_getD, List.getD_eq_getElem?_getD]
  by_cases h : i = j
  · subst h
    rw [if_pos rfl, List.getElem?_set_self hj]
    rfl
  · rw [if_neg h, List.getElem?_set_ne (fun e => h e.symm)]

theorem rd_getD {d : List ℝ} {j : Nat} {a : ℝ} (h : rd d j = .ok a) : j < d.length ∧ d.getD j 0 = a := by
  have := rd_nat_some h
  refine ⟨(List.getElem?_eq_some_iff.1 this).1, ?_⟩
  rw [List.getD_eq_getElem?_getD, this]
  rfl

/-- The weights before and after the first `k` positions have been updated. -/
def UpTo (B : ℝ) (k : Nat) (t t' : Tensor ℝ) : Prop := MovedBy B t t' ∧ ∀ j, k ≤ j → t'.data.getD j 0 = t.data.getD j 0

theorem upTo_set {B : ℝ} {k : Nat} {t a a' : Tensor ℝ} {w x : ℝ} (h : UpTo B k t a) (hr : rd a.data k = .ok w)
    (hs : a.set k x = .ok a') (hx : |x - w| ≤ B) : UpTo B (k + 1) t a' := by
  obtain ⟨hl, hw⟩ := rd_getD hr
  obtain ⟨hd, hsh⟩ := set_nat_data hs
  refine ⟨⟨hsh.trans h.1.1, by rw [hd, List.length_set]; exact h.1.2.1, fun j => ?_⟩, fun j hj => ?_⟩
  · rw [hd, getD_set_real _ _ _ _ hl]
    split
    · next e => subst e; rw [← h.2 _ le_rfl, hw]; exact hx
    · exact h.1.2.2 j
  · rw [hd, getD_set_real _ _ _ _ hl, if_neg (by omega)]
    exact h.2 j (by omega)

theorem adam_loop_bound {o : AdamOptions ℝ} (h : TameAdam o) {rate : ℝ} (hr0 : 0 ≤ rate) (hr1 : rate ≤ o.learningRate)
    {t : Nat} (ht : 1 ≤ t) {w m v g : Tensor ℝ} {r : Tensor ℝ × Tensor ℝ × Tensor ℝ}
    (hb : ∀ j, MomentsBound o.beta1 o.beta2 (m.data.getD j 0) (v.data.getD j 0)) (hB : 0 ≤ adamStep o)
    (hl : Adam.loop o rate t (w, m, v) g = .ok r) :
    MovedBy (adamStep o) w r.1 ∧ ∀ j, MomentsBound o.beta1 o.beta2 (r.2.1.data.getD j 0) (r.2.2.data.getD j 0) := by
  unfold Adam.loop at hl
  have := forN_post_idx (fun k (s : Tensor ℝ × Tensor ℝ × Tensor ℝ) => UpTo (adamStep o) k w s.1 ∧
      ∀ j, MomentsBound o.beta1 o.beta2 (s.2.1.data.getD j 0) (s.2.2.data.getD j 0)) ?_ ⟨⟨movedBy_refl hB w, fun _ _ => rfl⟩, hb⟩ hl
  · exact ⟨this.1.1, this.2⟩
  · intro k s s' hP hs
    obtain ⟨wv, hw, hs⟩ := bind_ok hs
    obtain ⟨gv, hg, hs⟩ := bind_ok hs
    obtain ⟨mv, hm, hs⟩ := bind_ok hs
    obtain ⟨vv, hv, hs⟩ := bind_ok hs
    obtain ⟨mT, hmT, hs⟩ := bind_ok hs
    obtain ⟨vT, hvT, hs⟩ := bind_ok hs
    obtain ⟨wT, hwT, hs⟩ := bind_ok hs
    cases hs
    obtain ⟨hml, hm⟩ := rd_getD hm
    obtain ⟨hvl, hv⟩ := rd_getD hv
    have hp := hP.2 k
    rw [hm, hv] at hp
    obtain ⟨b1, b2⟩ := adam_parameter_bound h hr0 hr1 ht wv gv hp
    refine ⟨upTo_set hP.1 hw hwT b1, fun j => ?_⟩
    dsimp only
    rw [(set_nat_data hmT).1, (set_nat_data hvT).1, getD_set_real _ _ _ _ hml, getD_set_real _ _ _ _ hvl]
    split
    · exact b2
    · exact hP.2 j

/-- The bound on the velocities of RMSProp. -/
noncomputable def rmsVel (o : RMSPropOptions ℝ) : ℝ := 1 / (√(1 - o.alpha) * (1 - max o.momentum 0))

theorem rmsVel_nonneg {o : RMSPropOptions ℝ} (h : TameRMSProp o) : 0 ≤ rmsVel o := by
  have : max o.momentum 0 < 1 := max_lt h.momentum one_pos
  exact div_nonneg zero_le_one (mul_nonneg (Real.sqrt_nonneg _) (by linarith))

theorem rms_loop_bound {o : RMSPropOptions ℝ} (h : TameRMSProp o) {s r : RMSState ℝ} {g : Tensor ℝ}
    (hq : ∀ j, 0 ≤ s.sq.data.getD j 0) (hv : ∀ j, |s.vel.data.getD j 0| ≤ rmsVel o)
    (hl : RMSProp.loop o s g o.learningRate = .ok r) :
    MovedBy (rmsStep o) s.weight r.weight ∧ (∀ j, 0 ≤ r.sq.data.getD j 0) ∧ ∀ j, |r.vel.data.getD j 0| ≤ rmsVel o := by
  have hB : 0 ≤ rmsStep o := mul_nonneg h.rate (rmsVel_nonneg h)
  have sa : 0 < √(1 - o.alpha) := Real.sqrt_pos.2 (by linarith [h.alpha_lt])
  unfold RMSProp.loop at hl
  have := forN_post_idx (fun k (s' : RMSState ℝ) => UpTo (rmsStep o) k s.weight s'.weight ∧
      (∀ j, 0 ≤ s'.sq.data.getD j 0) ∧ ∀ j, |s'.vel.data.getD j 0| ≤ rmsVel o) ?_ ⟨⟨movedBy_refl hB _, fun _ _ => rfl⟩, hq, hv⟩ hl
  · exact ⟨this.1.1, this.2⟩
  · intro k a a' hP hs
    obtain ⟨gv, hg, hs⟩ := bind_ok hs
    obtain ⟨wv, hw, hs⟩ := bind_ok hs
    obtain ⟨qv, hqv, hs⟩ := bind_ok hs
    dsimp only at hs
    obtain ⟨sq, hsq, hs⟩ := bind_ok hs
    rw [h.plain] at hs
    obtain ⟨⟨b, den⟩, hb, hs⟩ := bind_ok hs
    cases hb
    generalize hgg : (if o.weightDecay ≠ 0 then gv + o.weightDecay * wv else gv) = gr at hs hsq
    obtain ⟨hql, hqv⟩ := rd_getD hqv
    have q0 := hP.2.1 k
    rw [hqv] at q0
    have hu := rms_ratio (g := gr) h.alpha_nonneg h.alpha_lt h.epsilon q0
    have hq' : ∀ j, 0 ≤ sq.data.getD j 0 := by
      intro j
      rw [(set_nat_data hsq).1, getD_set_real _ _ _ _ hql]
      split
      · have p : 0 ≤ 1 - o.alpha := by linarith [h.alpha_lt]
        nlinarith [mul_nonneg h.alpha_nonneg q0, mul_nonneg p (mul_self_nonneg gr)]
      · exact hP.2.1 j
    dsimp only at hs
    by_cases hm : 0 < o.momentum
    · rw [if_pos hm] at hs
      obtain ⟨vv, hvv, hs⟩ := bind_ok hs
      obtain ⟨vel, hvel, hs⟩ := bind_ok hs
      obtain ⟨wt, hwt, hs⟩ := bind_ok hs
      cases hs
      obtain ⟨hvl, hvv⟩ := rd_getD hvv
      have v0 : |vv| ≤ rmsVel o := by rw [← hvv]; exact hP.2.2 k
      have v1 : |o.momentum * vv + gr / √(o.alpha * qv + (1 - o.alpha) * gr * gr + o.epsilon)| ≤ rmsVel o := by
        have e : rmsVel o = o.momentum * rmsVel o + 1 / √(1 - o.alpha) := by
          unfold rmsVel
          rw [max_eq_left hm.le]
          have : (1 - o.momentum) ≠ 0 := by linarith [h.momentum]
          field_simp
          ring
        rw [e]
        refine (abs_add_le _ _).trans (add_le_add ?_ hu)
        rw [abs_mul, abs_of_pos hm]
        exact mul_le_mul_of_nonneg_left v0 hm.le
      refine ⟨upTo_set hP.1 hw hwt ?_, hq', fun j => ?_⟩
      · rw [sub_sub_cancel_left, abs_neg, abs_mul, abs_of_nonneg h.rate]
        exact mul_le_mul_of_nonneg_left v1 h.rate
      · dsimp only
        rw [(set_nat_data hvel).1, getD_set_real _ _ _ _ hvl]
        split
        · exact v1
        · exact hP.2.2 j
    · rw [if_neg hm] at hs
      obtain ⟨wt, hwt, hs⟩ := bind_ok hs
      cases hs
      refine ⟨upTo_set hP.1 hw hwt ?_, hq', hP.2.2⟩
      rw [sub_sub_cancel_left, abs_neg, abs_mul, abs_of_nonneg h.rate]
      refine mul_le_mul_of_nonneg_left (hu.trans (le_of_eq ?_)) h.rate
      rw [max_eq_right (not_lt.1 hm), sub_zero, mul_one]


variable {K : Type} [DecidableEq K]

/-- The entry of a map for position `j` of the tensor at `k`. -/
def entry (m : TMap K ℝ) (k : K) (j : Nat) : ℝ := match m k with
  | some t => t.data.getD j 0
  | none => 0

theorem lookup_entry (m : TMap K ℝ) (k : K) (s : Shape) (j : Nat) : (lookupOrZero m k s).data.getD j 0 = entry m k j := by
  unfold lookupOrZero entry
  cases m k with
  | some t => rfl
  | none =>
    simp only [Tensor.full, List.getD_eq_getElem?_getD, List.getElem?_replicate]
    split <;> rfl

theorem entry_assign (m : TMap K ℝ) (k k' : K) (t : Tensor ℝ) (j : Nat) :
    entry (assign m k (some t)) k' j = if k' = k then t.data.getD j 0 else entry m k' j := by
  unfold entry assign
  by_cases h : k' = k
  · simp only [if_pos h]
  · simp only [if_neg h]

/-- What the state of the optimizer satisfies between two calls. -/
def Steady (B : ℝ) : Optimizer K ℝ → Prop
  | .sgd _ => False
  | .rmsprop o => TameRMSProp o.opts ∧ rmsStep o.opts ≤ B ∧
      ∀ k j, 0 ≤ entry o.squaredGrads k j ∧ |entry o.velocityBuffers k j| ≤ rmsVel o.opts
  | .adam o => TameAdam o.opts ∧ adamStep o.opts ≤ B ∧ ∀ k j, MomentsBound o.opts.beta1 o.opts.beta2 (entry o.m k j) (entry o.v k j)

/-- What it satisfies during a call. -/
def Running (B : ℝ) (opt : Optimizer K ℝ) : Prop :=
  Steady B opt ∧ ∀ o, opt = .adam o → 1 ≤ o.iterations ∧ 0 ≤ o.learningRate ∧ o.learningRate ≤ o.opts.learningRate

theorem adamStep_nonneg {o : AdamOptions ℝ} (h : TameAdam o) : 0 ≤ adamStep o := by
  refine mul_nonneg h.rate (add_nonneg (div_nonneg (mul_nonneg ?_ (Real.sqrt_nonneg _)) ?_) (le_max_right _ _))
  · linarith [h.beta1_lt]
  · linarith [h.tiny_lt]

theorem steady_nonneg {B : ℝ} {opt : Optimizer K ℝ} (h : Steady B opt) : 0 ≤ B := by
  cases opt with
  | sgd o => exact h.elim
  | rmsprop o => exact (mul_nonneg h.1.rate (rmsVel_nonneg h.1)).trans h.2.1
  | adam o => exact (adamStep_nonneg h.1).trans h.2.1

theorem begin_running {B : ℝ} {w : World K ℝ} (h : Steady B w.opt) : Running B (w.begin (-1)).opt := by
  obtain ⟨mem, opt⟩ := w
  cases opt with
  | sgd o => exact h.elim
  | rmsprop o => exact ⟨h, by intro o e; cases e⟩
  | adam o =>
    refine ⟨h, ?_⟩
    intro o' e
    cases e
    have hr := h.1.rate
    refine ⟨by simp [Adam.updateLearningRate], ?_⟩
    simp only [Adam.updateLearningRate, if_pos (show (-1 : ℝ) ≤ 0 by norm_num)]
    have k : 0 ≤ (if 0 < o.opts.decay then 1 / (1 + o.opts.decay * ((o.iterations + 1 : Nat) : ℝ)) else 1) ∧
        (if 0 < o.opts.decay then 1 / (1 + o.opts.decay * ((o.iterations + 1 : Nat) : ℝ)) else 1) ≤ (1 : ℝ) := by
      split
      · next hd =>
        have : 0 ≤ o.opts.decay * ((o.iterations + 1 : Nat) : ℝ) := mul_nonneg hd.le (Nat.cast_nonneg _)
        exact ⟨div_nonneg zero_le_one (by linarith), (div_le_one (by linarith)).2 (by linarith)⟩
      · exact ⟨zero_le_one, le_rfl⟩
    exact ⟨mul_nonneg hr k.1, mul_le_of_le_one_right hr k.2⟩

theorem stepPair_bound {B : ℝ} {w w' : World K ℝ} {p : K × Tensor ℝ} (h : Running B w.opt) (hs : stepPair (-1) w p = .ok w') :
    Running B w'.opt ∧ MovedBy B (w.mem p.1) (w'.mem p.1) ∧ ∀ k, k ≠ p.1 → w'.mem k = w.mem k := by
  obtain ⟨mem, opt⟩ := w
  cases opt with
  | sgd o => exact h.1.elim
  | rmsprop o =>
    obtain ⟨⟨h1, h2, h3⟩, -⟩ := h
    obtain ⟨a, ha, hs⟩ := bind_ok hs
    cases hs
    obtain ⟨r, hr, ha⟩ := bind_ok ha
    cases ha
    rw [show currentLR o.opts.learningRate (-1) = o.opts.learningRate from if_neg (by norm_num)] at hr
    obtain ⟨k1, k2, k3⟩ := rms_loop_bound h1 (fun j => by rw [lookup_entry]; exact (h3 p.1 j).1)
      (fun j => by rw [lookup_entry]; exact (h3 p.1 j).2) hr
    refine ⟨⟨⟨h1, h2, fun k j => ⟨?_, ?_⟩⟩, by intro o e; cases e⟩, ?_, fun k hk => if_neg hk⟩
    · dsimp only
      rw [entry_assign]
      split
      · exact k2 j
      · exact (h3 k j).1
    · dsimp only
      by_cases hm : 0 < o.opts.momentum
      · rw [if_pos hm, entry_assign]
        split
        · exact k3 j
        · exact (h3 k j).2
      · rw [if_neg hm]
        exact (h3 k j).2
    · simp only [assign, if_true]
      exact k1.mono h2
  | adam o =>
    obtain ⟨⟨h1, h2, h3⟩, h4⟩ := h
    obtain ⟨i1, i2, i3⟩ := h4 o rfl
    obtain ⟨a, ha, hs⟩ := bind_ok hs
    cases hs
    obtain ⟨r, hr, ha⟩ := bind_ok ha
    cases ha
    obtain ⟨k1, k2⟩ := adam_loop_bound h1 i2 i3 i1 (fun j => by rw [lookup_entry, lookup_entry]; exact h3 p.1 j) (adamStep_nonneg h1) hr
    refine ⟨⟨⟨h1, h2, fun k j => ?_⟩, ?_⟩, ?_, fun k hk => if_neg hk⟩
    · dsimp only
      rw [entry_assign, entry_assign]
      split
      · exact k2 j
      · exact h3 k j
    · intro o' e
      cases e
      exact ⟨i1, i2, i3⟩
    · simp only [assign, if_true]
      exact k1.mono h2

theorem optimizePair_bound {B : ℝ} {k0 k1 : K} (hk : k0 ≠ k1) {opt : Optimizer K ℝ} (h : Steady B opt) (p0 p1 g0 g1 : Tensor ℝ) :
    MovedBy B p0 (Layer.optimizePair k0 k1 opt p0 p1 g0 g1).2.1 ∧ MovedBy B p1 (Layer.optimizePair k0 k1 opt p0 p1 g0 g1).2.2.1 ∧
      Steady B (Layer.optimizePair k0 k1 opt p0 p1 g0 g1).2.2.2 := by
  have hB := steady_nonneg h
  unfold Layer.optimizePair World.optimizeM
  rw [if_neg (by simp)]
  rw [show ([k0, k1] : List K).zip [g0, g1] = [(k0, g0), (k1, g1)] from rfl]
  have hr := begin_running (w := ⟨fun k => if k = k0 then p0 else p1, opt⟩) h
  have hm : ((⟨fun k => if k = k0 then p0 else p1, opt⟩ : World K ℝ).begin (-1)).mem = fun k => if k = k0 then p0 else p1 := by
    unfold World.begin
    split <;> rfl
  rcases hu : ((⟨fun k => if k = k0 then p0 else p1, opt⟩ : World K ℝ).begin (-1)).updateTensors (-1)
    [(k0, g0), (k1, g1)] with e | w'
  · simp only [if_true, if_neg hk.symm]
    exact ⟨movedBy_refl hB _, movedBy_refl hB _, h⟩
  · rw [updateTensors_eq] at hu
    obtain ⟨w1, h1, hu⟩ := bind_ok hu
    obtain ⟨w2, h2, hu⟩ := bind_ok hu
    cases hu
    obtain ⟨a1, a2, a3⟩ := stepPair_bound hr h1
    obtain ⟨b1, b2, b3⟩ := stepPair_bound a1 h2
    dsimp only at a2 a3 b2 b3 ⊢
    rw [hm] at a2 a3
    simp only [if_true] at a2
    have a3' : w1.mem k1 = p1 := (a3 k1 hk.symm).trans (if_neg hk.symm)
    rw [a3'] at b2
    rw [b3 k0 hk]
    exact ⟨a2, b2, b1.1⟩

theorem pairMoved_refl {d : ℝ} (h : 0 ≤ d) (p : Option (Tensor ℝ × Tensor ℝ)) : PairMoved d p p := by
  cases p with
  | none => trivial
  | some p => exact ⟨movedBy_refl h _, movedBy_refl h _⟩

theorem pairMoved_trans {d e : ℝ} {p q r : Option (Tensor ℝ × Tensor ℝ)} (h1 : PairMoved d p q) (h2 : PairMoved e q r) :
    PairMoved (d + e) p r := by
  cases p <;> cases q <;> cases r <;> first | trivial | exact h1.elim | exact h2.elim | skip
  exact ⟨h1.1.trans h2.1, h1.2.trans h2.2⟩

theorem pairMoved_mono {d e : ℝ} {p q : Option (Tensor ℝ × Tensor ℝ)} (h1 : PairMoved d p q) (h : d ≤ e) : PairMoved e p q := by
  cases p <;> cases q <;> first | trivial | exact h1.elim | skip
  exact ⟨h1.1.mono h, h1.2.mono h⟩

theorem paramsMoved_refl {d : ℝ} (h : 0 ≤ d) (ls : List (Layer ℝ)) : ParamsMoved d ls ls :=
  List.forall₂_same.2 fun _ _ => pairMoved_refl h _

theorem Spec.ParamsMoved.trans {d e : ℝ} {a b c : List (Layer ℝ)} (h : ParamsMoved d a b) : ParamsMoved e b c → ParamsMoved (d + e) a c := by
  unfold ParamsMoved at *
  induction h generalizing c with
  | nil => intro h2; cases h2; exact .nil
  | cons h1 _ ih =>
    intro h2
    cases h2 with
    | cons h2 t2 => exact .cons (pairMoved_trans h1 h2) (ih t2)

theorem Spec.ParamsMoved.mono {d e : ℝ} {a b : List (Layer ℝ)} (h : ParamsMoved d a b) (he : d ≤ e) : ParamsMoved e a b :=
  List.Forall₂.imp (fun _ _ h => pairMoved_mono h he) h

theorem paramsMoved_congr {d : ℝ} {a b c : List (Layer ℝ)} (h : ParamsMoved d a b) : c.map params = b.map params → ParamsMoved d a c := by
  unfold ParamsMoved at *
  induction h generalizing c with
  | nil =>
    intro h2
    cases c with
    | nil => exact .nil
    | cons _ _ => simp at h2
  | cons h1 _ ih =>
    intro h2
    cases c with
    | nil => simp at h2
    | cons _ _ =>
      simp only [List.map_cons, List.cons.injEq] at h2
      exact .cons (by rw [h2.1]; exact h1) (ih h2.2)

theorem layer_update_bound {B : ℝ} {k0 k1 : K} (hk : k0 ≠ k1) (l : Layer ℝ) {opt : Optimizer K ℝ} (h : Steady B opt) :
    PairMoved B (params l) (params (Layer.updateWeights k0 k1 (l, opt)).2.1) ∧ Steady B (Layer.updateWeights k0 k1 (l, opt)).2.2 := by
  have hB := steady_nonneg h
  obtain ⟨kind, mode⟩ := l
  cases kind with
  | fc c =>
    unfold Layer.updateWeights
    dsimp only
    rcases c.weightGradients with _ | wg
    · exact ⟨pairMoved_refl hB _, h⟩
    · rcases c.biasGradients with _ | bg
      · exact ⟨pairMoved_refl hB _, h⟩
      · obtain ⟨a, b, c⟩ := optimizePair_bound hk h c.weights c.biases wg bg
        exact ⟨⟨a, b⟩, c⟩
  | conv c =>
    unfold Layer.updateWeights
    dsimp only
    rcases c.weightGradients with _ | wg
    · exact ⟨pairMoved_refl hB _, h⟩
    · rcases c.biasGradients with _ | bg
      · exact ⟨pairMoved_refl hB _, h⟩
      · obtain ⟨a, b, c⟩ := optimizePair_bound hk h c.weights c.biases wg bg
        exact ⟨⟨a, b⟩, c⟩
  | batchNorm c =>
    unfold Layer.updateWeights
    dsimp only
    rcases c.gammaGrad with _ | wg
    · exact ⟨pairMoved_refl hB _, h⟩
    · rcases c.betaGrad with _ | bg
      · exact ⟨pairMoved_refl hB _, h⟩
      · obtain ⟨a, b, c⟩ := optimizePair_bound hk h c.gamma c.beta wg bg
        exact ⟨⟨a, b⟩, c⟩
  | flatten k => exact ⟨pairMoved_refl hB _, h⟩
  | maxPool k => exact ⟨pairMoved_refl hB _, h⟩
  | dropout k => exact ⟨pairMoved_refl hB _, h⟩
  | activation k => exact ⟨pairMoved_refl hB _, h⟩

theorem updateLayers_bound {B : ℝ} : ∀ (ls : List (Layer ℝ)) (i : Nat) {opt : Optimizer (Nat × Bool) ℝ}, Steady B opt →
    ParamsMoved B ls (updateLayers i ls opt).2.1 ∧ Steady B (updateLayers i ls opt).2.2 := by
  intro ls
  induction ls with
  | nil => intro i opt h; exact ⟨.nil, h⟩
  | cons a ls ih =>
    intro i opt h
    unfold updateLayers
    have h1 := layer_update_bound (k0 := (i, false)) (k1 := (i, true)) (by simp) a h
    rcases hu : Layer.updateWeights (i, false) (i, true) (a, opt) with ⟨e | u, a', opt'⟩
    · rw [hu] at h1
      exact ⟨.cons h1.1 (paramsMoved_refl (steady_nonneg h) _), h1.2⟩
    · rw [hu] at h1
      obtain ⟨b1, b2⟩ := ih (i + 1) h1.2
      exact ⟨.cons h1.1 b1, b2⟩

variable {ρ : Type}

/-- After at most `n` updates. -/
def Within (B : ℝ) (base : List (Layer ℝ)) (n : Nat) (net : Net ρ ℝ) : Prop :=
  ParamsMoved (n * B) base net.layers ∧ ∀ opt, net.optimizer = some opt → Steady B opt

theorem within_mono {B : ℝ} (hB : 0 ≤ B) {base : List (Layer ℝ)} {n m : Nat} {net : Net ρ ℝ} (h : Within B base n net) (hn : n ≤ m) :
    Within B base m net :=
  ⟨h.1.mono (mul_le_mul_of_nonneg_right (Nat.cast_le.2 hn) hB), h.2⟩

theorem within_learned {B : ℝ} {base : List (Layer ℝ)} {n : Nat} {net net' : Net ρ ℝ} (h : Within B base n net)
    (hs : SameLearned net net') : Within B base n net' :=
  ⟨paramsMoved_congr h.1 hs.1, by rw [hs.2.1]; exact h.2⟩

theorem updateWeights_within {B : ℝ} (hB : 0 ≤ B) {base : List (Layer ℝ)} {n : Nat} {net : Net ρ ℝ} (h : Within B base n net) :
    Within B base (n + 1) (updateWeights net).2 := by
  obtain ⟨layers, loss, optimizer, rng⟩ := net
  unfold updateWeights
  cases layers with
  | nil => exact within_mono hB h (by omega)
  | cons l ls =>
    cases optimizer with
    | none => exact within_mono hB h (by omega)
    | some opt =>
      obtain ⟨k1, k2⟩ := updateLayers_bound (l :: ls) 0 (h.2 opt rfl)
      refine ⟨?_, ?_⟩
      · rw [Nat.cast_succ, add_mul, one_mul]
        exact h.1.trans k1
      · intro o ho
        cases ho
        exact k2

/-- `m` makes at most `c` updates. -/
def Costs {α : Type} (B : ℝ) (base : List (Layer ℝ)) (c : Nat) (m : Mut (Session ρ ℝ) α) : Prop :=
  ∀ s n, Within B base n s.net → Within B base (n + c) (m s).2.net

section
variable {B : ℝ} {base : List (Layer ℝ)}

theorem costs_bind (hB : 0 ≤ B) {α β : Type} {c d : Nat} {m : Mut (Session ρ ℝ) α} {f : α → Mut (Session ρ ℝ) β}
    (hm : Costs B base c m) (hf : ∀ a, Costs B base d (f a)) : Costs B base (c + d) (m >>= f) := by
  intro s n hs
  rw [Mut.bind_apply]
  have := hm s n hs
  rcases h : m s with ⟨e | a, s'⟩
  · rw [h] at this
    exact within_mono hB this (by omega)
  · rw [h] at this
    rw [← Nat.add_assoc]
    exact hf a s' _ this

theorem costs_free {α β : Type} (hB : 0 ≤ B) {d : Nat} {m : Mut (Session ρ ℝ) α} {f : α → Mut (Session ρ ℝ) β}
    (hm : Costs B base 0 m) (hf : ∀ a, Costs B base d (f a)) : Costs B base d (m >>= f) := by
  have := costs_bind hB hm hf
  rwa [Nat.zero_add] at this

theorem costs_lift {α : Type} (r : Res α) : Costs (ρ := ρ) B base 0 (Mut.lift r) := fun _ _ h => h

theorem costs_onNet {α : Type} {c : Nat} {m : Mut (Net ρ ℝ) α} (h : ∀ net n, Within B base n net → Within B base (n + c) (m net).2) :
    Costs B base c (Session.onNet m) := fun s n hs => h s.net n hs

theorem train_within (hB : 0 ≤ B) (E : Engine ρ ℝ) (inputs targets : List (Tensor ℝ)) (n : Int) :
    Costs B base (n.toNat * inputs.length) (train E inputs targets n) := by
  have hs : ∀ x i, Costs B base 1 (trainSample E x targets i) := by
    intro x i
    unfold trainSample
    refine costs_free hB (costs_onNet fun net n h => within_learned h (predict_learned E x net)) fun pred => ?_
    refine costs_free hB (fun s n hs => hs) fun s => ?_
    refine costs_free hB (costs_lift _) fun L => costs_free hB (costs_lift _) fun t => costs_free hB (costs_lift _) fun v =>
      costs_free hB (costs_lift _) fun tot => costs_free hB (fun s n hs => hs) fun _ => costs_free hB (costs_lift _) fun g =>
      costs_free hB (costs_onNet fun net n h => within_learned h (backward_learned g net)) fun _ =>
        costs_onNet fun net n h => updateWeights_within hB h
  have hss : ∀ (xs : List (Tensor ℝ)) i, Costs B base xs.length (trainSamples E targets i xs) := by
    intro xs
    induction xs with
    | nil => exact fun _ _ _ h => h
    | cons x xs ih =>
      intro i
      rw [List.length_cons, Nat.add_comm]
      exact costs_bind hB (hs x i) fun _ => ih (i + 1)
  have he : Costs B base inputs.length (trainEpoch E inputs targets) := by
    unfold trainEpoch
    refine costs_free hB (costs_lift _) fun _ => costs_free hB (fun s n hs => hs) fun _ => ?_
    refine costs_bind (d := 0) hB (hss inputs 0) fun _ => ?_
    exact costs_free hB (fun s n hs => hs) fun _ => costs_free hB (costs_lift _) fun _ => fun s n hs => hs
  unfold train Mut.forN
  generalize hL : List.range n.toNat = L
  have hl : L.length = n.toNat := by rw [← hL, List.length_range]
  rw [← hl]
  clear hl hL
  induction L with
  | nil => intro s n h; rw [List.length_nil, Nat.zero_mul]; exact h
  | cons a L ih =>
    rw [List.length_cons, Nat.add_mul, Nat.one_mul, Nat.add_comm]
    exact costs_bind hB he fun _ => ih

end
theorem tame_steady {B : ℝ} {opt : Optimizer K ℝ} (h : Tame B opt) : Steady B opt := by
  cases h with
  | adam o h hB => exact ⟨h, hB, fun _ _ => momentsBound_zero _ _⟩
  | rmsprop o h hB => exact ⟨h, hB, fun _ _ => ⟨le_rfl, by simpa [entry] using rmsVel_nonneg h⟩⟩

theorem tame_nonneg {B : ℝ} {opt : Optimizer K ℝ} (h : Tame B opt) : 0 ≤ B := steady_nonneg (tame_steady h)

theorem within_start {B : ℝ} {net : Net ρ ℝ} (h : ∀ opt, net.optimizer = some opt → Tame B opt) : Within B net.layers 0 net :=
  ⟨by rw [Nat.cast_zero, zero_mul]; exact paramsMoved_refl le_rfl _, fun opt ho => tame_steady (h opt ho)⟩

theorem predictAll_learned (E : Engine ρ ℝ) (xs : List (Tensor ℝ)) : ∀ net : Net ρ ℝ, SameLearned net (predictAll E xs net).2 := by
  induction xs with
  | nil => intro net; exact ⟨rfl, rfl, rfl⟩
  | cons x xs ih =>
    intro net
    have h1 := predict_learned E x net
    unfold predictAll
    rw [Mut.bind_apply]
    rcases hp : predict E x net with ⟨e | y, n1⟩
    · rw [hp] at h1
      exact h1
    · rw [hp] at h1
      have h2 := ih n1
      simp only [Mut.bind_apply]
      rcases hq : predictAll E xs n1 with ⟨e | ys, n2⟩
      · rw [hq] at h2
        exact h1.trans h2
      · rw [hq] at h2
        exact h1.trans h2

theorem setTrainingMode_params (net : Net ρ ℝ) (m : Bool) : SameLearned net (net.setTrainingMode m) := by
  refine ⟨?_, rfl, rfl⟩
  simp only [setTrainingMode, List.map_map]
  rfl

theorem after_within {B : ℝ} (hB : 0 ≤ B) (E : Engine ρ ℝ) (us : List Use) : ∀ {net : Net ρ ℝ} {base : List (Layer ℝ)} {n : Nat},
    (∀ L opt, Use.compile L opt ∈ us → Tame B opt) → Within B base n net →
    ∃ extra, Within B (base ++ extra) (n + updates us) (after E us net) := by
  induction us with
  | nil => intro net base n _ h; exact ⟨[], by rw [List.append_nil]; exact h⟩
  | cons u us ih =>
    intro net base n hu h
    suffices hs : ∃ extra, Within B (base ++ extra) (n + u.updates) (u.apply E net) by
      obtain ⟨e1, h1⟩ := hs
      obtain ⟨e2, h2⟩ := ih (fun L opt hm => hu L opt (List.mem_cons_of_mem _ hm)) h1
      refine ⟨e1 ++ e2, ?_⟩
      rw [← List.append_assoc, show n + updates (u :: us) = n + u.updates + updates us by
        unfold updates; rw [List.map_cons, List.sum_cons, Nat.add_assoc]]
      exact h2
    have same : Within B base n (u.apply E net) → u.updates = 0 → ∃ extra, Within B (base ++ extra) (n + u.updates) (u.apply E net) := by
      intro h0 e
      exact ⟨[], by rw [List.append_nil, e]; exact h0⟩
    cases u with
    | train xs ys k =>
      refine ⟨[], ?_⟩
      rw [List.append_nil]
      exact train_within hB E xs ys k ⟨net, ofFn [1] fun _ => 0, []⟩ n h
    | predict x => exact same (within_learned h (predict_learned E x net)) rfl
    | predictAll xs => exact same (within_learned h (predictAll_learned E xs net)) rfl
    | backward g => exact same (within_learned h (backward_learned g net)) rfl
    | updateWeights =>
      refine ⟨[], ?_⟩
      rw [List.append_nil]
      exact updateWeights_within hB h
    | mode m => exact same (within_learned h (setTrainingMode_params net m)) rfl
    | compile L opt =>
      refine same ⟨h.1, ?_⟩ rfl
      intro o ho
      cases ho
      exact tame_steady (hu L opt (by simp))
    | addLayer l =>
      refine ⟨[l], ?_, h.2⟩
      exact List.rel_append h.1 (paramsMoved_refl (mul_nonneg (Nat.cast_nonneg _) hB) [l])

end SmartDNN
