import Verif.Proofs.IeeeRange
import Verif.Proofs.TensorOps
import Verif.Proofs.Elementwise

/-!
# Overflow and NaN in activations (C81)

`Ieee R` are the values of a floating-point type with format `R`, infinities and NaN (Spec/Ieee.lean); `Libm R` is what the theorems use about
the `<cmath>` functions.
-/

namespace SmartDNN
open Spec Ieee

variable {R : Format} [MathFn (Ieee R)]

/-- All elements are numbers. -/
def Spec.AllFinite (ds : List Nat) (f : List Nat → Ieee R) : Prop := ∀ i, ValidIdx ds i → (f i).Finite

/-- The activations for which the property holds: all but Tanh; LeakyReLU with a slope up to 1 (larger slopes can overflow). -/
def Spec.SafeAct : Act (Ieee R) → List Nat → Prop
  | .relu, _ => True
  | .leakyRelu alpha, _ => alpha.Finite ∧ |alpha.val| ≤ 1
  | .sigmoid, _ => True
  | .tanh, _ => False
  | .swish, _ => True
  | .mish, _ => True
  | .softmax, ds => Dims ds ∧ 2 ≤ ds.length

/-- Finite inputs give finite outputs.  Missing: Tanh, see `C81_tanh_refuted`. -/
theorem C81_forward_partial (L : Libm R) (ds : List Nat) (f : List Nat → Ieee R) (hf : AllFinite ds f) (a : Act (Ieee R)) (ha : SafeAct a ds) :
    ∃ g, a.forward (ofFn ds f) = .ok (ofFn ds g) ∧ AllFinite ds g := by
  cases a with
  | relu =>
    refine ⟨_, map_ofFn ds f _, fun i hi => ?_⟩
    unfold cmax
    split
    · exact hf i hi
    · exact zero_inUnit.1
  | leakyRelu alpha =>
    refine ⟨_, map_ofFn ds f _, fun i hi => ?_⟩
    beta_reduce
    split
    · exact hf i hi
    · rw [mul_comm']
      exact (mul_small (hf i hi) ha.1 ha.2).1
  | sigmoid => exact ⟨_, map_ofFn ds f _, fun i hi => (sig_inUnit L (L.toFloat_num _ (hf i hi))).1⟩
  | tanh => exact ha.elim
  | swish =>
    refine ⟨_, map_ofFn ds f _, fun i hi => ?_⟩
    have := sig_inUnit L (hf i hi).ne_nan
    exact (mul_small (hf i hi) this.1 this.abs).1
  | mish =>
    refine ⟨_, map_ofFn ds f _, fun i hi => ?_⟩
    have := tanh_softplus L (hf i hi).ne_nan
    exact (mul_small (hf i hi) this.1 this.2).1
  | softmax =>
    obtain ⟨hd, hr⟩ := ha
    match ds, hd, hr with
    | d :: e :: ds, hd, _ =>
      refine ⟨_, softmaxForward_ofFn hd (by simp) f, fun i hi => ?_⟩
      exact (softmax_inUnit L hd f hf hi).1

/-- Sigmoid and softmax stay between 0 and 1, even when exponentials overflow or underflow. -/
theorem C81_range (L : Libm R) (ds : List Nat) (f : List Nat → Ieee R) (hf : AllFinite ds f) (a : Act (Ieee R))
    (ha : a = .sigmoid ∨ a = .softmax ∧ Dims ds ∧ 2 ≤ ds.length) :
    ∃ g, a.forward (ofFn ds f) = .ok (ofFn ds g) ∧ ∀ i, ValidIdx ds i → (g i).Finite ∧ 0 ≤ (g i).val ∧ (g i).val ≤ 1 := by
  rcases ha with rfl | ⟨rfl, hd, hr⟩
  · exact ⟨_, map_ofFn ds f _, fun i hi => sig_inUnit L (L.toFloat_num _ (hf i hi))⟩
  · match ds, hd, hr with
    | d :: e :: ds, hd, _ => exact ⟨_, softmaxForward_ofFn hd (by simp) f, fun i hi => softmax_inUnit L hd f hf hi⟩

theorem tanh_overflow {x : Ieee R} (h : MathFn.exp (x * ((2 : Nat) : Ieee R)) = .inf false) :
    (MathFn.exp (x * ((2 : Nat) : Ieee R)) - 1) / (MathFn.exp (x * ((2 : Nat) : Ieee R)) + 1) = .nan := by
  rw [h, one_def]
  rfl

theorem two_def : ((2 : Nat) : Ieee R) = .num 2 R.two (by
    rw [abs_of_pos (by norm_num)]
    exact le_trans (by norm_num) R.big_ge) := by
  show ofReal R ((2 : Nat) : ℝ) = _
  rw [Nat.cast_ofNat]
  exact ofReal_val _ _

/-- Tanh of a finite input is NaN exactly if `exp(2 * x)` overflows. -/
theorem C81_tanh_iff (L : Libm R) (ds : List Nat) (f : List Nat → Ieee R) (hf : AllFinite ds f) :
    ∃ g, Act.tanh.forward (ofFn ds f) = .ok (ofFn ds g) ∧
      ∀ i, ValidIdx ds i → (g i = .nan ↔ MathFn.exp (f i * ((2 : Nat) : Ieee R)) = .inf false) := by
  refine ⟨_, map_ofFn ds f _, fun i hi => ⟨fun h => ?_, tanh_overflow⟩⟩
  obtain ⟨x, hx, hxb, hfx⟩ := hf i hi
  have hne : f i * ((2 : Nat) : Ieee R) ≠ .nan := by
    rw [hfx, two_def]
    exact ofReal_ne_nan _
  rcases exp_cases L hne with e | ⟨⟨y, hy, hyb, e⟩, h0⟩
  · exact e
  · exfalso
    rw [e] at h h0
    change 0 ≤ y at h0
    have hb := one_le_big R
    rw [one_def] at h
    change div (ofReal R (y + -1)) (ofReal R (y + 1)) = .nan at h
    have hyb' : y ≤ R.big := (le_abs_self y).trans hyb
    have h1 : |R.rd (y + -1)| ≤ R.big := R.under _ (by rw [abs_le]; constructor <;> linarith)
    have h2 : |R.rd (y + 1)| ≤ R.big := R.under _ (by rw [abs_le]; constructor <;> linarith)
    rw [ofReal_num h1, ofReal_num h2] at h
    change (if R.rd (y + 1) = 0 then _ else ofReal R (R.rd (y + -1) / R.rd (y + 1))) = Ieee.nan at h
    have h3 : 1 ≤ R.rd (y + 1) := by
      have := R.mono (show 1 ≤ y + 1 by linarith)
      rwa [R.one] at this
    rw [if_neg (by linarith)] at h
    exact ofReal_ne_nan _ h

/-- Tanh of every finite input `x` with `exp(x)` far above the largest number (for `float`, of every `x >= 90`) is NaN, not 1. -/
theorem C81_tanh_refuted (L : Libm R) (ds : List Nat) (f : List Nat → Ieee R) (hf : AllFinite ds f) :
    ∃ g, Act.tanh.forward (ofFn ds f) = .ok (ofFn ds g) ∧ ∀ i, ValidIdx ds i → 2 * R.big < Real.exp (f i).val → g i = .nan := by
  refine ⟨_, map_ofFn ds f _, fun i hi hx => tanh_overflow ?_⟩
  obtain ⟨x, hx', hxb, hfx⟩ := hf i hi
  rw [hfx] at hx ⊢
  change 2 * R.big < Real.exp x at hx
  have hb := one_le_big R
  have hx0 : 0 < x := by
    by_contra hc
    have := Real.exp_le_one_iff.2 (not_lt.1 hc)
    linarith
  rw [two_def]
  show MathFn.exp (ofReal R (x * 2)) = _
  rcases ofReal_cases R (x * 2) with ⟨a, b⟩ | a
  · refine L.exp_overflow _ a ?_
    rw [b]
    have := R.mono (show x ≤ x * 2 by linarith)
    rw [hx'] at this
    exact lt_of_lt_of_le hx (Real.exp_le_exp.2 this)
  · rw [a, decide_eq_false (by linarith)]
    exact L.exp_inf

/-- The largest number is such an input, in every format. -/
theorem C81_tanh_witness_refuted (L : Libm R) :
    ∃ x : Ieee R, x.Finite ∧ Act.tanh.forward (ofFn [1] fun _ => x) = .ok (ofFn [1] fun _ => .nan) := by
  have hb := one_le_big R
  have hf : (Ieee.num R.big R.big_rd (by rw [abs_of_pos (by linarith)]) : Ieee R).Finite := ⟨_, _, _, rfl⟩
  refine ⟨_, hf, ?_⟩
  obtain ⟨g, h1, h2⟩ := C81_tanh_refuted L [1] (fun _ => _) (fun _ _ => hf)
  rw [h1]
  congr 1
  refine ofFn_congr fun i hi => h2 i hi ?_
  show 2 * R.big < Real.exp R.big
  have h3 := R.big_ge
  have := Real.quadratic_le_exp_of_nonneg (show 0 ≤ R.big by linarith)
  nlinarith

/-- Back-propagation of finite gradients through finite inputs never gives NaN (an overflow to an infinity is possible); this includes Tanh,
whose backward does not use the formula of its forward. -/
theorem C81_backward (L : Libm R) {ds : List Nat} (hd : Dims ds) (f g : List Nat → Ieee R) (hf : AllFinite ds f) (hg : AllFinite ds g)
    (a : Act (Ieee R)) (hs : a ≠ .softmax) (hl : ∀ alpha, a = .leakyRelu alpha → alpha.Finite) :
    ∃ r, a.backward (ofFn ds f) (ofFn ds g) = .ok (ofFn ds r) ∧ ∀ i, ValidIdx ds i → r i ≠ .nan := by
  cases a with
  | relu =>
    refine ⟨fun i => (if 0 < f i then 1 else 0) * g i, ?_, fun i hi => ?_⟩
    · simp only [Act.backward, Tensor.apply]
      rw [map_ofFn]
      simp only [Except.bind_ok', mul_same hd]
    · refine mul_ne_nan ?_ (hg i hi)
      split
      · exact one_inUnit.1
      · exact zero_inUnit.1
  | leakyRelu alpha =>
    refine ⟨_, applyPair_ofFn ds f g _, fun i hi => ?_⟩
    beta_reduce
    split
    · exact (hg i hi).ne_nan
    · exact mul_ne_nan (hl alpha rfl) (hg i hi)
  | sigmoid =>
    refine ⟨fun i => Act.sig (MathFn.toFloat (f i)) * (Act.sig (MathFn.toFloat (f i)) * (-1) + 1) * g i, ?_, fun i hi => ?_⟩
    · simp only [Act.backward, Act.forward, Tensor.apply]
      rw [map_ofFn]
      simp only [Except.bind_ok', scalarSub_ofFn, mul_same hd]
    · have := sig_inUnit L (L.toFloat_num _ (hf i hi))
      exact mul_ne_nan (this.mul this.flip).1 (hg i hi)
  | tanh =>
    refine ⟨fun i => (1 - MathFn.tanh (f i) * MathFn.tanh (f i)) * g i, ?_, fun i hi => ?_⟩
    · simp only [Act.backward, Tensor.apply]
      rw [map_ofFn]
      simp only [Except.bind_ok', mul_same hd]
    · obtain ⟨h1, h2⟩ := L.tanh_num _ (hf i hi)
      exact mul_ne_nan (InUnit.sq h1 h2).one_sub.1 (hg i hi)
  | swish =>
    refine ⟨_, applyPair_ofFn ds f g _, fun i hi => ?_⟩
    have hsg := sig_inUnit L (hf i hi).ne_nan
    have h1 := mul_small (hf i hi) hsg.one_sub.1 hsg.one_sub.abs
    have h2 := add_one_fin one_inUnit.1 one_inUnit.abs h1.1
    refine mul_ne_nan (hg i hi) ?_
    rw [mul_comm']
    exact (mul_small h2 hsg.1 hsg.abs).1
  | mish =>
    refine ⟨_, applyPair_ofFn ds f g _, fun i hi => ?_⟩
    have hsg := sig_inUnit L (hf i hi).ne_nan
    obtain ⟨t1, t2⟩ := tanh_softplus L (hf i hi).ne_nan
    have hq := (InUnit.sq t1 t2).one_sub
    have h1 := mul_small (hf i hi) hq.1 hq.abs
    have h2 := mul_small h1.1 hsg.1 hsg.abs
    exact mul_ne_nan (hg i hi) (add_one_fin t1 t2 h2.1)
  | softmax => exact absurd rfl hs

/-- Softmax: gradients up to `G` with `2 n G` below the largest number (`n` the size of a row) give finite results. -/
theorem C81_softmax_backward (L : Libm R) {d : Nat} {ds : List Nat} (hd : Dims (d :: ds)) (hne : ds ≠ []) (f g : List Nat → Ieee R)
    (hf : AllFinite (d :: ds) f) (hg : AllFinite (d :: ds) g) {G : ℝ} (hG : ∀ i, ValidIdx (d :: ds) i → |(g i).val| ≤ G)
    (hb : 2 * ds.prod * G ≤ R.big) :
    ∃ r, Act.softmax.backward (ofFn (d :: ds) f) (ofFn (d :: ds) g) = .ok (ofFn (d :: ds) r) ∧ AllFinite (d :: ds) r := by
  refine ⟨_, softmaxBackward_ofFn hd hne f g, fun i hi => ?_⟩
  obtain ⟨b, x, rfl, hbd, hx⟩ := validIdx_cons_iff.1 hi
  have hv : ∀ y, ValidIdx ds y → ValidIdx (d :: ds) (b :: y) := fun y hy => ValidIdx.cons.2 ⟨hbd, hy⟩
  have hG0 : 0 ≤ G := (abs_nonneg _).trans (hG _ hi)
  have hz : (0 : Ieee R).val = 0 := by rw [zero_def]; rfl
  change (rowGrad ds _ g b x).Finite
  unfold rowGrad
  refine foldl_bounded _ _ hG0 (fun a ha hab y hy => ?_) 0 zero_inUnit.1 (by rw [hz, abs_zero, zero_add, length_indices]; exact hb)
  have hy' := hv y (mem_indices.1 hy)
  have sx := softmax_inUnit L hd f hf hi
  have sy := softmax_inUnit L hd f hf hy'
  simp only [List.headD_cons] at sx sy ⊢
  have key : ∀ c : Ieee R, c.InUnit → (c * g (b :: y)).Finite ∧ |(c * g (b :: y)).val| ≤ G := by
    intro c hc
    rw [mul_comm']
    obtain ⟨k1, k2, -⟩ := mul_small (hg _ hy') hc.1 hc.abs
    exact ⟨k1, k2.trans (hG _ hy')⟩
  by_cases hxy : x = y
  · rw [if_pos hxy]
    obtain ⟨k1, k2⟩ := key _ (sx.mul sy.one_sub)
    obtain ⟨m1, m2⟩ := add_bounded ha k1 (by linarith)
    exact ⟨m1, m2.trans (by linarith)⟩
  · rw [if_neg hxy]
    obtain ⟨k1, k2⟩ := key _ (sx.mul sy)
    obtain ⟨m1, m2⟩ := sub_bounded ha k1 (by linarith)
    exact ⟨m1, m2.trans (by linarith)⟩

/-- The assumptions hold for `float` (24 bits, exponents up to 127) with correctly rounded functions, where `tanh` of 100 is NaN and softmax,
sigmoid, swish and mish of it are finite. -/
example : @Libm (.binary 23 (-149) 127 (by omega) (by omega) (by omega) (by omega)) (rounded _) := Format.binary_libm _ _ _ _ (by norm_num)

end SmartDNN
