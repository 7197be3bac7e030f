import Verif.Proofs.Ieee
import Verif.Proofs.Softmax

/-! Ranges of IEEE results: products with factors up to 1, sums of numbers between 0 and 1. -/

namespace SmartDNN
open Spec

namespace Spec.Ieee
variable {R : Format}

/-- A number between 0 and 1. -/
def InUnit (a : Ieee R) : Prop := a.Finite ∧ 0 ≤ a.val ∧ a.val ≤ 1

theorem abs_rd {x : ℝ} (h : R.rd x = x) : R.rd |x| = |x| := by
  rcases abs_choice x with e | e <;> rw [e]
  · exact h
  · exact R.neg x h

theorem rd_abs_le {x y : ℝ} (hx : R.rd x = x) (h : |y| ≤ |x|) : |R.rd y| ≤ |x| := by
  have h1 := R.mono (abs_le.1 h).2
  have h2 := R.mono (abs_le.1 h).1
  rw [abs_rd hx] at h1
  rw [R.neg _ (abs_rd hx)] at h2
  exact abs_le.2 ⟨h2, h1⟩

theorem mul_small {a b : Ieee R} (ha : a.Finite) (hb : b.Finite) (h : |b.val| ≤ 1) :
    (a * b).Finite ∧ |(a * b).val| ≤ |a.val| ∧ (a * b).val = R.rd (a.val * b.val) := by
  obtain ⟨x, hx, hxb, rfl⟩ := ha
  obtain ⟨y, hy, hyb, rfl⟩ := hb
  have h1 : |x * y| ≤ |x| := by
    rw [abs_mul]
    exact mul_le_of_le_one_right (abs_nonneg x) h
  obtain ⟨f, v⟩ := ofReal_fin (R := R) (x := x * y) (by linarith)
  refine ⟨f, ?_, v⟩
  show |(ofReal R (x * y)).val| ≤ |x|
  rw [v]
  exact rd_abs_le hx h1

theorem mul_comm' (a b : Ieee R) : a * b = b * a := by
  show mul a b = mul b a
  cases a <;> cases b <;> simp only [mul, mul_comm, Bool.xor_comm]

theorem InUnit.abs {a : Ieee R} (h : a.InUnit) : |a.val| ≤ 1 := by rw [abs_of_nonneg h.2.1]; exact h.2.2

theorem InUnit.mul {a b : Ieee R} (ha : a.InUnit) (hb : b.InUnit) : (a * b).InUnit := by
  obtain ⟨f, h1, h2⟩ := mul_small ha.1 hb.1 hb.abs
  refine ⟨f, ?_, (le_abs_self _).trans (h1.trans ha.abs)⟩
  rw [h2]
  exact R.rd_nonneg (mul_nonneg ha.2.1 hb.2.1)

theorem InUnit.one_sub {a : Ieee R} (ha : a.InUnit) : (1 - a).InUnit := by
  obtain ⟨⟨x, hx, hxb, rfl⟩, h0, h1⟩ := ha
  change 0 ≤ x at h0
  change x ≤ 1 at h1
  rw [one_def]
  have hb := one_le_big R
  obtain ⟨f, v⟩ := ofReal_fin (R := R) (x := 1 + -x) (by rw [abs_of_nonneg (by linarith)]; linarith)
  refine ⟨f, ?_⟩
  show 0 ≤ (ofReal R (1 + -x)).val ∧ (ofReal R (1 + -x)).val ≤ 1
  rw [v]
  exact ⟨R.rd_nonneg (by linarith), R.rd_le_one (by linarith)⟩

theorem neg_one : (-1 : Ieee R) = .num (-1) (R.neg 1 R.one) (by rw [abs_neg, abs_one]; exact one_le_big R) := by
  rw [one_def]
  rfl

theorem InUnit.flip {a : Ieee R} (ha : a.InUnit) : (a * (-1) + 1).InUnit := by
  obtain ⟨⟨x, hx, hxb, rfl⟩, h0, h1⟩ := ha
  change 0 ≤ x at h0
  change x ≤ 1 at h1
  have hb := one_le_big R
  have e : (Ieee.num x hx hxb * (-1) : Ieee R) = .num (-x) (R.neg x hx) (rd_neg_abs hxb) := by
    rw [neg_one]
    show ofReal R (x * -1) = _
    rw [show x * -1 = -x by ring]
    exact ofReal_val _ _
  rw [e, one_def]
  obtain ⟨f, v⟩ := ofReal_fin (R := R) (x := -x + 1) (by rw [abs_of_nonneg (by linarith)]; linarith)
  refine ⟨f, ?_⟩
  show 0 ≤ (ofReal R (-x + 1)).val ∧ (ofReal R (-x + 1)).val ≤ 1
  rw [v]
  exact ⟨R.rd_nonneg (by linarith), R.rd_le_one (by linarith)⟩

theorem InUnit.sq {a : Ieee R} (ha : a.Finite) (h : |a.val| ≤ 1) : (a * a).InUnit := by
  obtain ⟨f, h1, h2⟩ := mul_small ha ha h
  refine ⟨f, ?_, (le_abs_self _).trans (h1.trans h)⟩
  rw [h2]
  exact R.rd_nonneg (mul_self_nonneg _)

/-- Adding a number up to 1 does not overflow. -/
theorem add_one_fin {a b : Ieee R} (ha : a.Finite) (h : |a.val| ≤ 1) (hb : b.Finite) : (a + b).Finite := by
  obtain ⟨x, hx, hxb, rfl⟩ := ha
  obtain ⟨y, hy, hyb, rfl⟩ := hb
  refine (ofReal_fin (R := R) (x := x + y) ?_).1
  change |x| ≤ 1 at h
  linarith [abs_add_le x y]

theorem ofReal_ne_nan (x : ℝ) : ofReal R x ≠ .nan := by
  rcases ofReal_cases R x with ⟨⟨_, _, _, h⟩, -⟩ | h <;> rw [h] <;> intro e <;> cases e

theorem Finite.ne_nan {a : Ieee R} (h : a.Finite) : a ≠ .nan := by
  obtain ⟨_, _, _, rfl⟩ := h
  intro e
  cases e

theorem mul_ne_nan {a b : Ieee R} (ha : a.Finite) (hb : b.Finite) : a * b ≠ .nan := by
  obtain ⟨x, hx, hxb, rfl⟩ := ha
  obtain ⟨y, hy, hyb, rfl⟩ := hb
  exact ofReal_ne_nan _

theorem one_inUnit : (1 : Ieee R).InUnit := by
  rw [one_def]
  exact ⟨⟨_, _, _, rfl⟩, zero_le_one, le_rfl⟩

theorem zero_inUnit : (0 : Ieee R).InUnit := by
  rw [zero_def]
  exact ⟨⟨_, _, _, rfl⟩, le_rfl, zero_le_one⟩

section
variable [MathFn (Ieee R)] (L : Libm R)
include L

/-- `exp` of anything but NaN. -/
theorem exp_cases {a : Ieee R} (h : a ≠ .nan) : MathFn.exp a = .inf false ∨ (MathFn.exp a).Finite ∧ 0 ≤ (MathFn.exp a).val := by
  cases a with
  | num x hx hb => exact L.exp_num _ ⟨x, hx, hb, rfl⟩
  | nan => exact absurd rfl h
  | inf s =>
    cases s
    · exact .inl L.exp_inf
    · rw [L.exp_neg_inf]
      exact .inr ⟨zero_inUnit.1, zero_inUnit.2.1⟩

theorem neg_ne_nan {a : Ieee R} (h : a ≠ .nan) : -a ≠ .nan := by
  cases a <;> first | exact absurd rfl h | (intro e; cases e)

theorem one_add_exp {a : Ieee R} (h : a ≠ .nan) :
    1 + MathFn.exp a = .inf false ∨ (1 + MathFn.exp a).Finite ∧ 1 ≤ (1 + MathFn.exp a).val := by
  rcases exp_cases L h with e | ⟨⟨x, hx, hb, e⟩, h0⟩
  · left
    rw [e, one_def]
    rfl
  · rw [e] at h0 ⊢
    change 0 ≤ x at h0
    rw [one_def]
    show ofReal R (1 + x) = _ ∨ (ofReal R (1 + x)).Finite ∧ 1 ≤ (ofReal R (1 + x)).val
    rcases ofReal_cases R (1 + x) with ⟨a, b⟩ | a
    · right
      refine ⟨a, ?_⟩
      rw [b]
      have := R.mono (show 1 ≤ 1 + x by linarith)
      rwa [R.one] at this
    · left
      rw [a, decide_eq_false (by linarith)]

theorem sig_inUnit {a : Ieee R} (h : a ≠ .nan) : (Act.sig a).InUnit := by
  unfold Act.sig
  rcases one_add_exp L (neg_ne_nan L h) with e | ⟨⟨x, hx, hb, e⟩, h1⟩
  · rw [e, one_def]
    show (ofReal R 0).InUnit
    exact zero_inUnit
  · rw [e] at h1 ⊢
    change 1 ≤ x at h1
    rw [one_def]
    show (if x = 0 then (if (1 : ℝ) = 0 then Ieee.nan else .inf (decide ((1 : ℝ) < 0))) else ofReal R (1 / x)).InUnit
    rw [if_neg (by linarith)]
    have a : 0 ≤ 1 / x := by positivity
    have b : 1 / x ≤ 1 := by rw [div_le_one (by linarith)]; exact h1
    have hb' := one_le_big R
    obtain ⟨f, v⟩ := ofReal_fin (R := R) (x := 1 / x) (by rw [abs_of_nonneg a]; linarith)
    exact ⟨f, v ▸ R.rd_nonneg a, v ▸ R.rd_le_one b⟩

theorem tanh_softplus {a : Ieee R} (h : a ≠ .nan) :
    (MathFn.tanh (Act.softplus a)).Finite ∧ |(MathFn.tanh (Act.softplus a)).val| ≤ 1 := by
  unfold Act.softplus
  rcases one_add_exp L h with e | ⟨f, h1⟩
  · rw [e, L.log_inf, L.tanh_inf]
    exact ⟨one_inUnit.1, one_inUnit.abs⟩
  · exact L.tanh_num _ (L.log_num _ f (by linarith))

end

/-! ### Sums -/

theorem sum_step {a e : Ieee R} (ha : a.Finite) (he : e.InUnit) (h0 : 0 ≤ a.val) (hb : a.val ≤ R.big) :
    (a + e).Finite ∧ a.val ≤ (a + e).val ∧ e.val ≤ (a + e).val ∧ (a + e).val ≤ a.val + 2 := by
  obtain ⟨x, hx, hxb, rfl⟩ := ha
  obtain ⟨⟨y, hy, hyb, rfl⟩, y0, y1⟩ := he
  change 0 ≤ y at y0
  change y ≤ 1 at y1
  change 0 ≤ x at h0
  change x ≤ R.big at hb
  obtain ⟨f, v⟩ := ofReal_fin (R := R) (x := x + y) (by rw [abs_of_nonneg (by linarith)]; linarith)
  refine ⟨f, ?_⟩
  show x ≤ (ofReal R (x + y)).val ∧ y ≤ (ofReal R (x + y)).val ∧ (ofReal R (x + y)).val ≤ x + 2
  rw [v]
  have h1 := R.mono (show x ≤ x + y by linarith)
  have h2 := R.mono (show y ≤ x + y by linarith)
  rw [hx] at h1
  rw [hy] at h2
  have h3 := R.nearest (x + y) x
  rw [hx, abs_of_nonpos (by linarith : x - (x + y) ≤ 0)] at h3
  refine ⟨h1, h2, ?_⟩
  linarith [le_abs_self (R.rd (x + y) - (x + y))]

theorem sum_inUnit (l : List (Ieee R)) (hl : ∀ e ∈ l, e.InUnit) (a : Ieee R) (ha : a.Finite) (h0 : 0 ≤ a.val)
    (hb : a.val + 2 * l.length ≤ R.big) :
    (l.foldl (· + ·) a).Finite ∧ a.val ≤ (l.foldl (· + ·) a).val ∧ (∀ e ∈ l, e.val ≤ (l.foldl (· + ·) a).val) := by
  induction l generalizing a with
  | nil => exact ⟨ha, le_rfl, by simp⟩
  | cons e l ih =>
    simp only [List.length_cons] at hb
    push_cast at hb
    obtain ⟨f, s1, s2, s3⟩ := sum_step ha (hl e (by simp)) h0 (by
      have : (0 : ℝ) ≤ l.length := Nat.cast_nonneg _
      linarith)
    obtain ⟨i1, i2, i3⟩ := ih (fun e' h => hl e' (by simp [h])) (a + e) f (h0.trans s1) (by linarith)
    refine ⟨i1, s1.trans i2, ?_⟩
    intro e' h'
    rcases List.mem_cons.1 h' with rfl | h'
    · exact s2.trans i2
    · exact i3 e' h'

/-! ### Softmax -/

theorem lt_fin {a b : Ieee R} (ha : a.Finite) (hb : b.Finite) : a < b ↔ a.val < b.val := by
  obtain ⟨x, hx, hxb, rfl⟩ := ha
  obtain ⟨y, hy, hyb, rfl⟩ := hb
  rfl

theorem foldMax_fin (n : Nat) (r : Nat → Ieee R) (hr : ∀ j ≤ n, (r j).Finite) :
    (∃ j ≤ n, foldMax n r = r j) ∧ ∀ j ≤ n, (r j).val ≤ (foldMax n r).val := by
  unfold foldMax
  induction n with
  | zero => simp
  | succ n ih =>
    rw [List.range_succ, List.foldl_append]
    simp only [List.foldl_cons, List.foldl_nil]
    obtain ⟨⟨j, hj, h1⟩, h2⟩ := ih (fun j hj => hr j (by omega))
    have hc := lt_fin (h1 ▸ hr j (by omega)) (hr (n + 1) le_rfl)
    split
    · rename_i h
      refine ⟨⟨n + 1, le_refl _, rfl⟩, ?_⟩
      intro k hk
      rcases Nat.lt_or_ge n k with h' | h'
      · rw [show k = n + 1 by omega]
      · exact (h2 k h').trans (hc.1 h).le
    · rename_i h
      refine ⟨⟨j, by omega, h1⟩, ?_⟩
      intro k hk
      rcases Nat.lt_or_ge n k with h' | h'
      · rw [show k = n + 1 by omega]; exact not_lt.1 (fun c => h (hc.2 c))
      · exact h2 k h'

theorem rowMax_fin {ds : List Nat} (hp : ∀ d ∈ ds, 0 < d) (f : List Nat → Ieee R) (b : Nat)
    (hf : ∀ y, ValidIdx ds y → (f (b :: y)).Finite) :
    (∃ y, ValidIdx ds y ∧ rowMax ds f b = f (b :: y)) ∧ ∀ y, ValidIdx ds y → (f (b :: y)).val ≤ (rowMax ds f b).val := by
  have hpp := prod_pos_of hp
  have hx : ∀ j ≤ ds.prod - 1, ∃ x, ValidIdx ds x ∧ (indices ds).getD j [] = x := by
    intro j hj
    obtain ⟨x, hx, _, hi⟩ := exists_idx_of_lt (ds := ds) (k := j) (by omega)
    exact ⟨x, hx, by simp [List.getD_eq_getElem?_getD, hi]⟩
  obtain ⟨⟨j, hj, h1⟩, h2⟩ := foldMax_fin (ds.prod - 1) (fun j => f (b :: (indices ds).getD j [])) (fun j hj => by
    obtain ⟨x, hv, e⟩ := hx j hj
    rw [e]
    exact hf x hv)
  constructor
  · obtain ⟨x, hv, e⟩ := hx j hj
    exact ⟨x, hv, by unfold rowMax; rw [h1, e]⟩
  · intro y hy
    have hr := ravel_lt hy
    have := h2 (ravel ds y) (by omega)
    have hi := indices_ravel hy
    simp only [List.getD_eq_getElem?_getD, hi, Option.getD_some] at this
    exact this

theorem exp_sub_max [MathFn (Ieee R)] (L : Libm R) {x m : Ieee R} (hx : x.Finite) (hm : m.Finite) (h : x.val ≤ m.val) :
    (MathFn.exp (x - m)).InUnit := by
  obtain ⟨a, ha, hab, rfl⟩ := hx
  obtain ⟨c, hc, hcb, rfl⟩ := hm
  change a ≤ c at h
  show (MathFn.exp (ofReal R (a + -c))).InUnit
  rcases ofReal_cases R (a + -c) with ⟨f, v⟩ | e
  · obtain ⟨f', h1⟩ := L.exp_nonpos _ f (by rw [v]; exact R.rd_nonpos (by linarith))
    rcases L.exp_num _ f with e | ⟨-, h0⟩
    · rw [e] at f'
      obtain ⟨_, _, _, e'⟩ := f'
      cases e'
    · exact ⟨f', h0, h1⟩
  · rcases h.eq_or_lt with rfl | h
    · have : ofReal R (a + -a) = 0 := by rw [add_neg_cancel]; rfl
      rw [this, L.exp_zero]
      exact one_inUnit
    · rw [e, decide_eq_true (by linarith), L.exp_neg_inf]
      exact zero_inUnit

theorem sub_self_fin {a : Ieee R} (h : a.Finite) : a - a = 0 := by
  obtain ⟨x, hx, hxb, rfl⟩ := h
  show ofReal R (x + -x) = ofReal R 0
  rw [add_neg_cancel]

/-- The divisor of a softmax row with finite inputs. -/
theorem rowSum_fin [MathFn (Ieee R)] (L : Libm R) {ds : List Nat} (hp : ∀ d ∈ ds, 0 < d) (hl : ds.prod < 2 ^ 31)
    (f : List Nat → Ieee R) (b : Nat) (hf : ∀ y, ValidIdx ds y → (f (b :: y)).Finite) :
    (rowSum ds f b).Finite ∧ 1 ≤ (rowSum ds f b).val := by
  obtain ⟨⟨y, hy, hm⟩, hmax⟩ := rowMax_fin hp f b hf
  have hmf : (rowMax ds f b).Finite := hm ▸ hf y hy
  have hz : (0 : Ieee R).val = 0 := by rw [zero_def]; rfl
  obtain ⟨h1, -, h3⟩ := sum_inUnit ((indices ds).map (fun y => MathFn.exp (f (b :: y) - rowMax ds f b)))
    (fun e he => by
      obtain ⟨y, hy, rfl⟩ := List.mem_map.1 he
      exact exp_sub_max L (hf y (mem_indices.1 hy)) hmf (hmax y (mem_indices.1 hy)))
    0 zero_inUnit.1 (by rw [hz]) (by
      rw [hz, List.length_map, length_indices]
      have h1 := R.big_ge
      have h2 : (ds.prod : ℝ) < 2 ^ 31 := by exact_mod_cast hl
      norm_num at *
      linarith)
  refine ⟨h1, ?_⟩
  have := h3 _ (List.mem_map.2 ⟨y, mem_indices.2 hy, rfl⟩)
  have e1 : (MathFn.exp (f (b :: y) - rowMax ds f b)).val = 1 := by
    rw [hm, sub_self_fin (hf y hy), L.exp_zero, one_def]
    rfl
  rw [e1] at this
  exact this

theorem div_ge_one {a s : Ieee R} (ha : a.InUnit) (hs : s.Finite) (h : 1 ≤ s.val) : (a / s).InUnit := by
  obtain ⟨⟨x, hx, hxb, rfl⟩, x0, x1⟩ := ha
  obtain ⟨y, hy, hyb, rfl⟩ := hs
  change 1 ≤ y at h
  change 0 ≤ x at x0
  change x ≤ 1 at x1
  show (if y = 0 then (if x = 0 then Ieee.nan else .inf (decide (x < 0))) else ofReal R (x / y)).InUnit
  rw [if_neg (by linarith)]
  have a : 0 ≤ x / y := div_nonneg x0 (by linarith)
  have b : x / y ≤ 1 := by rw [div_le_one (by linarith)]; linarith
  have hb' := one_le_big R
  obtain ⟨f, v⟩ := ofReal_fin (R := R) (x := x / y) (by rw [abs_of_nonneg a]; linarith)
  exact ⟨f, v ▸ R.rd_nonneg a, v ▸ R.rd_le_one b⟩

theorem softmax_inUnit [MathFn (Ieee R)] (L : Libm R) {d : Nat} {ds : List Nat} (hd : Dims (d :: ds))
    (f : List Nat → Ieee R) (hf : ∀ i, ValidIdx (d :: ds) i → (f i).Finite) {i : List Nat} (hi : ValidIdx (d :: ds) i) :
    (MathFn.exp (f i - rowMax ds f (i.headD 0)) / rowSum ds f (i.headD 0)).InUnit := by
  obtain ⟨b, y, rfl, hb, hy⟩ := validIdx_cons_iff.1 hi
  have hp : ∀ e ∈ ds, 0 < e := fun e he => hd.pos e (by simp [he])
  have hl : ds.prod < 2 ^ 31 := by
    have h1 := hd.lt
    have h2 := hd.pos d (by simp)
    rw [List.prod_cons] at h1
    nlinarith
  have hf' : ∀ y, ValidIdx ds y → (f (b :: y)).Finite := fun y hy => hf _ (ValidIdx.cons.2 ⟨hb, hy⟩)
  obtain ⟨⟨y', hy', hm⟩, hmax⟩ := rowMax_fin hp f b hf'
  obtain ⟨h1, h2⟩ := rowSum_fin L hp hl f b hf'
  exact div_ge_one (exp_sub_max L (hf' y hy) (hm ▸ hf' y' hy') (hmax y hy)) h1 h2

theorem add_bounded {a e : Ieee R} (ha : a.Finite) (he : e.Finite) (h : |a.val| + |e.val| ≤ R.big) :
    (a + e).Finite ∧ |(a + e).val| ≤ |a.val| + 2 * |e.val| := by
  obtain ⟨x, hx, hxb, rfl⟩ := ha
  obtain ⟨y, hy, hyb, rfl⟩ := he
  change |x| + |y| ≤ R.big at h
  have h1 := abs_add_le x y
  obtain ⟨f, v⟩ := ofReal_fin (R := R) (x := x + y) (by linarith)
  refine ⟨f, ?_⟩
  show |(ofReal R (x + y)).val| ≤ |x| + 2 * |y|
  rw [v]
  have h3 := R.nearest (x + y) x
  rw [hx] at h3
  have h4 : |x - (x + y)| = |y| := by rw [show x - (x + y) = -y by ring, abs_neg]
  have h5 := abs_add_le (R.rd (x + y) - (x + y)) (x + y)
  rw [sub_add_cancel] at h5
  linarith

theorem neg_fin {a : Ieee R} (ha : a.Finite) : (-a).Finite ∧ (-a).val = -a.val := by
  obtain ⟨x, hx, hxb, rfl⟩ := ha
  exact ⟨⟨-x, _, _, rfl⟩, rfl⟩

theorem sub_bounded {a e : Ieee R} (ha : a.Finite) (he : e.Finite) (h : |a.val| + |e.val| ≤ R.big) :
    (a - e).Finite ∧ |(a - e).val| ≤ |a.val| + 2 * |e.val| := by
  obtain ⟨f, v⟩ := neg_fin he
  have := add_bounded ha f (by rw [v, abs_neg]; exact h)
  rw [v, abs_neg] at this
  exact this

/-- Sums and differences of numbers up to `G`. -/
theorem foldl_bounded {α : Type} (l : List α) (step : Ieee R → α → Ieee R) {G : ℝ} (hG : 0 ≤ G)
    (hs : ∀ a, a.Finite → |a.val| + G ≤ R.big → ∀ y ∈ l, (step a y).Finite ∧ |(step a y).val| ≤ |a.val| + 2 * G) (a : Ieee R) (ha : a.Finite)
    (hb : |a.val| + 2 * l.length * G ≤ R.big) : (l.foldl step a).Finite := by
  induction l generalizing a with
  | nil => exact ha
  | cons y l ih =>
    simp only [List.length_cons] at hb
    push_cast at hb
    have hlG : 0 ≤ (l.length : ℝ) * G := by positivity
    obtain ⟨f, v⟩ := hs a ha (by nlinarith) y (by simp)
    exact ih (fun a ha h y hy => hs a ha h y (by simp [hy])) _ f (by nlinarith)

end Spec.Ieee
end SmartDNN
