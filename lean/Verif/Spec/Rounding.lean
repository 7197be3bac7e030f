import Mathlib.Data.Real.Archimedean
import Mathlib.Data.Int.Log
import Mathlib.Algebra.Order.Field.Power
import Mathlib.Algebra.Order.Round
import Mathlib.Tactic.Linarith
import Mathlib.Tactic.Positivity
import Mathlib.Tactic.Ring
import Mathlib.Tactic.FieldSimp

/-!
# Floating-point arithmetic

`FloatModel F u η`: what IEEE 754 guarantees about the operations of a floating-point type `F` with unit roundoff `u`
and underflow error `η`: a finite result has finite operands (for `+`, `-`, `*`), and it is the exact result up to a relative
error `u` and, for products and quotients, an absolute error `η`.  Infinities and NaNs are the values that are not finite.
`binary p emin emax` is a concrete format: significands of `p` bits after the leading one, spacing of the subnormal numbers
`2^emin`, overflow above `2^emax`.
-/

namespace SmartDNN
namespace Spec

structure FloatModel (F : Type) [Zero F] [One F] [Add F] [Sub F] [Mul F] [Div F] [NatCast F] (u η : ℝ) where
  fin : F → Prop
  val : F → ℝ
  u_nonneg : 0 ≤ u
  η_nonneg : 0 ≤ η
  zero_fin : fin 0
  val_zero : val 0 = 0
  one_fin : fin 1
  val_one : val 1 = 1
  add : ∀ a b, fin (a + b) → fin a ∧ fin b ∧ |val (a + b) - (val a + val b)| ≤ u * |val a + val b|
  sub : ∀ a b, fin (a - b) → fin a ∧ fin b ∧ |val (a - b) - (val a - val b)| ≤ u * |val a - val b|
  mul : ∀ a b, fin (a * b) → fin a ∧ fin b ∧ |val (a * b) - val a * val b| ≤ u * |val a * val b| + η
  div : ∀ a b, fin a → fin b → val b ≠ 0 → fin (a / b) → |val (a / b) - val a / val b| ≤ u * |val a / val b| + η
  natCast : ∀ n : Nat, fin (n : F) → |val (n : F) - n| ≤ u * n

/-! ## A concrete format -/

/-- Distance of the numbers of the format around `x`. -/
noncomputable def ulp (p emin : Int) (x : ℝ) : ℝ := (2 : ℝ) ^ (max (Int.log 2 |x| - p) emin)

/-- Rounding to nearest, with ties upwards. -/
noncomputable def rnd (p emin : Int) (x : ℝ) : ℝ := round (x / ulp p emin x) * ulp p emin x

theorem ulp_pos (p emin : Int) (x : ℝ) : 0 < ulp p emin x := by unfold ulp; positivity

theorem rnd_err (p emin : Int) (x : ℝ) : |rnd p emin x - x| ≤ ulp p emin x / 2 := by
  have hp := ulp_pos p emin x
  have h := abs_sub_round (x / ulp p emin x)
  have : rnd p emin x - x = -((x / ulp p emin x - round (x / ulp p emin x)) * ulp p emin x) := by
    unfold rnd
    field_simp
    ring
  rw [this, abs_neg, abs_mul, abs_of_pos hp]
  nlinarith

theorem pow_log_le {x : ℝ} (hx : x ≠ 0) (p : Int) : (2 : ℝ) ^ (Int.log 2 |x| - p) ≤ 2 ^ (-p) * |x| := by
  have h := Int.zpow_log_le_self (b := 2) one_lt_two (abs_pos.2 hx)
  rw [sub_eq_add_neg, zpow_add₀ (by norm_num), mul_comm]
  push_cast at h
  exact mul_le_mul_of_nonneg_left h (by positivity)

/-- Every real number is rounded with a relative error of `2^-(p+1)` plus an absolute one of `2^(emin-1)`. -/
theorem rnd_close (p emin : Int) (x : ℝ) : |rnd p emin x - x| ≤ 2 ^ (-p) / 2 * |x| + 2 ^ emin / 2 := by
  by_cases hx : x = 0
  · subst hx
    have : rnd p emin 0 = 0 := by simp [rnd]
    rw [this]
    simp
    positivity
  · have h1 := rnd_err p emin x
    have h2 : ulp p emin x ≤ 2 ^ (-p) * |x| + 2 ^ emin := by
      unfold ulp
      rcases max_cases (Int.log 2 |x| - p) emin with ⟨h, -⟩ | ⟨h, -⟩ <;> rw [h]
      · have : (0 : ℝ) < 2 ^ emin := by positivity
        have := pow_log_le hx p
        linarith
      · have : (0 : ℝ) ≤ 2 ^ (-p) * |x| := by positivity
        linarith
    linarith

/-- Multiples of `2^emin` (such as sums and differences of numbers of the format) are rounded with a relative error only. -/
theorem rnd_close_grid (p emin : Int) (k : Int) :
    |rnd p emin (k * 2 ^ emin) - k * 2 ^ emin| ≤ 2 ^ (-p) / 2 * |(k : ℝ) * 2 ^ emin| := by
  set x : ℝ := k * 2 ^ emin with hxd
  by_cases hx : x = 0
  · rw [hx]
    simp [rnd]
  · rcases max_cases (Int.log 2 |x| - p) emin with ⟨h, -⟩ | ⟨h, -⟩
    · have h1 := rnd_err p emin x
      have h2 := pow_log_le hx p
      unfold ulp at h1
      rw [h] at h1
      linarith
    · have : rnd p emin x = x := by
        have he : ulp p emin x = 2 ^ emin := by unfold ulp; rw [h]
        unfold rnd
        rw [he, hxd]
        have : (k : ℝ) * 2 ^ emin / 2 ^ emin = k := by field_simp
        rw [this, round_intCast]
      rw [this, sub_self, abs_zero]
      positivity

/-- Rounded numbers are multiples of `2^emin`. -/
theorem rnd_grid (p emin : Int) (x : ℝ) : ∃ k : Int, rnd p emin x = k * 2 ^ emin := by
  unfold rnd ulp
  obtain ⟨n, hn⟩ := Int.eq_ofNat_of_zero_le (sub_nonneg.2 (le_max_right (Int.log 2 |x| - p) emin))
  refine ⟨round (x / 2 ^ (max (Int.log 2 |x| - p) emin)) * 2 ^ n, ?_⟩
  have : max (Int.log 2 |x| - p) emin = (n : Int) + emin := by omega
  rw [this, zpow_add₀ (by norm_num), zpow_natCast]
  push_cast
  ring

/-- Values of the format: multiples of the subnormal spacing `2^emin`, and `nonfinite` for infinities and NaN.  A result above
`2^emax` in absolute value is not finite. -/
inductive Binary (p emin emax : Int) where
  | num (x : ℝ) (h : ∃ k : Int, x = k * 2 ^ emin)
  | nonfinite

section
variable {p emin emax : Int}

noncomputable def Binary.round (x : ℝ) : Binary p emin emax :=
  open Classical in if |rnd p emin x| ≤ 2 ^ emax then .num (rnd p emin x) (rnd_grid p emin x) else .nonfinite

noncomputable def Binary.lift (f : ℝ → ℝ → ℝ) : Binary p emin emax → Binary p emin emax → Binary p emin emax
  | .num a _, .num b _ => Binary.round (f a b)
  | _, _ => .nonfinite

noncomputable instance : Zero (Binary p emin emax) := ⟨.num 0 ⟨0, by simp⟩⟩
noncomputable instance : One (Binary p emin emax) := ⟨Binary.round 1⟩
noncomputable instance : Add (Binary p emin emax) := ⟨Binary.lift (· + ·)⟩
noncomputable instance : Sub (Binary p emin emax) := ⟨Binary.lift (· - ·)⟩
noncomputable instance : Mul (Binary p emin emax) := ⟨Binary.lift (· * ·)⟩
noncomputable instance : Div (Binary p emin emax) := ⟨Binary.lift (· / ·)⟩
noncomputable instance : NatCast (Binary p emin emax) := ⟨fun n => Binary.round n⟩

/-- The number a finite value stands for. -/
noncomputable def Binary.val : Binary p emin emax → ℝ
  | .num a _ => a
  | .nonfinite => 0

theorem Binary.round_val {x : ℝ} (h : (Binary.round x : Binary p emin emax) ≠ .nonfinite) :
    (Binary.round x : Binary p emin emax).val = rnd p emin x := by
  unfold Binary.round at h ⊢
  split at h
  · rename_i hc
    rw [if_pos hc]
    rfl
  · exact absurd rfl h

theorem Binary.lift_ne_none {f : ℝ → ℝ → ℝ} {a b : Binary p emin emax} (h : Binary.lift f a b ≠ .nonfinite) :
    a ≠ .nonfinite ∧ b ≠ .nonfinite ∧ (Binary.lift f a b).val = rnd p emin (f a.val b.val) := by
  cases a with
  | nonfinite => exact absurd rfl h
  | num a _ =>
    cases b with
    | nonfinite => exact absurd rfl h
    | num b _ => exact ⟨by simp, by simp, Binary.round_val h⟩

theorem Binary.grid (a : Binary p emin emax) : ∃ k : Int, a.val = k * 2 ^ emin := by
  cases a with
  | nonfinite => exact ⟨0, by simp [Binary.val]⟩
  | num a h => exact h

theorem intCast_grid (hemin : emin ≤ 0) (n : Int) : ∃ k : Int, (n : ℝ) = k * 2 ^ emin := by
  obtain ⟨m, hm⟩ := Int.eq_ofNat_of_zero_le (neg_nonneg.2 hemin)
  refine ⟨n * 2 ^ m, ?_⟩
  have : emin = -(m : Int) := by omega
  rw [this, zpow_neg, zpow_natCast]
  push_cast
  field_simp

/-- Integers of at most `p + 1` bits are not rounded. -/
theorem rnd_int (hemin : emin ≤ 0) (n : Int) (hn : |(n : ℝ)| < 2 ^ (p + 1)) : rnd p emin n = n := by
  by_cases h0 : n = 0
  · subst h0
    simp [rnd]
  have hx : (0 : ℝ) < |(n : ℝ)| := abs_pos.2 (by exact_mod_cast h0)
  have hl : Int.log 2 |(n : ℝ)| < p + 1 := (Int.lt_zpow_iff_log_lt one_lt_two hx).1 (by push_cast; exact hn)
  unfold rnd ulp
  obtain ⟨m, hm⟩ := Int.eq_ofNat_of_zero_le (neg_nonneg.2 (max_le (by omega : Int.log 2 |(n : ℝ)| - p ≤ 0) hemin))
  have : max (Int.log 2 |(n : ℝ)| - p) emin = -(m : Int) := by omega
  rw [this, zpow_neg, zpow_natCast]
  have h2 : (n : ℝ) / (2 ^ m)⁻¹ = ((n * 2 ^ m : Int) : ℝ) := by push_cast; field_simp
  rw [h2, round_intCast]
  push_cast
  field_simp

theorem rnd_one (hp : 0 ≤ p) (hemin : emin ≤ 0) : rnd p emin 1 = 1 := by
  have := rnd_int (p := p) hemin 1 (by
    simp only [Int.cast_one, abs_one]
    exact one_lt_zpow₀ (by norm_num) (by omega))
  simpa using this

/-- The format meets the model; for `float`, `p = 23` and `emin = -149`. -/
noncomputable def binary (hp : 0 ≤ p) (hemin : emin ≤ 0) (hemax : 0 ≤ emax) :
    FloatModel (Binary p emin emax) (2 ^ (-p) / 2) (2 ^ emin / 2) where
  fin a := a ≠ .nonfinite
  val := Binary.val
  u_nonneg := by positivity
  η_nonneg := by positivity
  zero_fin := by intro h; cases h
  val_zero := rfl
  one_fin := by
    show Binary.round 1 ≠ .nonfinite
    unfold Binary.round
    rw [if_pos]
    · intro h; cases h
    · rw [rnd_one hp hemin, abs_one]
      exact one_le_zpow₀ (by norm_num) hemax
  val_one := by
    show (Binary.round 1).val = 1
    rw [Binary.round_val, rnd_one hp hemin]
    unfold Binary.round
    rw [if_pos]
    · intro h; cases h
    · rw [rnd_one hp hemin, abs_one]
      exact one_le_zpow₀ (by norm_num) hemax
  add a b h := by
    obtain ⟨h1, h2, h3⟩ := Binary.lift_ne_none h
    refine ⟨h1, h2, ?_⟩
    obtain ⟨i, hi⟩ := a.grid
    obtain ⟨j, hj⟩ := b.grid
    have : a.val + b.val = ((i + j : Int) : ℝ) * 2 ^ emin := by rw [hi, hj]; push_cast; ring
    rw [show (a + b).val = _ from h3, this]
    exact rnd_close_grid p emin (i + j)
  sub a b h := by
    obtain ⟨h1, h2, h3⟩ := Binary.lift_ne_none h
    refine ⟨h1, h2, ?_⟩
    obtain ⟨i, hi⟩ := a.grid
    obtain ⟨j, hj⟩ := b.grid
    have : a.val - b.val = ((i - j : Int) : ℝ) * 2 ^ emin := by rw [hi, hj]; push_cast; ring
    rw [show (a - b).val = _ from h3, this]
    exact rnd_close_grid p emin (i - j)
  mul a b h := by
    obtain ⟨h1, h2, h3⟩ := Binary.lift_ne_none h
    refine ⟨h1, h2, ?_⟩
    rw [show (a * b).val = _ from h3]
    exact rnd_close p emin _
  div a b _ _ _ h := by
    obtain ⟨-, -, h3⟩ := Binary.lift_ne_none h
    rw [show (a / b).val = _ from h3]
    exact rnd_close p emin _
  natCast n h := by
    obtain ⟨k, hk⟩ := intCast_grid hemin (n : Int)
    rw [show ((n : Nat) : Binary p emin emax).val = _ from Binary.round_val h]
    have hn : ((n : Nat) : ℝ) = k * 2 ^ emin := by rw [← hk]; simp
    have := rnd_close_grid p emin k
    rw [← hn, abs_of_nonneg (a := (n : ℝ)) (Nat.cast_nonneg n)] at this
    exact this

end

end Spec
end SmartDNN
