import Verif.Spec.Rounding
import Verif.Model.Scalar
import Mathlib.Analysis.SpecialFunctions.Log.Basic

/-!
# IEEE 754 arithmetic with infinities and NaN

`Format`: a set of numbers closed under negation, rounding to a nearest one (any rule for ties), and the largest finite number.
`Ieee R`: numbers of the format, the two infinities and NaN, with the operations of IEEE 754: round the exact result, go to an infinity on
overflow, `inf - inf`, `0 * inf`, `inf / inf` and `0 / 0` are NaN, and comparisons with NaN are false.  There is only one zero (its sign matters
only for the sign of `x / 0`).
-/

namespace SmartDNN
namespace Spec

structure Format where
  /-- Rounding with an unbounded exponent range. -/
  rd : ℝ → ℝ
  /-- The largest finite number. -/
  big : ℝ
  nearest : ∀ x y, |rd x - x| ≤ |rd y - x|
  neg : ∀ x, rd x = x → rd (-x) = -x
  zero : rd 0 = 0
  one : rd 1 = 1
  two : rd 2 = 2
  big_rd : rd big = big
  big_ge : 2 ^ 100 ≤ big
  /-- Numbers slightly above `big` round to it. -/
  under : ∀ x, |x| ≤ big + 1 → |rd x| ≤ big
  /-- Numbers far above `big` do not. -/
  over : ∀ x, 2 * big < x → big < rd x

inductive Ieee (R : Format) where
  | num (x : ℝ) (h : R.rd x = x) (hb : |x| ≤ R.big)
  | inf (neg : Bool)
  | nan

namespace Format
variable (R : Format)

theorem idem (x : ℝ) : R.rd (R.rd x) = R.rd x := by
  have := R.nearest (R.rd x) x
  rw [sub_self, abs_zero] at this
  exact sub_eq_zero.1 (abs_eq_zero.1 (le_antisymm this (abs_nonneg _)))

theorem mono {x y : ℝ} (h : x ≤ y) : R.rd x ≤ R.rd y := by
  rcases h.eq_or_lt with rfl | h
  · exact le_rfl
  by_contra hc
  rw [not_le] at hc
  have h1 := R.nearest x y
  have h2 := R.nearest y x
  rw [abs_le] at h1 h2
  rcases abs_cases (R.rd y - x) with ⟨a, -⟩ | ⟨a, -⟩ <;> rcases abs_cases (R.rd x - y) with ⟨b, -⟩ | ⟨b, -⟩ <;> rw [a] at h1 <;> rw [b] at h2 <;> linarith [h1.1, h1.2, h2.1, h2.2]

end Format

namespace Ieee
variable {R : Format}

theorem rd_neg_abs {x : ℝ} (h : |x| ≤ R.big) : |-x| ≤ R.big := by rwa [abs_neg]

open Classical in
/-- Rounding of an exact result. -/
noncomputable def ofReal (R : Format) (x : ℝ) : Ieee R :=
  if h : |R.rd x| ≤ R.big then .num (R.rd x) (R.idem x) h else .inf (decide (x < 0))

/-- The numbers (neither infinite nor NaN). -/
def Finite (a : Ieee R) : Prop := ∃ x h hb, a = .num x h hb

/-- The number a finite value stands for. -/
def val : Ieee R → ℝ
  | .num x _ _ => x
  | _ => 0

def neg : Ieee R → Ieee R
  | .num x h hb => .num (-x) (R.neg x h) (rd_neg_abs hb)
  | .inf s => .inf !s
  | .nan => .nan

noncomputable def add : Ieee R → Ieee R → Ieee R
  | .num x _ _, .num y _ _ => ofReal R (x + y)
  | .num _ _ _, .inf s => .inf s
  | .inf s, .num _ _ _ => .inf s
  | .inf s, .inf t => if s = t then .inf s else .nan
  | _, _ => .nan

open Classical in
noncomputable def mul : Ieee R → Ieee R → Ieee R
  | .num x _ _, .num y _ _ => ofReal R (x * y)
  | .num x _ _, .inf s => if x = 0 then .nan else .inf (s ^^ decide (x < 0))
  | .inf s, .num x _ _ => if x = 0 then .nan else .inf (s ^^ decide (x < 0))
  | .inf s, .inf t => .inf (s ^^ t)
  | _, _ => .nan

open Classical in
noncomputable def div : Ieee R → Ieee R → Ieee R
  | .num x _ _, .num y _ _ => if y = 0 then (if x = 0 then .nan else .inf (decide (x < 0))) else ofReal R (x / y)
  | .num _ _ _, .inf _ => ofReal R 0
  | .inf s, .num y _ _ => .inf (s ^^ decide (y < 0))
  | _, _ => .nan

def lt : Ieee R → Ieee R → Prop
  | .num x _ _, .num y _ _ => x < y
  | .num _ _ _, .inf s => s = false
  | .inf s, .num _ _ _ => s = true
  | .inf s, .inf t => s = true ∧ t = false
  | _, _ => False

def le : Ieee R → Ieee R → Prop
  | .num x _ _, .num y _ _ => x ≤ y
  | .num _ _ _, .inf s => s = false
  | .inf s, .num _ _ _ => s = true
  | .inf s, .inf t => s = true ∨ t = false
  | _, _ => False

noncomputable instance : Zero (Ieee R) := ⟨ofReal R 0⟩
noncomputable instance : One (Ieee R) := ⟨ofReal R 1⟩
instance : Neg (Ieee R) := ⟨neg⟩
noncomputable instance : Add (Ieee R) := ⟨add⟩
noncomputable instance : Sub (Ieee R) := ⟨fun a b => add a (neg b)⟩
noncomputable instance : Mul (Ieee R) := ⟨mul⟩
noncomputable instance : Div (Ieee R) := ⟨div⟩
noncomputable instance : NatCast (Ieee R) := ⟨fun n => ofReal R n⟩
noncomputable instance : IntCast (Ieee R) := ⟨fun n => ofReal R n⟩
instance : LT (Ieee R) := ⟨lt⟩
instance : LE (Ieee R) := ⟨le⟩
noncomputable instance : DecidableLT (Ieee R) := fun _ _ => Classical.dec _
noncomputable instance : DecidableLE (Ieee R) := fun _ _ => Classical.dec _
noncomputable instance : DecidableEq (Ieee R) := fun _ _ => Classical.dec _

/-- What the `<cmath>` functions guarantee; no accuracy is assumed beyond ranges, special values and the overflow of `exp`. -/
structure Libm (R : Format) [MathFn (Ieee R)] : Prop where
  exp_num : ∀ a : Ieee R, a.Finite → MathFn.exp a = .inf false ∨ (MathFn.exp a).Finite ∧ 0 ≤ (MathFn.exp a).val
  exp_nonpos : ∀ a : Ieee R, a.Finite → a.val ≤ 0 → (MathFn.exp a).Finite ∧ (MathFn.exp a).val ≤ 1
  exp_zero : MathFn.exp (0 : Ieee R) = 1
  exp_overflow : ∀ a : Ieee R, a.Finite → 2 * R.big < Real.exp a.val → MathFn.exp a = .inf false
  exp_inf : MathFn.exp (.inf false : Ieee R) = .inf false
  exp_neg_inf : MathFn.exp (.inf true : Ieee R) = 0
  exp_nan : MathFn.exp (.nan : Ieee R) = .nan
  log_num : ∀ a : Ieee R, a.Finite → 0 < a.val → (MathFn.log a).Finite
  log_nonpos : ∀ a : Ieee R, a.Finite → 0 < a.val → a.val ≤ 1 → (MathFn.log a).val ≤ 0
  log_inf : MathFn.log (.inf false : Ieee R) = .inf false
  log_nan : MathFn.log (.nan : Ieee R) = .nan
  tanh_num : ∀ a : Ieee R, a.Finite → (MathFn.tanh a).Finite ∧ |(MathFn.tanh a).val| ≤ 1
  tanh_inf : MathFn.tanh (.inf false : Ieee R) = 1
  tanh_nan : MathFn.tanh (.nan : Ieee R) = .nan
  /-- Converting to `float` keeps numbers numbers (or overflows to an infinity), and NaN NaN. -/
  toFloat_num : ∀ a : Ieee R, a.Finite → MathFn.toFloat a ≠ (.nan : Ieee R)
  toFloat_nan : MathFn.toFloat (.nan : Ieee R) = .nan

end Ieee
end Spec
end SmartDNN
