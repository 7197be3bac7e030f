import Verif.Spec.RealFns
import Verif.Proofs.Calculus
import Mathlib.Analysis.Calculus.Deriv.Inv
import Mathlib.Analysis.SpecialFunctions.Log.Deriv

/-! Derivatives and monotonicity of the documented real functions. -/

namespace SmartDNN
open Spec

theorem sigmoid_pos (x : ℝ) : 0 < sigmoid x := by
  unfold sigmoid; positivity

theorem sigmoid_lt_one (x : ℝ) : sigmoid x < 1 := by
  unfold sigmoid
  rw [div_lt_one (by positivity)]
  have := Real.exp_pos (-x)
  linarith

theorem sigmoid_strictMono : StrictMono sigmoid := by
  intro a b h
  unfold sigmoid
  apply one_div_lt_one_div_of_lt (by positivity)
  have := Real.exp_lt_exp.2 (neg_lt_neg h)
  linarith

theorem hasDerivAt_sigmoid (x : ℝ) : HasDerivAt sigmoid (sigmoid x * (1 - sigmoid x)) x := by
  have h1 : HasDerivAt (fun x : ℝ => 1 + Real.exp (-x)) (-Real.exp (-x)) x := by
    have := ((hasDerivAt_id x).neg).exp.const_add 1
    simpa using this
  have hp : (1 + Real.exp (-x)) ≠ 0 := by positivity
  have h2 := (hasDerivAt_const x (1 : ℝ)).div h1 hp
  have : HasDerivAt sigmoid ((0 * (1 + Real.exp (-x)) - 1 * -Real.exp (-x)) / (1 + Real.exp (-x)) ^ 2) x := h2
  convert this using 1
  unfold sigmoid
  field_simp
  ring

theorem tanh_eq_exp (x : ℝ) : Real.tanh x = (Real.exp (x * 2) - 1) / (Real.exp (x * 2) + 1) := by
  rw [Real.tanh_eq_sinh_div_cosh, Real.sinh_eq, Real.cosh_eq, Real.exp_neg, mul_comm x 2, two_mul, Real.exp_add]
  have := Real.exp_pos x
  field_simp

theorem tanh_lt_one' (x : ℝ) : Real.tanh x < 1 := by
  rw [tanh_eq_exp, div_lt_one (by positivity)]
  linarith

theorem neg_one_lt_tanh' (x : ℝ) : -1 < Real.tanh x := by
  rw [tanh_eq_exp, lt_div_iff₀ (by positivity)]
  have := Real.exp_pos (x * 2)
  linarith

theorem tanh_strictMono' : StrictMono Real.tanh := by
  intro a b h
  rw [tanh_eq_exp, tanh_eq_exp, div_lt_div_iff₀ (by positivity) (by positivity)]
  have := Real.exp_lt_exp.2 (by linarith : a * 2 < b * 2)
  nlinarith

theorem hasDerivAt_tanh' (x : ℝ) : HasDerivAt Real.tanh (1 - Real.tanh x * Real.tanh x) x := by
  have h := (Real.hasDerivAt_sinh x).div (Real.hasDerivAt_cosh x) (Real.cosh_pos x).ne'
  have e : Real.tanh = fun x => Real.sinh x / Real.cosh x := funext Real.tanh_eq_sinh_div_cosh
  rw [e]
  have : HasDerivAt (fun x => Real.sinh x / Real.cosh x)
    ((Real.cosh x * Real.cosh x - Real.sinh x * Real.sinh x) / Real.cosh x ^ 2) x := h
  convert this using 1
  have := (Real.cosh_pos x).ne'
  field_simp

theorem hasDerivAt_swish (x : ℝ) : HasDerivAt swish (sigmoid x * (1 + x * (1 - sigmoid x))) x := by
  have := (hasDerivAt_id x).mul (hasDerivAt_sigmoid x)
  have h : HasDerivAt swish (1 * sigmoid x + id x * (sigmoid x * (1 - sigmoid x))) x := this
  convert h using 1
  simp only [id]
  ring

theorem hasDerivAt_softplus (x : ℝ) : HasDerivAt (fun x => Real.log (1 + Real.exp x)) (sigmoid x) x := by
  have h1 : HasDerivAt (fun x : ℝ => 1 + Real.exp x) (Real.exp x) x := (Real.hasDerivAt_exp x).const_add 1
  have h2 := h1.log (by positivity)
  convert h2 using 1
  unfold sigmoid
  rw [Real.exp_neg]
  have := Real.exp_pos x
  field_simp
  ring

theorem hasDerivAt_mish (x : ℝ) : HasDerivAt mish
    (Real.tanh (Real.log (1 + Real.exp x)) + x * (1 - Real.tanh (Real.log (1 + Real.exp x)) *
      Real.tanh (Real.log (1 + Real.exp x))) * sigmoid x) x := by
  have h1 := HasDerivAt.comp x (hasDerivAt_tanh' (Real.log (1 + Real.exp x))) (hasDerivAt_softplus x)
  have h2 := (hasDerivAt_id x).mul h1
  have h3 : HasDerivAt mish (1 * Real.tanh (Real.log (1 + Real.exp x)) +
    x * ((1 - Real.tanh (Real.log (1 + Real.exp x)) *
      Real.tanh (Real.log (1 + Real.exp x))) * sigmoid x)) x := h2
  convert h3 using 1
  ring

theorem hasDerivAt_leaky {alpha x : ℝ} (hx : x ≠ 0) :
    HasDerivAt (leaky alpha) (if 0 < x then 1 else alpha) x := by
  rcases lt_or_gt_of_ne hx with h | h
  · rw [if_neg (by linarith)]
    have h1 : HasDerivAt (fun x => alpha * x) alpha x := by simpa using (hasDerivAt_id x).const_mul alpha
    refine h1.congr_of_eventuallyEq ?_
    filter_upwards [Iio_mem_nhds h] with y hy
    have hy' : y < 0 := hy
    unfold leaky
    rw [if_neg (by linarith)]
  · rw [if_pos h]
    refine (hasDerivAt_id x).congr_of_eventuallyEq ?_
    filter_upwards [Ioi_mem_nhds h] with y hy
    have hy' : 0 < y := hy
    unfold leaky
    rw [if_pos hy']
    rfl

theorem relu_eq_leaky : relu = leaky 0 := by
  funext x
  unfold relu leaky
  split
  · exact max_eq_right (by linarith)
  · rw [max_eq_left (by linarith)]; ring

end SmartDNN
