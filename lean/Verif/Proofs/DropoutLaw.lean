import Verif.Props.Draws
import Mathlib.Probability.Moments.Basic

/-!
# Tails of normal numbers (proofs for C49)
-/

namespace SmartDNN
open Spec MeasureTheory ProbabilityTheory

variable {ρ : Type}

/-- Chernoff's bound for a normal number with mean 0. -/
theorem gaussian_tail {v : NNReal} (hv : v ≠ 0) {e : ℝ} (he : 0 ≤ e) : gaussianReal 0 v (Set.Ioi e) ≤ ENNReal.ofReal (Real.exp (-e ^ 2 / (2 * v))) := by
  have hv' : (v : ℝ) ≠ 0 := NNReal.coe_ne_zero.2 hv
  have ht : 0 ≤ e / v := div_nonneg he v.2
  have h := measure_ge_le_exp_mul_mgf (μ := gaussianReal 0 v) (X := id) (t := e / v) e ht (integrable_exp_mul_gaussianReal _)
  rw [mgf_id_gaussianReal, ← Real.exp_add, show -(e / (v : ℝ)) * e + (0 * (e / v) + v * (e / v) ^ 2 / 2) = -e ^ 2 / (2 * v) by field_simp; ring] at h
  refine (measure_mono (Set.Ioi_subset_Ici_self)).trans ?_
  rw [ENNReal.le_ofReal_iff_toReal_le (measure_ne_top _ _) (Real.exp_pos _).le]
  exact h

theorem gaussian_tail_size {n : Nat} (hn : 0 < n) {e : ℝ} (he : 0 ≤ e) : gaussianReal 0 (2 / n) (Set.Ioi e) ≤ ENNReal.ofReal (Real.exp (-(e ^ 2 * n) / 4)) := by
  have hp : (0 : ℝ) < n := Nat.cast_pos.2 hn
  have hv : (2 / n : NNReal) ≠ 0 := div_ne_zero (by norm_num) (Nat.cast_ne_zero.2 hn.ne')
  have key := gaussian_tail hv he
  rwa [show -e ^ 2 / (2 * ((2 / n : NNReal) : ℝ)) = -(e ^ 2 * n) / 4 by
    rw [NNReal.coe_div, NNReal.coe_natCast, NNReal.coe_ofNat]
    field_simp
    norm_num] at key

/-- In training mode, an element of the answer other than 0 has a draw above the rate. -/
theorem dropout_kept_draw (S : RandSource ρ ℝ) {ds : List Nat} (h : Dims ds) (f : List Nat → ℝ) (l : Dropout ℝ) (h0 : 0 ≤ l.dropoutRate) (h1 : l.dropoutRate < 1) (r : ρ) :
    ∃ y s, Dropout.forward S.engine true (ofFn ds f) (l, r) = (.ok (ofFn ds y), s) ∧
      ∀ i, (l.dropoutRate < gaussAt S (ravel ds i) r * Real.sqrt ((2 / (ds.prod : NNReal) : NNReal) : ℝ) → y i = f i / (1 - l.dropoutRate)) ∧
        (¬ l.dropoutRate < gaussAt S (ravel ds i) r * Real.sqrt ((2 / (ds.prod : NNReal) : NNReal) : ℝ) → y i = 0) := by
  obtain ⟨draw, s, y, e1, e2, e3⟩ := C49_decision_partial S.engine h f l r h1.ne
  refine ⟨y, s, e2, fun i => ?_⟩
  have := e3 i
  rwa [kept_iff h0 h1, e1, drawAt_gauss] at this

end SmartDNN
