import Verif.Spec.Draws
import Verif.Props.Dropout

/-!
# Lemmas about the draws of the random engine (for C122)
-/

namespace SmartDNN
open Spec MeasureTheory ProbabilityTheory

variable {ρ : Type}

theorem sqrt_pos_iff {a n : ℝ} (ha : 0 < a) : 0 < MathFn.sqrt (a / n) ↔ 0 < n := by
  change 0 < Real.sqrt (a / n) ↔ 0 < n
  rw [Real.sqrt_pos, div_pos_iff_of_pos_left ha]

theorem cmax_real (a b : ℝ) : cmax a b = max a b := by
  unfold cmax
  split
  · next h => exact (max_eq_right h.le).symm
  · next h => exact (max_eq_left (not_lt.1 h)).symm

theorem cmin_real (a b : ℝ) : cmin a b = min a b := by
  unfold cmin
  split
  · next h => exact (min_eq_right h.le).symm
  · next h => exact (min_eq_left (not_lt.1 h)).symm

theorem two_real : (((2 : Nat) : ℝ)) = 2 := by norm_num

theorem getRandRange_ok (S : RandSource ρ ℝ) {lo hi : ℝ} (h : lo ≤ hi) (r : ρ) :
    getRandRange S lo hi r = .ok ((S.canonical r).1 * (hi - lo) + lo, (S.canonical r).2) := by
  unfold getRandRange RandSource.uniform
  rw [if_neg (not_lt.2 h)]
  rfl

theorem getXavierInit_ok (S : RandSource ρ ℝ) {n : ℝ} (h : 0 < n) (r : ρ) : getXavierInit S n r = .ok ((S.gauss r).1 * Real.sqrt (1 / n), (S.gauss r).2) := by
  unfold getXavierInit RandSource.normal
  rw [if_pos ((sqrt_pos_iff one_pos).2 h)]
  change Except.ok ((S.gauss r).1 * Real.sqrt (1 / n) + 0, (S.gauss r).2) = _
  rw [add_zero]

theorem getHeInit_ok (S : RandSource ρ ℝ) {n : ℝ} (h : 0 < n) (r : ρ) : getHeInit S n r = .ok ((S.gauss r).1 * Real.sqrt (2 / n), (S.gauss r).2) := by
  unfold getHeInit RandSource.normal
  rw [two_real, if_pos ((sqrt_pos_iff two_pos).2 h)]
  change Except.ok ((S.gauss r).1 * Real.sqrt (2 / n) + 0, (S.gauss r).2) = _
  rw [add_zero]

theorem getHeRandRangeOf_ok (S : RandSource ρ ℝ) {n : ℝ} (h : 0 < n) (lo hi : ℝ) (r : ρ) :
    getHeRandRangeOf S n lo hi r = .ok (min (max ((S.gauss r).1 * Real.sqrt (2 / n)) lo) hi, (S.gauss r).2) := by
  unfold getHeRandRangeOf RandSource.normal
  rw [two_real, if_pos ((sqrt_pos_iff two_pos).2 h)]
  change Except.ok (cmin (cmax ((S.gauss r).1 * Real.sqrt (2 / n) + 0) lo) hi, (S.gauss r).2) = _
  rw [add_zero, cmax_real, cmin_real]

theorem DrawCmd.run_ok (S : RandSource ρ ℝ) (c : DrawCmd ℝ) (h : c.Valid) (r : ρ) : ∃ v r', c.run S r = .ok (v, r') := by
  cases c with
  | setSeed s => exact ⟨_, _, rfl⟩
  | rand => exact ⟨_, _, by rw [DrawCmd.run, show getRand S r = _ from getRandRange_ok S zero_le_one r]; rfl⟩
  | randRange lo hi => exact ⟨_, _, by rw [DrawCmd.run, getRandRange_ok S h r]; rfl⟩
  | xavier n => exact ⟨_, _, by rw [DrawCmd.run, getXavierInit_ok S h r]; rfl⟩
  | he n => exact ⟨_, _, by rw [DrawCmd.run, getHeInit_ok S h r]; rfl⟩
  | heRange n lo hi => exact ⟨_, _, by rw [DrawCmd.run, getHeRandRangeOf_ok S h lo hi r]; rfl⟩

theorem drawRun_ok (S : RandSource ρ ℝ) (cs : List (DrawCmd ℝ)) : (∀ c ∈ cs, c.Valid) → ∀ r, ∃ vs r', drawRun S cs r = .ok (vs, r') ∧ vs.length = cs.length := by
  induction cs with
  | nil => exact fun _ r => ⟨_, _, rfl, rfl⟩
  | cons c cs ih =>
    intro h r
    obtain ⟨v, r1, h1⟩ := c.run_ok S (h c (by simp)) r
    obtain ⟨vs, r2, h2, h3⟩ := ih (fun d hd => h d (by simp [hd])) r1
    exact ⟨v :: vs, r2, by rw [drawRun, h1]; change (do let (vs, r2) ← drawRun S cs r1; return (v :: vs, r2)) = _; rw [h2]; rfl, by simp [h3]⟩

theorem drawRun_append (S : RandSource ρ ℝ) (cs ds : List (DrawCmd ℝ)) : ∀ {r r1 r2 : ρ} {vs ws}, drawRun S cs r = .ok (vs, r1) → drawRun S ds r1 = .ok (ws, r2) →
    drawRun S (cs ++ ds) r = .ok (vs ++ ws, r2) := by
  induction cs with
  | nil =>
    intro r r1 r2 vs ws h1 h2
    cases h1
    exact h2
  | cons c cs ih =>
    intro r r1 r2 vs ws h1 h2
    rw [List.cons_append, drawRun]
    rw [drawRun] at h1
    generalize c.run S r = q at h1 ⊢
    rcases q with e | ⟨v, s⟩
    · cases h1
    · change (do let (vs, r2) ← drawRun S cs s; return (v :: vs, r2)) = _ at h1
      change (do let (vs, r2) ← drawRun S (cs ++ ds) s; return (v :: vs, r2)) = _
      generalize hq : drawRun S cs s = q at h1
      rcases q with e | ⟨us, t⟩
      · cases h1
      · cases h1
        rw [ih hq h2]
        rfl

theorem gaussian_scaled [MeasurableSpace ρ] (P : Measure ρ) {g : ρ → ℝ} (hm : Measurable g) (hlaw : P.map g = gaussianReal 0 1) (v : NNReal) : P.map (fun r => g r * Real.sqrt v) = gaussianReal 0 v := by
  have e : (fun r => g r * Real.sqrt v) = (fun x : ℝ => x * Real.sqrt v) ∘ g := rfl
  have h1 : Measurable fun x : ℝ => x * Real.sqrt v := measurable_id.mul_const _
  rw [e, ← Measure.map_map h1 hm, hlaw, gaussianReal_map_mul_const]
  congr 1
  · simp
  · ext
    simp

theorem engineAfter_front (E : Engine ρ ℝ) (n : Nat) (r : ρ) : ∀ k, engineAfter E n (k + 1) r = engineAfter E n k (E.he n r).2
  | 0 => rfl
  | k + 1 => congrArg (fun s => (E.he n s).2) (engineAfter_front E n r k)

theorem drawAt_gauss (S : RandSource ρ ℝ) (n : Nat) : ∀ k r, drawAt S.engine n k r = gaussAt S k r * Real.sqrt ((2 / (n : NNReal) : NNReal) : ℝ) := by
  intro k
  induction k with
  | zero =>
    intro r
    change (S.gauss r).1 * Real.sqrt (((2 : Nat) : ℝ) / n) + 0 = _
    rw [two_real, add_zero]
    simp [gaussAt]
  | succ k ih =>
    intro r
    rw [drawAt, engineAfter_front]
    exact ih _

theorem gaussian_half {v : NNReal} (hv : v ≠ 0) : gaussianReal 0 v (Set.Iic 0) = 1 / 2 := by
  have := nullSingletonClass_gaussianReal (μ := 0) hv
  have h1 : gaussianReal 0 v (Set.Iic 0) = gaussianReal 0 v (Set.Ioi 0) := by
    rw [← gaussian_symmetric, ← Set.Iio_union_right, measure_union (by simp) (measurableSet_singleton _), measure_singleton, add_zero]
  have h2 : gaussianReal 0 v (Set.Iic 0) + gaussianReal 0 v (Set.Ioi 0) = 1 := by
    rw [← measure_union (Set.Iic_disjoint_Ioi le_rfl) measurableSet_Ioi, Set.Iic_union_Ioi, measure_univ]
  rw [← h1, ← two_mul] at h2
  exact (ENNReal.eq_div_iff (by norm_num) (by norm_num)).2 h2

end SmartDNN
