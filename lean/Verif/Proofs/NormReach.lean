import Verif.Spec.NormReach

/-!
# Invariances and bounds of batch normalisation in training mode
-/

namespace SmartDNN
open Net Spec

theorem mem_featureIdx_of {ds i : List Nat} (hv : ValidIdx ds i) : i ∈ featureIdx ds (i.getD 1 0) := by
  unfold featureIdx
  rw [List.mem_filter]
  exact ⟨mem_indices.2 hv, by simp⟩

theorem featureIdx_pos {ds i : List Nat} (hv : ValidIdx ds i) : (0 : ℝ) < (featureIdx ds (i.getD 1 0)).length :=
  Nat.cast_pos.2 (List.length_pos_of_mem (mem_featureIdx_of hv))

theorem list_sum_add {α : Type} (L : List α) (x : α → ℝ) (k : ℝ) : (L.map fun a => x a + k).sum = (L.map x).sum + L.length * k := by
  induction L with
  | nil => simp
  | cons a L ih => simp only [List.map_cons, List.sum_cons, ih, List.length_cons]; push_cast; ring

theorem featMean_shift {ds i : List Nat} (hv : ValidIdx ds i) (f : List Nat → ℝ) (s : Nat → ℝ) :
    featMean ds (fun j => f j + s (j.getD 1 0)) (i.getD 1 0) = featMean ds f (i.getD 1 0) + s (i.getD 1 0) := by
  have hp := featureIdx_pos hv
  unfold featMean
  rw [List.map_congr_left (g := fun j => f j + s (i.getD 1 0)) fun j hj => by rw [mem_featureIdx hj], list_sum_add]
  field_simp

theorem featVar_shift {ds i : List Nat} (hv : ValidIdx ds i) (f : List Nat → ℝ) (s : Nat → ℝ) :
    featVar ds (fun j => f j + s (j.getD 1 0)) (i.getD 1 0) = featVar ds f (i.getD 1 0) := by
  unfold featVar
  rw [featMean_shift hv]
  rw [List.map_congr_left (g := fun j => (f j - featMean ds f (i.getD 1 0)) ^ 2) fun j hj => by beta_reduce; rw [mem_featureIdx hj]; ring]

theorem featMean_times (ds : List Nat) (f : List Nat → ℝ) (k : ℝ) (c : Nat) : featMean ds (fun j => k * f j) c = k * featMean ds f c := by
  unfold featMean
  rw [show (fun j => k * f j) = fun j => f j * k from funext fun _ => mul_comm _ _, sum_map_scale]
  ring

theorem featVar_times (ds : List Nat) (f : List Nat → ℝ) (k : ℝ) (c : Nat) : featVar ds (fun j => k * f j) c = k ^ 2 * featVar ds f c := by
  unfold featVar
  rw [featMean_times, show (fun j => (k * f j - k * featMean ds f c) ^ 2) = fun j => (f j - featMean ds f c) ^ 2 * k ^ 2 from funext fun _ => by ring,
    sum_map_scale]
  ring

theorem bnOut_scale {eps k : ℝ} (hk : 0 < k) (m v γ β x : ℝ) : bnOut eps (k * m) (k ^ 2 * v) γ β (k * x) = bnOut (eps / k ^ 2) m v γ β x := by
  unfold bnOut
  have h1 : k ^ 2 * v + eps = k ^ 2 * (v + eps / k ^ 2) := by field_simp
  rw [h1, Real.sqrt_mul (sq_nonneg k), Real.sqrt_sq hk.le, ← mul_sub, mul_div_mul_left _ _ hk.ne']

/-- The sum of squares of numbers is at least the square of their sum divided by their number. -/
theorem list_sq_sum {α : Type} (L : List α) (d : α → ℝ) : (L.map d).sum ^ 2 ≤ L.length * (L.map fun a => d a ^ 2).sum := by
  induction L with
  | nil => simp
  | cons a L ih =>
    simp only [List.map_cons, List.sum_cons, List.length_cons]
    push_cast
    rcases L.eq_nil_or_concat with rfl | ⟨_, _, hL⟩
    · simp
    have hp : (0 : ℝ) < L.length := by
      rw [hL]; simp only [List.concat_eq_append, List.length_append, List.length_cons, List.length_nil]; push_cast; positivity
    set S := (L.map d).sum
    set Q := (L.map fun a => d a ^ 2).sum
    set n : ℝ := (L.length : ℝ)
    have h2 : 2 * d a * S ≤ n * d a ^ 2 + Q := by
      have h3 : 0 ≤ (n * d a - S) ^ 2 := sq_nonneg _
      have h4 : n * (2 * d a * S) ≤ n * (n * d a ^ 2 + Q) := by nlinarith
      exact le_of_mul_le_mul_left h4 hp
    nlinarith

/-- A value deviates from the average by at most the standard deviation times the square root of the number of the other values. -/
theorem samuelson {ds i : List Nat} (hv : ValidIdx ds i) (f : List Nat → ℝ) :
    (f i - featMean ds f (i.getD 1 0)) ^ 2 ≤ (((featureIdx ds (i.getD 1 0)).length : ℝ) - 1) * featVar ds f (i.getD 1 0) := by
  have hp := featureIdx_pos hv
  have hm := mem_featureIdx_of hv
  generalize i.getD 1 0 = c at *
  set m := featMean ds f c with hmdef
  obtain ⟨A, B, hAB⟩ := List.append_of_mem hm
  have hs : ((featureIdx ds c).map fun j => f j - m).sum = 0 := by
    have : ((featureIdx ds c).map fun j => f j + -m).sum = _ := list_sum_add (featureIdx ds c) f (-m)
    simp only [← sub_eq_add_neg] at this
    rw [this, hmdef, featMean]
    field_simp
    ring
  have hq : ((featureIdx ds c).map fun j => (f j - m) ^ 2).sum = (featureIdx ds c).length * featVar ds f c := by
    unfold featVar
    rw [← hmdef]
    field_simp
  have hl : ((featureIdx ds c).length : ℝ) = (A ++ B).length + 1 := by
    rw [hAB]; simp only [List.length_append, List.length_cons]; push_cast; ring
  have hC := list_sq_sum (A ++ B) fun j => f j - m
  have e1 : f i - m + ((A ++ B).map fun j => f j - m).sum = 0 := by
    rw [← hs, hAB]; simp only [List.map_append, List.map_cons, List.sum_append, List.sum_cons]; ring
  have e2 : (f i - m) ^ 2 + ((A ++ B).map fun j => (f j - m) ^ 2).sum = (featureIdx ds c).length * featVar ds f c := by
    rw [← hq, hAB]; simp only [List.map_append, List.map_cons, List.sum_append, List.sum_cons]; ring
  set N : ℝ := ((featureIdx ds c).length : ℝ)
  have e3 : ((A ++ B).map fun j => f j - m).sum = -(f i - m) := by linarith
  rw [e3] at hC
  have e4 : ((A ++ B).length : ℝ) = N - 1 := by linarith
  rw [e4] at hC
  have e5 : ((A ++ B).map fun j => (f j - m) ^ 2).sum = N * featVar ds f c - (f i - m) ^ 2 := by linarith
  rw [e5] at hC
  have : N * (f i - m) ^ 2 ≤ N * ((N - 1) * featVar ds f c) := by nlinarith
  exact le_of_mul_le_mul_left this hp

theorem perFeature_count {F : Nat} {ds ch : List Nat} (hS : BNShape F ds ch) (hd : Dims ds) {i : List Nat} (hv : ValidIdx ds i) :
    (featureIdx ds (i.getD 1 0)).length = perFeature ds := by
  cases hS with
  | two n =>
    obtain ⟨a, c, rfl, ha, hc⟩ := valid2_iff.1 hv
    rw [show [a, c].getD 1 0 = [0, c].getD 1 0 from rfl, (BNShape.two n).count hd (idx := [0, c]) (valid2_iff.2 ⟨0, c, rfl, by norm_num, hc⟩)]
    simp [perFeature, axesCount, show BatchNorm.axes (shapeOf [n, F]) = [0] from rfl]
  | four n h w =>
    obtain ⟨a, c, y, z, rfl, ha, hc, hy, hz⟩ := valid4_iff.1 hv
    rw [show [a, c, y, z].getD 1 0 = [0, c, 0, 0].getD 1 0 from rfl, (BNShape.four n h w).count hd (idx := [0, c, 0, 0]) (valid4_iff.2 ⟨0, c, 0, 0, rfl, by norm_num, hc, by norm_num, by norm_num⟩)]
    simp [perFeature, axesCount, show BatchNorm.axes (shapeOf [n, F, h, w]) = [0, 2, 3] from rfl]

theorem bnOut_reach {eps v N d : ℝ} (heps : 0 < eps) (hv : 0 ≤ v) (hN : 0 ≤ N) (m γ β x : ℝ) (hd : d = x - m) (h : d ^ 2 ≤ N * v) :
    |bnOut eps m v γ β x - β| ≤ |γ| * Real.sqrt N := by
  unfold bnOut
  have hp : 0 < v + eps := by linarith
  rw [add_sub_cancel_right, abs_mul, mul_comm, ← hd, abs_div, abs_of_pos (Real.sqrt_pos.2 hp)]
  refine mul_le_mul_of_nonneg_left ?_ (abs_nonneg _)
  rw [div_le_iff₀ (Real.sqrt_pos.2 hp), ← Real.sqrt_mul hN]
  refine Real.abs_le_sqrt (h.trans ?_)
  exact mul_le_mul_of_nonneg_left (by linarith) hN

end SmartDNN
