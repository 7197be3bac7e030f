import Verif.Props.DropoutLaw

/-!
# C49: the mean of what dropout answers
-/

namespace SmartDNN
open Spec MeasureTheory ProbabilityTheory

variable {ρ : Type}

/-- **C49, the mean.**  The mean of an element of the answer is the element of the input times P(N > rate) / (1 - rate), where N is a normal number with mean 0 and variance 2 / size.
Missing: the mean should be the element of the input. -/
theorem C49_mean_partial [MeasurableSpace ρ] (P : Measure ρ) (S : RandSource ρ ℝ) {ds : List Nat} (h : Dims ds) (f : List Nat → ℝ) (l : Dropout ℝ) (h0 : 0 ≤ l.dropoutRate)
    (h1 : l.dropoutRate < 1) {i : List Nat} (hi : ValidIdx ds i) (hm : Measurable (gaussAt S (ravel ds i))) (hlaw : P.map (gaussAt S (ravel ds i)) = gaussianReal 0 1)
    (y : ρ → List Nat → ℝ) (hy : ∀ r, (Dropout.forward S.engine true (ofFn ds f) (l, r)).1 = .ok (ofFn ds (y r))) :
    ∫ r, y r i ∂P = f i * ((gaussianReal 0 (2 / ds.prod)).real (Set.Ioi l.dropoutRate) / (1 - l.dropoutRate)) := by
  set A : Set ρ := (fun r => gaussAt S (ravel ds i) r * Real.sqrt ((2 / (ds.prod : NNReal) : NNReal) : ℝ)) ⁻¹' Set.Ioi l.dropoutRate with hA
  have hAm : MeasurableSet A := (hm.mul_const _) measurableSet_Ioi
  have e : (fun r => y r i) = A.indicator fun _ => f i / (1 - l.dropoutRate) := by
    funext r
    obtain ⟨z, s, e2, e3⟩ := dropout_kept_draw S h f l h0 h1 r
    have e4 := hy r
    rw [e2] at e4
    have e5 : z i = y r i := ofFn_inj (Except.ok.inj e4) hi
    rw [← e5]
    by_cases hr : r ∈ A
    · rw [Set.indicator_of_mem hr]
      exact (e3 i).1 hr
    · rw [Set.indicator_of_notMem hr]
      exact (e3 i).2 hr
  rw [e, integral_indicator_const _ hAm, smul_eq_mul, Measure.real, Measure.real, ← gaussian_scaled P hm hlaw, Measure.map_apply (hm.mul_const _) measurableSet_Ioi]
  ring

/-- **C49, refuted for the mean.**  Dropout is meant to leave the mean of every element as it is.  For every rate below one half the mean of an element other than 0 is a different number:
its absolute value is less. -/
theorem C49_mean_refuted [MeasurableSpace ρ] (P : Measure ρ) (S : RandSource ρ ℝ) {ds : List Nat} (h : Dims ds) (f : List Nat → ℝ) (l : Dropout ℝ) (h0 : 0 ≤ l.dropoutRate)
    (h1 : l.dropoutRate < 1 / 2) {i : List Nat} (hi : ValidIdx ds i) (hf : f i ≠ 0) (hm : Measurable (gaussAt S (ravel ds i))) (hlaw : P.map (gaussAt S (ravel ds i)) = gaussianReal 0 1)
    (y : ρ → List Nat → ℝ) (hy : ∀ r, (Dropout.forward S.engine true (ofFn ds f) (l, r)).1 = .ok (ofFn ds (y r))) :
    |∫ r, y r i ∂P| < |f i| := by
  rw [C49_mean_partial P S h f l h0 (by linarith) hi hm hlaw y hy, abs_mul]
  have hv : (2 / ds.prod : NNReal) ≠ 0 := div_ne_zero (by norm_num) (Nat.cast_ne_zero.2 (List.prod_pos h.pos).ne')
  have hd : 0 < 1 - l.dropoutRate := by linarith
  have half : (gaussianReal 0 (2 / ds.prod)).real (Set.Ioi l.dropoutRate) ≤ 1 / 2 := by
    have hs : Set.Ioi l.dropoutRate ⊆ (Set.Iic 0)ᶜ := fun x hx => by
      simp only [Set.mem_Ioi, Set.mem_compl_iff, Set.mem_Iic, not_le] at hx ⊢
      linarith
    refine (measureReal_mono hs).trans ?_
    rw [measureReal_compl measurableSet_Iic, probReal_univ, Measure.real, gaussian_half hv]
    norm_num
  rw [abs_of_nonneg (div_nonneg measureReal_nonneg hd.le)]
  refine mul_lt_of_lt_one_right (abs_pos.2 hf) ?_
  rw [div_lt_one hd]
  linarith

/-- The answers exist: `y` as in these theorems. -/
example (S : RandSource ρ ℝ) {ds : List Nat} (h : Dims ds) (f : List Nat → ℝ) (l : Dropout ℝ) (h0 : 0 ≤ l.dropoutRate) (h1 : l.dropoutRate < 1) :
    ∃ y : ρ → List Nat → ℝ, ∀ r, (Dropout.forward S.engine true (ofFn ds f) (l, r)).1 = .ok (ofFn ds (y r)) := by
  choose y s hy _ using dropout_kept_draw S h f l h0 h1
  exact ⟨y, fun r => by rw [hy r]⟩

/-- **C49, refuted: nothing is learned in front.**  With probability at least 1 - size exp(-rate² size / 4), a dropout layer in training mode passes no gradient on: after `forward`, `backward`
answers zero everywhere to every gradient. -/
theorem C49_no_gradient_refuted [MeasurableSpace ρ] (P : Measure ρ) (S : RandSource ρ ℝ) (hm : ∀ k, Measurable (gaussAt S k)) (hlaw : ∀ k, P.map (gaussAt S k) = gaussianReal 0 1)
    {ds : List Nat} (h : Dims ds) (f : List Nat → ℝ) (l : Dropout ℝ) (h0 : 0 ≤ l.dropoutRate) (h1 : l.dropoutRate < 1) :
    P {r | ∃ g, (Dropout.backward true (ofFn ds g) (Dropout.forward S.engine true (ofFn ds f) (l, r)).2.1).1 ≠ .ok (ofFn ds fun _ => 0)} ≤
      ds.prod * ENNReal.ofReal (Real.exp (-(l.dropoutRate ^ 2 * ds.prod) / 4)) := by
  have hsub : {r | ∃ g, (Dropout.backward true (ofFn ds g) (Dropout.forward S.engine true (ofFn ds f) (l, r)).2.1).1 ≠ .ok (ofFn ds fun _ => 0)} ⊆
      ⋃ k ∈ Finset.range ds.prod, (fun r => gaussAt S k r * Real.sqrt ((2 / (ds.prod : NNReal) : NNReal) : ℝ)) ⁻¹' Set.Ioi l.dropoutRate := by
    rintro r ⟨g, hr⟩
    obtain ⟨u, s, A, e1, e2, -, e4, e5⟩ := C50_training_partial S.engine h f g l r h1.ne
    simp only [Set.mem_iUnion, Finset.mem_range, Set.mem_preimage, Set.mem_Ioi]
    by_contra hk
    push Not at hk
    refine hr ?_
    rw [e1]
    dsimp only
    rw [e5, ofFn_congr (g := fun _ => 0) fun i hi => ?_]
    rw [e4, if_neg, mul_zero]
    rw [e2, kept_iff h0 h1, drawAt_gauss]
    exact not_lt.2 (hk _ (ravel_lt hi))
  have hk : ∀ k ∈ Finset.range ds.prod, P ((fun r => gaussAt S k r * Real.sqrt ((2 / (ds.prod : NNReal) : NNReal) : ℝ)) ⁻¹' Set.Ioi l.dropoutRate) ≤
      ENNReal.ofReal (Real.exp (-(l.dropoutRate ^ 2 * ds.prod) / 4)) := fun k _ => by
    rw [← Measure.map_apply ((hm k).mul_const _) measurableSet_Ioi, gaussian_scaled P (hm k) (hlaw k)]
    exact gaussian_tail_size (List.prod_pos h.pos) h0
  refine (measure_mono hsub).trans ((measure_biUnion_finset_le _ _).trans ((Finset.sum_le_card_nsmul _ _ _ hk).trans ?_))
  rw [Finset.card_range, nsmul_eq_mul]

end SmartDNN
