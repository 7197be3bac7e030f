import Verif.Proofs.DropoutLaw

/-!
# C49: how much dropout drops, with the distribution of the random numbers
-/

namespace SmartDNN
open Spec MeasureTheory ProbabilityTheory

variable {ρ : Type}

/-- **C49, the probability.**  With an engine whose normal numbers are standard normal, dropout with any rate from 0 up to 1 keeps an element with the probability that a normal number with
mean 0 and variance 2 / size is greater than the rate: the probability depends on how many elements there are.
Missing: it should be `1 - rate`. -/
theorem C49_law_partial [MeasurableSpace ρ] (P : Measure ρ) (S : RandSource ρ ℝ) {ds : List Nat} (h : Dims ds) (f : List Nat → ℝ) (l : Dropout ℝ) (h0 : 0 ≤ l.dropoutRate)
    (h1 : l.dropoutRate < 1) {i : List Nat} (hi : ValidIdx ds i) (hf : f i ≠ 0) (hm : Measurable (gaussAt S (ravel ds i))) (hlaw : P.map (gaussAt S (ravel ds i)) = gaussianReal 0 1) :
    P {r | ∃ y s, Dropout.forward S.engine true (ofFn ds f) (l, r) = (.ok (ofFn ds y), s) ∧ y i ≠ 0} = gaussianReal 0 (2 / ds.prod) (Set.Ioi l.dropoutRate) := by
  rw [← gaussian_scaled P hm hlaw, Measure.map_apply (hm.mul_const _) measurableSet_Ioi]
  congr 1
  ext r
  obtain ⟨y, s, e2, e3⟩ := dropout_kept_draw S h f l h0 h1 r
  simp only [Set.mem_ofPred_eq, Set.mem_preimage, Set.mem_Ioi]
  constructor
  · rintro ⟨y', s', e4, hy⟩
    by_contra hk
    rw [e2] at e4
    exact hy ((ofFn_inj (Except.ok.inj (congrArg Prod.fst e4)) hi).symm.trans ((e3 i).2 hk))
  · intro hk
    refine ⟨y, s, e2, ?_⟩
    rw [(e3 i).1 hk]
    exact div_ne_zero hf (by linarith)

/-- **C49, refuted for large tensors.**  An element is kept with probability at most exp(-rate² size / 4), which is less than `1 - rate` for every rate between 0 and 1 as soon as there are
enough elements. -/
theorem C49_size_refuted [MeasurableSpace ρ] (P : Measure ρ) (S : RandSource ρ ℝ) {ds : List Nat} (h : Dims ds) (f : List Nat → ℝ) (l : Dropout ℝ) (h0 : 0 < l.dropoutRate)
    (h1 : l.dropoutRate < 1) (hsize : 4 / (l.dropoutRate ^ 2 * (1 - l.dropoutRate)) ≤ ds.prod) {i : List Nat} (hi : ValidIdx ds i) (hf : f i ≠ 0) (hm : Measurable (gaussAt S (ravel ds i)))
    (hlaw : P.map (gaussAt S (ravel ds i)) = gaussianReal 0 1) :
    P {r | ∃ y s, Dropout.forward S.engine true (ofFn ds f) (l, r) = (.ok (ofFn ds y), s) ∧ y i ≠ 0} ≤ ENNReal.ofReal (Real.exp (-(l.dropoutRate ^ 2 * ds.prod) / 4)) ∧
    P {r | ∃ y s, Dropout.forward S.engine true (ofFn ds f) (l, r) = (.ok (ofFn ds y), s) ∧ y i ≠ 0} < ENNReal.ofReal (1 - l.dropoutRate) := by
  have hp : (0 : ℝ) < ds.prod := Nat.cast_pos.2 (List.prod_pos h.pos)
  rw [C49_law_partial P S h f l h0.le h1 hi hf hm hlaw]
  have key := gaussian_tail_size (List.prod_pos h.pos) h0.le
  refine ⟨key, key.trans_lt ?_⟩
  have h2 : 0 < 1 - l.dropoutRate := by linarith
  rw [ENNReal.ofReal_lt_ofReal_iff h2]
  have h3 : 1 / (1 - l.dropoutRate) ≤ l.dropoutRate ^ 2 * ds.prod / 4 := by
    rw [div_le_iff₀ (by positivity)] at hsize
    rw [div_le_div_iff₀ h2 (by norm_num)]
    linarith
  have h4 := Real.add_one_lt_exp (x := l.dropoutRate ^ 2 * ds.prod / 4) (by positivity)
  rw [neg_div, Real.exp_neg, inv_lt_comm₀ (Real.exp_pos _) h2, ← one_div]
  linarith

/-- **C49, refuted: whole layers.**  With probability at least 1 - size exp(-rate² size / 4), a dropout layer in training mode answers zero everywhere, whatever its input is.
For rate 1/2 and 1000 elements the remaining probability is 1000 exp(-62.5). -/
theorem C49_dead_refuted [MeasurableSpace ρ] (P : Measure ρ) (S : RandSource ρ ℝ) (hm : ∀ k, Measurable (gaussAt S k)) (hlaw : ∀ k, P.map (gaussAt S k) = gaussianReal 0 1)
    {ds : List Nat} (h : Dims ds) (f : List Nat → ℝ) (l : Dropout ℝ) (h0 : 0 ≤ l.dropoutRate) (h1 : l.dropoutRate < 1) :
    P {r | (Dropout.forward S.engine true (ofFn ds f) (l, r)).1 ≠ .ok (ofFn ds fun _ => 0)} ≤ ds.prod * ENNReal.ofReal (Real.exp (-(l.dropoutRate ^ 2 * ds.prod) / 4)) := by
  have hp : (0 : ℝ) < ds.prod := Nat.cast_pos.2 (List.prod_pos h.pos)
  have hsub : {r | (Dropout.forward S.engine true (ofFn ds f) (l, r)).1 ≠ .ok (ofFn ds fun _ => 0)} ⊆
      ⋃ k ∈ Finset.range ds.prod, (fun r => gaussAt S k r * Real.sqrt ((2 / (ds.prod : NNReal) : NNReal) : ℝ)) ⁻¹' Set.Ioi l.dropoutRate := by
    intro r hr
    obtain ⟨y, s, e2, e3⟩ := dropout_kept_draw S h f l h0 h1 r
    simp only [Set.mem_iUnion, Finset.mem_range, Set.mem_preimage, Set.mem_Ioi]
    by_contra hk
    push Not at hk
    refine hr ?_
    rw [e2]
    dsimp only
    rw [ofFn_congr fun i hi => (e3 i).2 (not_lt.2 (hk _ (ravel_lt hi)))]
  have hk : ∀ k ∈ Finset.range ds.prod, P ((fun r => gaussAt S k r * Real.sqrt ((2 / (ds.prod : NNReal) : NNReal) : ℝ)) ⁻¹' Set.Ioi l.dropoutRate) ≤
      ENNReal.ofReal (Real.exp (-(l.dropoutRate ^ 2 * ds.prod) / 4)) := fun k _ => by
    rw [← Measure.map_apply ((hm k).mul_const _) measurableSet_Ioi, gaussian_scaled P (hm k) (hlaw k)]
    exact gaussian_tail_size (List.prod_pos h.pos) h0
  refine (measure_mono hsub).trans ((measure_biUnion_finset_le _ _).trans ((Finset.sum_le_card_nsmul _ _ _ hk).trans ?_))
  rw [Finset.card_range, nsmul_eq_mul]

/-- A tensor and a rate as in `C49_size_refuted`: 1 by 32 elements and rate 1/2.  Engines as in these theorems are given after `C122_rand_refuted`. -/
example : Dims [1, 32] ∧ (4 : ℝ) / ((1 / 2) ^ 2 * (1 - 1 / 2)) ≤ ([1, 32].prod : Nat) := by
  refine ⟨⟨by simp, by simp, by simp⟩, by norm_num⟩

end SmartDNN
