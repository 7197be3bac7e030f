import Verif.Proofs.Draws

/-!
# The distributions of the random numbers (C122)
-/

namespace SmartDNN
open Spec MeasureTheory ProbabilityTheory

variable {ρ : Type}

/-! ### Which arguments are defined, and what is drawn -/

/-- **C122, arguments.**  A range must not be empty, and the number of inputs must be positive; then there is a number, and otherwise the standard does not define what happens. -/
theorem C122_defined (S : RandSource ρ ℝ) (lo hi n : ℝ) (r : ρ) :
    ((∃ p, getRandRange S lo hi r = .ok p) ↔ lo ≤ hi) ∧ ((∃ p, getXavierInit S n r = .ok p) ↔ 0 < n) ∧ ((∃ p, getHeInit S n r = .ok p) ↔ 0 < n) ∧
    ((∃ p, getHeRandRangeOf S n lo hi r = .ok p) ↔ 0 < n) ∧ ∃ p, getRand S r = .ok p := by
  refine ⟨⟨?_, fun h => ⟨_, getRandRange_ok S h r⟩⟩, ⟨?_, fun h => ⟨_, getXavierInit_ok S h r⟩⟩, ⟨?_, fun h => ⟨_, getHeInit_ok S h r⟩⟩,
    ⟨?_, fun h => ⟨_, getHeRandRangeOf_ok S h lo hi r⟩⟩, ⟨_, getRandRange_ok S zero_le_one r⟩⟩
  · rintro ⟨p, hp⟩
    by_contra h
    unfold getRandRange RandSource.uniform at hp
    rw [if_pos (not_le.1 h)] at hp
    cases hp
  · rintro ⟨p, hp⟩
    by_contra h
    unfold getXavierInit RandSource.normal at hp
    rw [if_neg (fun e => h ((sqrt_pos_iff one_pos).1 e))] at hp
    cases hp
  · rintro ⟨p, hp⟩
    by_contra h
    unfold getHeInit RandSource.normal at hp
    rw [two_real, if_neg (fun e => h ((sqrt_pos_iff two_pos).1 e))] at hp
    cases hp
  · rintro ⟨p, hp⟩
    by_contra h
    unfold getHeRandRangeOf RandSource.normal at hp
    rw [two_real, if_neg (fun e => h ((sqrt_pos_iff two_pos).1 e))] at hp
    cases hp

/-- **C122, ranges.**  If the engine's canonical numbers lie in [0, 1), then `getRand` lies in [0, 1), `getRandRange` in [min, max), and `getHeRandRange` in [min, max] in any case. -/
theorem C122_range (S : RandSource ρ ℝ) (hS : ∀ r, 0 ≤ (S.canonical r).1 ∧ (S.canonical r).1 < 1) {lo hi : ℝ} (r : ρ) :
    (lo < hi → ∃ v r', getRandRange S lo hi r = .ok (v, r') ∧ lo ≤ v ∧ v < hi) ∧ (∃ v r', getRand S r = .ok (v, r') ∧ 0 ≤ v ∧ v < 1) ∧
    (∀ n, 0 < n → lo ≤ hi → ∃ v r', getHeRandRangeOf S n lo hi r = .ok (v, r') ∧ lo ≤ v ∧ v ≤ hi) := by
  have key : ∀ {lo hi : ℝ}, lo < hi → ∃ v r', getRandRange S lo hi r = .ok (v, r') ∧ lo ≤ v ∧ v < hi := fun {lo hi} h => by
    refine ⟨_, _, getRandRange_ok S h.le r, ?_, ?_⟩
    · nlinarith [mul_nonneg (hS r).1 (sub_pos.2 h).le]
    · nlinarith [mul_lt_mul_of_pos_right (hS r).2 (sub_pos.2 h)]
  exact ⟨key, key zero_lt_one, fun n hn h => ⟨_, _, getHeRandRangeOf_ok S hn lo hi r, le_min (le_max_right _ _) h, min_le_right _ _⟩⟩

/-- **C122, one stream.**  From the same state of the engine, a number of a range is the scaled and shifted number of [0, 1), a value of He's initialisation is √2 times one of Xavier's,
and the limits of `getHeRandRange` cut He's value off; all leave the engine in the same state as the number they are made of. -/
theorem C122_related (S : RandSource ρ ℝ) {lo hi n : ℝ} (h : lo ≤ hi) (hn : 0 < n) (r : ρ) :
    (∃ u r', getRand S r = .ok (u, r') ∧ getRandRange S lo hi r = .ok (lo + (hi - lo) * u, r')) ∧
    ∃ x r', getXavierInit S n r = .ok (x, r') ∧ getHeInit S n r = .ok (Real.sqrt 2 * x, r') ∧ getHeRandRangeOf S n lo hi r = .ok (min (max (Real.sqrt 2 * x) lo) hi, r') := by
  refine ⟨⟨_, _, getRandRange_ok S zero_le_one r, ?_⟩, _, _, getXavierInit_ok S hn r, ?_, ?_⟩
  · rw [getRandRange_ok S h, sub_zero, mul_one, add_zero, mul_comm, add_comm]
  · rw [getHeInit_ok S hn, Real.sqrt_div two_pos.le, Real.sqrt_div one_pos.le, Real.sqrt_one]
    congr 2
    ring
  · rw [getHeRandRangeOf_ok S hn, Real.sqrt_div two_pos.le, Real.sqrt_div one_pos.le, Real.sqrt_one]
    have e : (S.gauss r).1 * (Real.sqrt 2 / Real.sqrt n) = Real.sqrt 2 * ((S.gauss r).1 * (1 / Real.sqrt n)) := by ring
    rw [e]

/-! ### Programs -/

/-- **C122, seeds.**  What a program draws after `setSeed(s)`, by any of the functions, depends on `s` and the program only, not on what was drawn before. -/
theorem C122_seed (S : RandSource ρ ℝ) (before₁ before₂ cs : List (DrawCmd ℝ)) (s : Nat) (r₁ r₂ : ρ) (h₁ : ∀ c ∈ before₁, c.Valid) (h₂ : ∀ c ∈ before₂, c.Valid) (h : ∀ c ∈ cs, c.Valid) :
    ∃ vs r' vs₁ vs₂, drawRun S (before₁ ++ .setSeed s :: cs) r₁ = .ok (vs₁ ++ vs, r') ∧ drawRun S (before₂ ++ .setSeed s :: cs) r₂ = .ok (vs₂ ++ vs, r') ∧
      vs₁.length = before₁.length ∧ vs₂.length = before₂.length := by
  obtain ⟨us₁, t₁, a₁, b₁⟩ := drawRun_ok S before₁ h₁ r₁
  obtain ⟨us₂, t₂, a₂, b₂⟩ := drawRun_ok S before₂ h₂ r₂
  obtain ⟨vs, r', a, -⟩ := drawRun_ok S cs h (S.seed s)
  have hc : ∀ t, drawRun S (.setSeed s :: cs) t = .ok (none :: vs, r') := fun t => by
    rw [drawRun]
    change (do let (vs, r2) ← drawRun S cs (S.seed s); return (none :: vs, r2)) = _
    rw [a]
    rfl
  exact ⟨none :: vs, r', us₁, us₂, drawRun_append S _ _ a₁ (hc _), drawRun_append S _ _ a₂ (hc _), b₁, b₂⟩

/-! ### Distributions -/

/-- **C122, uniform numbers.**  If the canonical numbers are uniform on [0, 1), then `getRandRange(min, max)` falls into each part [a, b) of [min, max) with probability
(b - a) / (max - min). -/
theorem C122_uniform_law [MeasurableSpace ρ] (P : Measure ρ) (S : RandSource ρ ℝ) (hm : Measurable fun r => (S.canonical r).1) (hlaw : P.map (fun r => (S.canonical r).1) = volume.restrict (Set.Ico 0 1)) {lo hi a b : ℝ} (h : lo < hi)
    (ha : lo ≤ a) (hb : b ≤ hi) :
    P {r | ∃ v r', getRandRange S lo hi r = .ok (v, r') ∧ a ≤ v ∧ v < b} = ENNReal.ofReal ((b - a) / (hi - lo)) := by
  have hd : 0 < hi - lo := sub_pos.2 h
  have e : {r | ∃ v r', getRandRange S lo hi r = .ok (v, r') ∧ a ≤ v ∧ v < b} = (fun r => (S.canonical r).1) ⁻¹' Set.Ico ((a - lo) / (hi - lo)) ((b - lo) / (hi - lo)) := by
    ext r
    simp only [Set.mem_ofPred_eq, Set.mem_preimage, Set.mem_Ico, getRandRange_ok S h.le r, Except.ok.injEq, Prod.mk.injEq, div_le_iff₀ hd, lt_div_iff₀ hd]
    constructor
    · rintro ⟨v, r', ⟨rfl, -⟩, h1, h2⟩
      exact ⟨by linarith, by linarith⟩
    · rintro ⟨h1, h2⟩
      exact ⟨_, _, ⟨rfl, rfl⟩, by linarith, by linarith⟩
  rw [e, ← Measure.map_apply hm measurableSet_Ico, hlaw, Measure.restrict_apply measurableSet_Ico, Set.inter_eq_left.2, Real.volume_Ico]
  · congr 1
    ring
  · refine Set.Ico_subset_Ico (div_nonneg (by linarith) hd.le) ?_
    rw [div_le_one hd]
    linarith

/-- **C122, normal numbers.**  If the polar method gives standard normal numbers, then `getXavierInit(n)` is normal with mean 0 and variance 1/n, and `getHeInit(n)` with variance 2/n. -/
theorem C122_normal_law [MeasurableSpace ρ] (P : Measure ρ) (S : RandSource ρ ℝ) (hm : Measurable fun r => (S.gauss r).1) (hlaw : P.map (fun r => (S.gauss r).1) = gaussianReal 0 1) {n : NNReal} (hn : 0 < n) {A : Set ℝ} (hA : MeasurableSet A) :
    P {r | ∃ v r', getXavierInit S n r = .ok (v, r') ∧ v ∈ A} = gaussianReal 0 (1 / n) A ∧ P {r | ∃ v r', getHeInit S n r = .ok (v, r') ∧ v ∈ A} = gaussianReal 0 (2 / n) A := by
  have hn' : (0 : ℝ) < n := hn
  constructor
  · rw [← gaussian_scaled P hm hlaw, Measure.map_apply (hm.mul_const _) hA]
    congr 1
    ext r
    simp only [Set.mem_ofPred_eq, Set.mem_preimage, getXavierInit_ok S hn' r, Except.ok.injEq, Prod.mk.injEq, NNReal.coe_div, NNReal.coe_one]
    exact ⟨fun ⟨v, r', ⟨h1, _⟩, h2⟩ => h1 ▸ h2, fun h => ⟨_, _, ⟨rfl, rfl⟩, h⟩⟩
  · rw [← gaussian_scaled P hm hlaw, Measure.map_apply (hm.mul_const _) hA]
    congr 1
    ext r
    simp only [Set.mem_ofPred_eq, Set.mem_preimage, getHeInit_ok S hn' r, Except.ok.injEq, Prod.mk.injEq, NNReal.coe_div, NNReal.coe_ofNat]
    exact ⟨fun ⟨v, r', ⟨h1, _⟩, h2⟩ => h1 ▸ h2, fun h => ⟨_, _, ⟨rfl, rfl⟩, h⟩⟩

/-- **C122, engine.**  `getHeRandRange` as used for random tensors (`Model/Random.lean`) is the function of `RandomEngine`. -/
theorem C122_engine (S : RandSource ρ ℝ) {n : Nat} (hn : 0 < n) (lo hi : ℝ) (r : ρ) : getHeRandRangeOf S n lo hi r = .ok (getHeRandRange S.engine n lo hi r) := by
  have hn' : (0 : ℝ) < n := Nat.cast_pos.2 hn
  rw [getHeRandRangeOf_ok S hn']
  change _ = Except.ok (cmin (cmax ((S.gauss r).1 * Real.sqrt (((2 : Nat) : ℝ) / n) + 0) lo) hi, (S.gauss r).2)
  rw [cmax_real, cmin_real, two_real, add_zero]

/-- **C122, random tensors.**  Each element of `randn(shape, min, max)` is a normal number with mean 0 and variance 2 / size, cut off at `min` and `max`.
Missing: the distribution `randn` suggests, a normal one whose variance does not depend on the size of the tensor and that is not cut off. -/
theorem C122_randn_law_partial [MeasurableSpace ρ] (P : Measure ρ) (S : RandSource ρ ℝ) {ds : List Nat} {i : List Nat} (hi : ValidIdx ds i) (lo hi' : ℝ)
    (hm : Measurable (gaussAt S (ravel ds i))) (hlaw : P.map (gaussAt S (ravel ds i)) = gaussianReal 0 1) {A : Set ℝ} (hA : MeasurableSet A) :
    P {r | ∃ f r', Tensor.randn S.engine (shapeOf ds) lo hi' r = .ok (ofFn ds f, r') ∧ f i ∈ A} = gaussianReal 0 (2 / ds.prod) {x | min (max x lo) hi' ∈ A} := by
  have hs : MeasurableSet {x : ℝ | min (max x lo) hi' ∈ A} := ((measurable_id.max measurable_const).min measurable_const) hA
  rw [← gaussian_scaled P hm hlaw, Measure.map_apply (hm.mul_const _) hs]
  congr 1
  ext r
  simp only [Set.mem_ofPred_eq, Set.mem_preimage, Tensor.randn, createRandom_ofFn, cmax_real, cmin_real, Except.ok.injEq, Prod.mk.injEq, ← drawAt_gauss]
  constructor
  · rintro ⟨f, r', ⟨h1, -⟩, h2⟩
    exact (ofFn_inj h1 hi).symm ▸ h2
  · intro h
    exact ⟨_, _, ⟨rfl, rfl⟩, h⟩

/-- **C122, refuted.**  `Tensor::rand(shape)` is not uniform on [0, 1]: each of its elements is exactly 0 with probability one half. -/
theorem C122_rand_refuted [MeasurableSpace ρ] (P : Measure ρ) (S : RandSource ρ ℝ) {ds : List Nat} (h : Dims ds) {i : List Nat} (hi : ValidIdx ds i)
    (hm : Measurable (gaussAt S (ravel ds i))) (hlaw : P.map (gaussAt S (ravel ds i)) = gaussianReal 0 1) :
    P {r | ∃ f r', Tensor.rand S.engine (shapeOf ds) r = .ok (ofFn ds f, r') ∧ f i = 0} = 1 / 2 := by
  have hv : (2 / ds.prod : NNReal) ≠ 0 := div_ne_zero (by norm_num) (Nat.cast_ne_zero.2 (List.prod_pos h.pos).ne')
  rw [← gaussian_half hv]
  have h := C122_randn_law_partial P S hi 0 1 hm hlaw (measurableSet_singleton (0 : ℝ))
  have e : {x : ℝ | min (max x 0) 1 ∈ ({0} : Set ℝ)} = Set.Iic 0 := by
    ext x
    simp only [Set.mem_ofPred_eq, Set.mem_singleton_iff, Set.mem_Iic]
    constructor
    · intro hx
      rcases min_choice (max x 0) 1 with h1 | h1
      · rw [h1] at hx
        exact max_eq_right_iff.1 hx
      · rw [h1] at hx
        norm_num at hx
    · intro hx
      rw [max_eq_right hx, min_eq_left zero_le_one]
  rw [e] at h
  exact h

/-! ### Concrete engines -/

/-- Engines as in `C122_range`, `C122_uniform_law`, `C122_normal_law` and `C122_rand_refuted` exist: one whose state holds the next numbers. -/
example : ∃ S : RandSource (ℝ × ℝ) ℝ, (Measurable fun r => (S.canonical r).1) ∧ (Measurable fun r => (S.gauss r).1) ∧
    (∀ i, Measurable (gaussAt S i)) ∧ ∃ P : Measure (ℝ × ℝ), (P.map fun r => (S.canonical r).1) = volume.restrict (Set.Ico 0 1) ∧
      (∀ i, P.map (gaussAt S i) = gaussianReal 0 1) ∧ (P.map fun r => (S.gauss r).1) = gaussianReal 0 1 := by
  let S : RandSource (ℝ × ℝ) ℝ := ⟨fun _ => (0, 0), fun r => (r.1, r), fun r => (r.2, r)⟩
  have hg : ∀ i, gaussAt S i = Prod.snd := by
    intro i
    induction i with
    | zero => rfl
    | succ i ih => exact ih
  have : IsProbabilityMeasure ((volume : Measure ℝ).restrict (Set.Ico 0 1)) := ⟨by simp⟩
  refine ⟨S, measurable_fst, measurable_snd, fun i => by rw [hg]; exact measurable_snd, (volume.restrict (Set.Ico 0 1)).prod (gaussianReal 0 1), ?_, fun i => ?_, ?_⟩
  · exact (Measure.map_fst_prod).trans (by simp)
  · rw [hg]
    exact (Measure.map_snd_prod).trans (by simp)
  · exact (Measure.map_snd_prod).trans (by simp)

/-- An engine whose canonical numbers lie in [0, 1), and a program as in `C122_seed`. -/
example : ∃ S : RandSource ℝ ℝ, (∀ r, 0 ≤ (S.canonical r).1 ∧ (S.canonical r).1 < 1) ∧ (S.canonical 0).1 ≠ (S.canonical (1 / 2)).1 :=
  ⟨⟨fun _ => 0, fun r => (Int.fract r, r + 1 / 2), fun r => (r, r)⟩, fun r => ⟨Int.fract_nonneg r, Int.fract_lt_one r⟩, by
    change Int.fract (0 : ℝ) ≠ Int.fract (1 / 2)
    rw [Int.fract_zero, Int.fract_eq_self.2 ⟨by norm_num, by norm_num⟩]
    norm_num⟩

example : ∀ c ∈ ([.rand, .randRange (-1) 1, .setSeed 7, .xavier 3, .he (1 / 2), .heRange 4 2 1] : List (DrawCmd ℝ)), c.Valid := by
  intro c hc
  simp only [List.mem_cons, List.not_mem_nil, or_false] at hc
  rcases hc with rfl | rfl | rfl | rfl | rfl | rfl <;> simp [DrawCmd.Valid]

end SmartDNN
