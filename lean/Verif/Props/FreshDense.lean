import Verif.Proofs.FreshDense

/-!
# What a new fully connected layer answers (C123)
-/

namespace SmartDNN
open Spec MeasureTheory ProbabilityTheory

variable {ρ : Type}

/-- **C123, refuted: dead outputs.**  An output of a new fully connected layer with `n` inputs answers 0 to every input with probability `2 ^ (-n)`. -/
theorem C123_dead_refuted [MeasurableSpace ρ] (P : Measure ρ) (S : RandSource ρ ℝ) (hm : ∀ k, Measurable (gaussAt S k)) (hlaw : ∀ k, P.map (gaussAt S k) = gaussianReal 0 1)
    (hind : iIndepFun (gaussAt S) P) {n m j : Nat} (hw : Dims [n, m]) (hj : j < m) :
    P {r | ∃ l r', FC.new S.engine n m r = .ok (l, r') ∧ DeadOutput n m j l} = (1 / 2) ^ n := by
  classical
  have hv : ∀ i < n, ValidIdx [n, m] [i, j] := fun i hi => valid2_iff.2 ⟨i, j, rfl, hi, hj⟩
  have hI : ∀ i ∈ (Finset.range n).image fun i => [i, j], ValidIdx [n, m] i := fun i hi => by
    obtain ⟨k, hk, rfl⟩ := Finset.mem_image.1 hi
    exact hv k (Finset.mem_range.1 hk)
  have hjn := C122_randn_joint_partial P S hm hlaw hind 0 1 _ hI (fun _ => {0}) fun _ _ => measurableSet_singleton 0
  have e : {r | ∃ l r', FC.new S.engine n m r = .ok (l, r') ∧ DeadOutput n m j l} =
      {r | ∃ f r', Tensor.randn S.engine (shapeOf [n, m]) 0 1 r = .ok (ofFn [n, m] f, r') ∧ ∀ i ∈ (Finset.range n).image fun i => [i, j], f i ∈ ({0} : Set ℝ)} := by
    ext r
    obtain ⟨w, r', h1, h0, h2⟩ := fresh_dense S hw r
    simp only [Set.mem_ofPred_eq, Finset.forall_mem_image, Finset.mem_range, Set.mem_singleton_iff]
    rw [h1, h2]
    constructor
    · rintro ⟨l, r'', e1, hd⟩
      obtain ⟨rfl, rfl⟩ := Prod.mk.inj (Except.ok.inj e1)
      exact ⟨w, _, rfl, fun i hi => (deadOutput_iff hw hj h0).1 hd i hi⟩
    · rintro ⟨f, r'', e1, hf⟩
      have e2 := (Prod.mk.inj (Except.ok.inj e1)).1
      exact ⟨_, _, rfl, (deadOutput_iff hw hj h0).2 fun i hi => (ofFn_inj e2 (hv i hi)).trans (hf hi)⟩
  have one : ∀ i ∈ (Finset.range n).image fun i => [i, j], gaussianReal 0 (2 / ([n, m].prod : NNReal)) {x : ℝ | min (max x 0) 1 ∈ ({0} : Set ℝ)} = 1 / 2 := fun i hi => by
    rw [← C122_randn_law_partial P S (hI i hi) 0 1 (hm _) (hlaw _) (measurableSet_singleton 0), ← C122_rand_refuted P S hw (hI i hi) (hm _) (hlaw _)]
    rfl
  rw [e, hjn, Finset.prod_congr rfl one, Finset.prod_const, Finset.card_image_of_injective _ (fun a b h => by simpa using h), Finset.card_range]

/-- **C123, refuted: equal outputs.**  Two outputs of a new fully connected layer with `n` inputs are equal for all inputs with probability at least `4 ^ (-n)`. -/
theorem C123_twins_refuted [MeasurableSpace ρ] (P : Measure ρ) (S : RandSource ρ ℝ) (hm : ∀ k, Measurable (gaussAt S k)) (hlaw : ∀ k, P.map (gaussAt S k) = gaussianReal 0 1)
    (hind : iIndepFun (gaussAt S) P) {n m j k : Nat} (hw : Dims [n, m]) (hj : j < m) (hk : k < m) :
    (1 / 4) ^ n ≤ P {r | ∃ l r', FC.new S.engine n m r = .ok (l, r') ∧ AlikeOutputs n m j k l} := by
  classical
  set I : Finset (List Nat) := ((Finset.range n).image fun i => [i, j]) ∪ (Finset.range n).image fun i => [i, k] with hIdef
  have hI : ∀ i ∈ I, ValidIdx [n, m] i := fun i hi => by
    rcases Finset.mem_union.1 hi with h | h <;> obtain ⟨q, hq, rfl⟩ := Finset.mem_image.1 h
    · exact valid2_iff.2 ⟨q, j, rfl, Finset.mem_range.1 hq, hj⟩
    · exact valid2_iff.2 ⟨q, k, rfl, Finset.mem_range.1 hq, hk⟩
  have hjn := C122_randn_joint_partial P S hm hlaw hind 0 1 I hI (fun _ => {0}) fun _ _ => measurableSet_singleton 0
  have one : ∀ i ∈ I, gaussianReal 0 (2 / ([n, m].prod : NNReal)) {x : ℝ | min (max x 0) 1 ∈ ({0} : Set ℝ)} = 1 / 2 := fun i hi => by
    rw [← C122_randn_law_partial P S (hI i hi) 0 1 (hm _) (hlaw _) (measurableSet_singleton 0), ← C122_rand_refuted P S hw (hI i hi) (hm _) (hlaw _)]
    rfl
  rw [Finset.prod_congr rfl one, Finset.prod_const] at hjn
  have hcard : I.card ≤ 2 * n := (Finset.card_union_le _ _).trans (by
    have h1 := Finset.card_image_le (s := Finset.range n) (f := fun i => [i, j])
    have h2 := Finset.card_image_le (s := Finset.range n) (f := fun i => [i, k])
    rw [Finset.card_range] at h1 h2
    omega)
  calc (1 / 4 : ENNReal) ^ n = (1 / 2) ^ (2 * n) := by
        rw [pow_mul]
        congr 1
        rw [one_div, one_div, ← ENNReal.inv_pow]
        norm_num
    _ ≤ (1 / 2) ^ I.card := pow_le_pow_right_of_le_one' (by rw [one_div]; exact ENNReal.inv_le_one.2 one_le_two) hcard
    _ ≤ _ := by
        rw [← hjn]
        refine measure_mono fun r hr => ?_
        obtain ⟨w, r', h1, -, h2⟩ := fresh_dense S hw r
        obtain ⟨f, r'', e1, hf⟩ := hr
        rw [h1] at e1
        have e2 := (Prod.mk.inj (Except.ok.inj e1)).1
        have z : ∀ i ∈ I, w i = 0 := fun i hi => (ofFn_inj e2 (hI i hi)).trans (hf i hi)
        refine ⟨_, _, h2, (alikeOutputs_iff hw hj hk).2 fun i hi => ?_⟩
        rw [z _ (Finset.mem_union_left _ (Finset.mem_image.2 ⟨i, Finset.mem_range.2 hi, rfl⟩)),
          z _ (Finset.mem_union_right _ (Finset.mem_image.2 ⟨i, Finset.mem_range.2 hi, rfl⟩))]

/-- **C123, part.**  With probability one, two outputs of a new layer of which one has a weight strictly between 0 and 1 are not equal for all inputs.
Missing: outputs all of whose weights are 0 or 1, which occur (`C123_twins_refuted`). -/
theorem C123_distinct_partial [MeasurableSpace ρ] (P : Measure ρ) (S : RandSource ρ ℝ) (hm : ∀ k, Measurable (gaussAt S k)) (hlaw : ∀ k, P.map (gaussAt S k) = gaussianReal 0 1)
    (hind : iIndepFun (gaussAt S) P) {n m j k : Nat} (hw : Dims [n, m]) (hj : j < m) (hk : k < m) (hjk : j ≠ k) :
    P {r | ∃ l r' w, FC.new S.engine n m r = .ok (l, r') ∧ AlikeOutputs n m j k l ∧ l.weights = ofFn [n, m] w ∧ ∃ i < n, 0 < w [i, j] ∧ w [i, j] < 1} = 0 := by
  have hs : 0 < Real.sqrt ((2 / ([n, m].prod : NNReal) : NNReal) : ℝ) := by
    rw [Real.sqrt_pos]
    exact NNReal.coe_pos.2 (div_pos two_pos (Nat.cast_pos.2 (List.prod_pos hw.pos)))
  have hsub : {r | ∃ l r' w, FC.new S.engine n m r = .ok (l, r') ∧ AlikeOutputs n m j k l ∧ l.weights = ofFn [n, m] w ∧ ∃ i < n, 0 < w [i, j] ∧ w [i, j] < 1} ⊆
      ⋃ i ∈ Finset.range n, {r | gaussAt S (ravel [n, m] [i, j]) r = gaussAt S (ravel [n, m] [i, k]) r} := by
    rintro r ⟨l, r', w, e1, ht, hlw, i, hi, h0, h1⟩
    obtain ⟨v, r'', g1, -, g2⟩ := fresh_dense S hw r
    rw [g2] at e1
    obtain ⟨rfl, rfl⟩ := Prod.mk.inj (Except.ok.inj e1)
    rw [Tensor.randn, createRandom_ofFn] at g1
    have e2 := (Prod.mk.inj (Except.ok.inj g1)).1
    have vj : ValidIdx [n, m] [i, j] := valid2_iff.2 ⟨i, j, rfl, hi, hj⟩
    have vk : ValidIdx [n, m] [i, k] := valid2_iff.2 ⟨i, k, rfl, hi, hk⟩
    have wj : v [i, j] = w [i, j] := ofFn_inj hlw vj
    have ej := ofFn_inj e2 vj
    have ek := ofFn_inj e2 vk
    rw [← (alikeOutputs_iff hw hj hk).1 ht i hi] at ek
    rw [cmax_real, cmin_real, wj, drawAt_gauss] at ej ek
    have inner : ∀ x : ℝ, min (max x 0) 1 = w [i, j] → x = w [i, j] := fun x hx => by
      rcases min_choice (max x 0) 1 with h | h
      · rw [h] at hx
        rcases max_choice x 0 with h' | h'
        · rwa [h'] at hx
        · rw [h'] at hx
          linarith
      · rw [h] at hx
        linarith
    simp only [Set.mem_iUnion, Finset.mem_range, Set.mem_ofPred_eq]
    exact ⟨i, hi, mul_right_cancel₀ hs.ne' ((inner _ ej).trans (inner _ ek).symm)⟩
  refine measure_mono_null hsub ((measure_biUnion_null_iff (Finset.countable_toSet _)).2 fun i hi => gauss_distinct P S hm hlaw hind fun e => hjk ?_)
  have := Finset.mem_range.1 (Finset.mem_coe.1 hi)
  simpa [ravel] using e

/-- A layer with one input and two outputs: the outputs are equal with probability at least 1/4, for an engine whose numbers are independent standard normal numbers. -/
example : ∃ (S : RandSource (Nat → ℝ) ℝ) (P : Measure (Nat → ℝ)), 1 / 4 ≤ P {r | ∃ l r', FC.new S.engine 1 2 r = .ok (l, r') ∧ AlikeOutputs 1 2 0 1 l} := by
  obtain ⟨S, P, h1, h2, h3⟩ := independent_engine
  refine ⟨S, P, ?_⟩
  have h := C123_twins_refuted P S h1 h2 h3 (n := 1) (m := 2) (j := 0) (k := 1) ⟨by simp, by simp, by simp⟩ (by norm_num) (by norm_num)
  rwa [pow_one] at h

end SmartDNN
