import Verif.Props.Draws
import Mathlib.Probability.Independence.InfinitePi

/-!
# C122: the elements of a random tensor are independent
-/

namespace SmartDNN
open Spec MeasureTheory ProbabilityTheory

variable {ρ : Type}

/-- **C122, joint law of random tensors.**  If the normal numbers that the engine gives one after the other are independent, then so are the elements of `randn(shape, min, max)`: the
probability that the elements at any places lie in any sets is the product of the probabilities for normal numbers with mean 0 and variance 2 / size, cut off at `min` and `max`.
Missing: as in `C122_randn_law_partial`. -/
theorem C122_randn_joint_partial [MeasurableSpace ρ] (P : Measure ρ) (S : RandSource ρ ℝ) (hm : ∀ k, Measurable (gaussAt S k)) (hlaw : ∀ k, P.map (gaussAt S k) = gaussianReal 0 1)
    (hind : iIndepFun (gaussAt S) P) {ds : List Nat} (lo hi : ℝ) (I : Finset (List Nat)) (hI : ∀ i ∈ I, ValidIdx ds i) (A : List Nat → Set ℝ) (hA : ∀ i ∈ I, MeasurableSet (A i)) :
    P {r | ∃ f r', Tensor.randn S.engine (shapeOf ds) lo hi r = .ok (ofFn ds f, r') ∧ ∀ i ∈ I, f i ∈ A i} =
      ∏ i ∈ I, gaussianReal 0 (2 / ds.prod) {x | min (max x lo) hi ∈ A i} := by
  classical
  have hu : ∀ i ∈ I, (indices ds)[ravel ds i]?.getD [] = i := fun i h => by rw [indices_ravel (hI i h)]; rfl
  have hinj : Set.InjOn (ravel ds) I := fun i h j h' e => by rw [← hu i h, ← hu j h', e]
  let B : Nat → Set ℝ := fun k => {z | min (max (z * Real.sqrt ((2 / (ds.prod : NNReal) : NNReal) : ℝ)) lo) hi ∈ A ((indices ds)[k]?.getD [])}
  have hB : ∀ k ∈ I.image (ravel ds), MeasurableSet (B k) := fun k hk => by
    obtain ⟨i, h, rfl⟩ := Finset.mem_image.1 hk
    change MeasurableSet {z : ℝ | _}
    rw [hu i h]
    exact ((((measurable_id (α := ℝ)).mul_const _).max measurable_const).min measurable_const) (hA i h)
  have e : {r | ∃ f r', Tensor.randn S.engine (shapeOf ds) lo hi r = .ok (ofFn ds f, r') ∧ ∀ i ∈ I, f i ∈ A i} = ⋂ k ∈ I.image (ravel ds), gaussAt S k ⁻¹' B k := by
    ext r
    simp only [Set.mem_ofPred_eq, Set.mem_iInter, Finset.forall_mem_image, Set.mem_preimage, Tensor.randn, createRandom_ofFn, cmax_real, cmin_real, Except.ok.injEq, Prod.mk.injEq, B]
    constructor
    · rintro ⟨f, r', ⟨h1, -⟩, h2⟩ i h
      rw [hu i h, ← drawAt_gauss]
      exact (ofFn_inj h1 (hI i h)).symm ▸ h2 i h
    · intro h
      refine ⟨_, _, ⟨rfl, rfl⟩, fun i h' => ?_⟩
      have := h h'
      rwa [hu i h', ← drawAt_gauss] at this
  rw [e, hind.measure_inter_preimage_eq_mul _ hB, Finset.prod_image hinj]
  refine Finset.prod_congr rfl fun i h => ?_
  have hs : MeasurableSet {x : ℝ | min (max x lo) hi ∈ A i} := (((measurable_id (α := ℝ)).max measurable_const).min measurable_const) (hA i h)
  rw [← gaussian_scaled P (hm (ravel ds i)) (hlaw _), Measure.map_apply ((hm _).mul_const _) hs]
  congr 1
  ext r
  simp only [Set.mem_preimage, Set.mem_ofPred_eq, B]
  rw [hu i h]

/-- **C122, refuted for whole tensors.**  With probability 2^(-size) the tensor `Tensor::rand(shape)` is zero everywhere, while numbers uniform on [0, 1] never are. -/
theorem C122_rand_zero_refuted [MeasurableSpace ρ] (P : Measure ρ) (S : RandSource ρ ℝ) (hm : ∀ k, Measurable (gaussAt S k)) (hlaw : ∀ k, P.map (gaussAt S k) = gaussianReal 0 1)
    (hind : iIndepFun (gaussAt S) P) {ds : List Nat} (h : Dims ds) :
    P {r | ∃ r', Tensor.rand S.engine (shapeOf ds) r = .ok (ofFn ds fun _ => 0, r')} = (1 / 2) ^ ds.prod := by
  classical
  have hj := C122_randn_joint_partial P S hm hlaw hind 0 1 (indices ds).toFinset (fun i h => mem_indices.1 (List.mem_toFinset.1 h)) (fun _ => {0})
    (fun _ _ => measurableSet_singleton 0)
  have e : {r | ∃ r', Tensor.rand S.engine (shapeOf ds) r = .ok (ofFn ds fun _ => 0, r')} =
      {r | ∃ f r', Tensor.randn S.engine (shapeOf ds) 0 1 r = .ok (ofFn ds f, r') ∧ ∀ i ∈ (indices ds).toFinset, f i ∈ ({0} : Set ℝ)} := by
    ext r
    constructor
    · rintro ⟨r', hr⟩
      exact ⟨_, r', hr, fun i _ => rfl⟩
    · rintro ⟨f, r', hr, hf⟩
      refine ⟨r', hr.trans ?_⟩
      rw [ofFn_congr (g := fun _ => 0) fun i hi => hf i (List.mem_toFinset.2 (mem_indices.2 hi))]
  rw [e, hj]
  have one : ∀ i ∈ (indices ds).toFinset, gaussianReal 0 (2 / (ds.prod : NNReal)) {x : ℝ | min (max x 0) 1 ∈ ({0} : Set ℝ)} = 1 / 2 := fun i hi => by
    have hv := mem_indices.1 (List.mem_toFinset.1 hi)
    rw [← C122_randn_law_partial P S hv 0 1 (hm _) (hlaw _) (measurableSet_singleton 0), ← C122_rand_refuted P S h hv (hm _) (hlaw _)]
    rfl
  rw [Finset.prod_congr rfl one, Finset.prod_const, List.toFinset_card_of_nodup (nodup_indices ds), length_indices]

/-- An engine as in `C122_randn_joint_partial` and `C122_rand_zero_refuted`: its state is the sequence of all numbers to come, which are independent standard normal numbers. -/
theorem independent_engine : ∃ (S : RandSource (Nat → ℝ) ℝ) (P : Measure (Nat → ℝ)), (∀ k, Measurable (gaussAt S k)) ∧ (∀ k, P.map (gaussAt S k) = gaussianReal 0 1) ∧ iIndepFun (gaussAt S) P := by
  let S : RandSource (Nat → ℝ) ℝ := ⟨fun _ _ => 0, fun r => (0, r), fun r => (r 0, fun k => r (k + 1))⟩
  have hg : gaussAt S = fun k r => r k := by
    funext k
    induction k with
    | zero => rfl
    | succ k ih =>
      funext r
      change gaussAt S k (fun k => r (k + 1)) = _
      rw [ih]
  refine ⟨S, Measure.infinitePi fun _ => gaussianReal 0 1, ?_, ?_, ?_⟩ <;> rw [hg]
  · exact fun k => measurable_pi_apply k
  · exact fun k => Measure.infinitePi_map_eval _ k
  · exact iIndepFun_infinitePi (X := fun _ x => x) fun _ => measurable_id

end SmartDNN
