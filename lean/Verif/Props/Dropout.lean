import Verif.Proofs.Flatten
import Mathlib.Probability.Distributions.Gaussian.Real

/-!
# Dropout layer (C48-C50)
-/

namespace SmartDNN
open Spec

/-! ### C48 -/

/-- Evaluation mode: the input is returned, layer and random engine are unchanged. -/
theorem C48_eval {ρ T : Type} [Zero T] [One T] [Sub T] [Mul T] [Div T] [LT T] [DecidableLT T] (E : Engine ρ T)
    (x : Tensor T) (s : Dropout T × ρ) : Dropout.forward E false x s = (.ok x, s) := rfl

section
variable {ρ T : Type} [Field T] [LinearOrder T]

/-- Training mode: one call of `rand(shape)` decides; where its element exceeds the rate the output is
`x / (1 - rate)`, elsewhere 0.  (By C24 that call makes one draw per element, in element order.) -/
theorem C48_training (E : Engine ρ T) {ds : List Nat} (h : Dims ds) (f : List Nat → T) (l : Dropout T) (r : ρ)
    (hrate : l.dropoutRate ≠ 1) :
    ∃ (u : List Nat → T) (r' : ρ) (l' : Dropout T),
      Tensor.rand E (shapeOf ds) r = .ok (ofFn ds u, r') ∧
      Dropout.forward E true (ofFn ds f) (l, r) =
        (.ok (ofFn ds (fun i => if l.dropoutRate < u i then f i / (1 - l.dropoutRate) else 0)), (l', r')) := by
  refine ⟨_, _, { l with mask := some (ofFn ds (fun i => if l.dropoutRate < cmin (cmax (drawAt E ds.prod (ravel ds i) r) 0) 1
    then 1 else 0)) }, createRandom_ofFn E ds 0 1 r, ?_⟩
  rw [dropout_forward_training E h f l r (createRandom_ofFn E ds 0 1 r)]
  refine Prod.ext ?_ rfl
  simp only [Except.ok.injEq]
  refine ofFn_congr fun i _ => ?_
  split
  · rw [mul_one, mul_one_div]
  · rw [mul_zero, zero_mul]

end

/-! ### C49 -/

/-- The decision on an element whose raw draw is `x`. -/
def Spec.kept (rate x : ℝ) : Prop := rate < min (max x 0) 1

theorem kept_iff_cmin (rate x : ℝ) : rate < cmin (cmax x 0) 1 ↔ kept rate x := by
  unfold kept
  have : cmin (cmax x 0) 1 = min (max x 0) 1 := by
    have h1 : cmax x 0 = max x 0 := by
      unfold cmax
      split
      · exact (max_eq_right (by linarith)).symm
      · exact (max_eq_left (by linarith)).symm
    rw [h1]
    unfold cmin
    split
    · exact (min_eq_right (by linarith)).symm
    · exact (min_eq_left (by linarith)).symm
  rw [this]

/-- In the code an element is kept exactly when `kept` holds of its raw draw. -/
theorem C49_decision_partial {ρ : Type} (E : Engine ρ ℝ) {ds : List Nat} (h : Dims ds) (f : List Nat → ℝ) (l : Dropout ℝ)
    (r : ρ) (hrate : l.dropoutRate ≠ 1) :
    ∃ (draw : List Nat → ℝ) (s : Dropout ℝ × ρ) (y : List Nat → ℝ),
      (∀ i, draw i = drawAt E ds.prod (ravel ds i) r) ∧
      Dropout.forward E true (ofFn ds f) (l, r) = (.ok (ofFn ds y), s) ∧
      ∀ i, (kept l.dropoutRate (draw i) → y i = f i / (1 - l.dropoutRate)) ∧
        (¬ kept l.dropoutRate (draw i) → y i = 0) := by
  refine ⟨_, _, _, fun i => rfl, dropout_forward_training E h f l r (createRandom_ofFn E ds 0 1 r), fun i => ?_⟩
  have hk := kept_iff_cmin l.dropoutRate (drawAt E ds.prod (ravel ds i) r)
  constructor
  · intro h1
    rw [if_pos (hk.2 h1), mul_one, mul_one_div]
  · intro h1
    rw [if_neg (fun h2 => h1 (hk.1 h2)), mul_zero, zero_mul]

/-- For every rate in `[0, 1)` an element is kept exactly when its raw draw exceeds the rate. -/
theorem kept_iff {rate : ℝ} (h0 : 0 ≤ rate) (h1 : rate < 1) (x : ℝ) : kept rate x ↔ rate < x := by
  unfold kept
  rw [lt_min_iff, lt_max_iff]
  constructor
  · rintro ⟨h | h, _⟩ <;> linarith
  · intro h
    exact ⟨Or.inl h, h1⟩

/-- Under a symmetric distribution of the draw and a rate `≥ 0` an element is kept with probability at most one half. -/
theorem kept_symmetric (μ : MeasureTheory.Measure ℝ) [MeasureTheory.IsProbabilityMeasure μ]
    (hsym : μ (Set.Iio 0) = μ (Set.Ioi 0)) {rate : ℝ} (h0 : 0 ≤ rate) (h1 : rate < 1 / 2) :
    μ {x | kept rate x} ≠ ENNReal.ofReal (1 - rate) := by
  have hsub : {x | kept rate x} ⊆ Set.Ioi 0 := by
    intro x hx
    have := (kept_iff h0 (by linarith) x).1 hx
    exact lt_of_le_of_lt h0 this
  have hle : μ {x | kept rate x} ≤ μ (Set.Ioi 0) := MeasureTheory.measure_mono hsub
  have hdis : Disjoint (Set.Iio (0 : ℝ)) (Set.Ioi 0) := by
    rw [Set.disjoint_left]
    intro x hx hy
    exact absurd (lt_trans (Set.mem_Iio.1 hx) (Set.mem_Ioi.1 hy)) (lt_irrefl _)
  have hun : μ (Set.Iio 0) + μ (Set.Ioi 0) ≤ 1 := by
    rw [← MeasureTheory.measure_union hdis measurableSet_Ioi]
    exact MeasureTheory.prob_le_one
  rw [hsym] at hun
  intro heq
  rw [heq] at hle
  have h2 : ENNReal.ofReal (1 - rate) + ENNReal.ofReal (1 - rate) ≤ 1 := le_trans (add_le_add hle hle) hun
  rw [← ENNReal.ofReal_add (by linarith) (by linarith), ← ENNReal.ofReal_one, ENNReal.ofReal_le_ofReal_iff (by norm_num)] at h2
  linarith

theorem gaussian_symmetric (v : NNReal) :
    ProbabilityTheory.gaussianReal 0 v (Set.Iio 0) = ProbabilityTheory.gaussianReal 0 v (Set.Ioi 0) := by
  have h := ProbabilityTheory.gaussianReal_map_neg (μ := 0) (v := v)
  rw [neg_zero] at h
  conv_lhs => rw [← h]
  rw [MeasureTheory.Measure.map_apply measurable_neg measurableSet_Iio]
  congr 1
  ext x
  simp

/-- For every distribution of the engine's state under which the draw for element `i` is symmetric about 0 (as draws of a
normal distribution with mean 0 are), and every rate below one half, a non-zero element `i` of the input survives a
training-mode `forward` with a probability other than `1 - rate`. -/
theorem C49_probability_refuted {ρ : Type} [MeasurableSpace ρ] (E : Engine ρ ℝ) {ds : List Nat} (h : Dims ds)
    (f : List Nat → ℝ) (l : Dropout ℝ) (h0 : 0 ≤ l.dropoutRate) (h1 : l.dropoutRate < 1 / 2) {i : List Nat}
    (hi : ValidIdx ds i) (hf : f i ≠ 0) (P : MeasureTheory.Measure ρ) [MeasureTheory.IsProbabilityMeasure P]
    (hm : Measurable (drawAt E ds.prod (ravel ds i)))
    (hsym : P.map (drawAt E ds.prod (ravel ds i)) (Set.Iio 0) = P.map (drawAt E ds.prod (ravel ds i)) (Set.Ioi 0)) :
    P {r | ∃ y s, Dropout.forward E true (ofFn ds f) (l, r) = (.ok (ofFn ds y), s) ∧ y i ≠ 0} ≠
      ENNReal.ofReal (1 - l.dropoutRate) := by
  have : MeasureTheory.IsProbabilityMeasure (P.map (drawAt E ds.prod (ravel ds i))) :=
    MeasureTheory.Measure.isProbabilityMeasure_map hm.aemeasurable
  have hset : {r | ∃ y s, Dropout.forward E true (ofFn ds f) (l, r) = (.ok (ofFn ds y), s) ∧ y i ≠ 0} =
      drawAt E ds.prod (ravel ds i) ⁻¹' {x | kept l.dropoutRate x} := by
    ext r
    obtain ⟨draw, s, y, e1, e2, e3⟩ := C49_decision_partial E h f l r (by linarith)
    simp only [Set.mem_setOf_eq, Set.mem_preimage]
    rw [← e1]
    constructor
    · rintro ⟨y', s', e4, hy⟩
      by_contra hk
      rw [e2] at e4
      have := Except.ok.inj (congrArg Prod.fst e4)
      exact hy ((ofFn_inj this hi).symm.trans ((e3 i).2 hk))
    · intro hk
      refine ⟨y, s, e2, ?_⟩
      rw [(e3 i).1 hk]
      exact div_ne_zero hf (by linarith)
  have hk : MeasurableSet {x | kept l.dropoutRate x} := by
    have : {x | kept l.dropoutRate x} = Set.Ioi l.dropoutRate := by
      ext x
      exact kept_iff h0 (by linarith) x
    rw [this]
    exact measurableSet_Ioi
  rw [hset, ← MeasureTheory.Measure.map_apply hm hk]
  exact kept_symmetric _ hsym h0 h1

/-- The engine's draws are normal with mean 0. -/
theorem C49_normal_refuted {ρ : Type} [MeasurableSpace ρ] (E : Engine ρ ℝ) {ds : List Nat} (h : Dims ds)
    (f : List Nat → ℝ) (l : Dropout ℝ) (h0 : 0 ≤ l.dropoutRate) (h1 : l.dropoutRate < 1 / 2) {i : List Nat}
    (hi : ValidIdx ds i) (hf : f i ≠ 0) (P : MeasureTheory.Measure ρ) [MeasureTheory.IsProbabilityMeasure P]
    (hm : Measurable (drawAt E ds.prod (ravel ds i))) (v : NNReal)
    (hlaw : P.map (drawAt E ds.prod (ravel ds i)) = ProbabilityTheory.gaussianReal 0 v) :
    P {r | ∃ y s, Dropout.forward E true (ofFn ds f) (l, r) = (.ok (ofFn ds y), s) ∧ y i ≠ 0} ≠
      ENNReal.ofReal (1 - l.dropoutRate) :=
  C49_probability_refuted E h f l h0 h1 hi hf P hm (by rw [hlaw]; exact gaussian_symmetric v)

/-- Such engines exist: one whose state is its next draw, started in a standard normal state. -/
example : ∃ E : Engine ℝ ℝ, Measurable (drawAt E [1].prod (ravel [1] [0])) ∧
    (ProbabilityTheory.gaussianReal 0 1).map (drawAt E [1].prod (ravel [1] [0])) = ProbabilityTheory.gaussianReal 0 1 := by
  refine ⟨⟨fun _ => 0, fun _ r => (r, r)⟩, ?_⟩
  have : drawAt (⟨fun _ => 0, fun _ r => (r, r)⟩ : Engine ℝ ℝ) [1].prod (ravel [1] [0]) = id := by
    funext r
    rfl
  rw [this]
  exact ⟨measurable_id, MeasureTheory.Measure.map_id⟩

/-- "Rate 0 keeps everything" is false: every element whose raw draw is not positive is set to 0. -/
theorem C49_rate_zero_refuted {ρ : Type} (E : Engine ρ ℝ) {ds : List Nat} (h : Dims ds) (f : List Nat → ℝ) (r : ρ)
    (hneg : ∀ k < ds.prod, drawAt E ds.prod k r ≤ 0) :
    (Dropout.forward E true (ofFn ds f) ({ dropoutRate := 0 }, r)).1 = .ok (ofFn ds (fun _ => 0)) := by
  obtain ⟨draw, s, y, h1, h2, h3⟩ := C49_decision_partial E h f { dropoutRate := 0 } r (by norm_num)
  rw [h2]
  simp only [Except.ok.injEq]
  refine ofFn_congr fun i hi => (h3 i).2 ?_
  rw [kept_iff (le_refl _) (by norm_num), h1]
  exact not_lt.2 (hneg _ (ravel_lt hi))

/-- Such an engine state exists. -/
example : ∃ E : Engine Unit ℝ, ∀ k < [2, 3].prod, drawAt E [2, 3].prod k () ≤ 0 :=
  ⟨⟨fun _ => (), fun _ _ => (-1, ())⟩, fun _ _ => by simp [drawAt]⟩

/-! ### C50 -/

/-- The function computed by a training-mode `forward` whose draws are `u`. -/
noncomputable def Spec.dropout (rate : ℝ) (u x : List Nat → ℝ) : List Nat → ℝ :=
  fun i => if rate < u i then x i / (1 - rate) else 0

/-- Training mode: `backward(g)` is `1 - rate` times the derivative of the `forward` call, with the same
mask.  Missing for the full property: the factor `1 / (1 - rate)`, see `C50_scale_refuted`. -/
theorem C50_training_partial {ρ : Type} (E : Engine ρ ℝ) {ds : List Nat} (h : Dims ds) (f g : List Nat → ℝ) (l : Dropout ℝ)
    (r : ρ) (hrate : l.dropoutRate ≠ 1) :
    ∃ (u : List Nat → ℝ) (s : Dropout ℝ × ρ) (A : (List Nat → ℝ) → List Nat → ℝ),
      Dropout.forward E true (ofFn ds f) (l, r) = (.ok (ofFn ds (dropout l.dropoutRate u f)), s) ∧
      (∀ i, l.dropoutRate < u i ↔ kept l.dropoutRate (drawAt E ds.prod (ravel ds i) r)) ∧
      HasVJP ds ds (dropout l.dropoutRate u) f A ∧
      (∀ g i, A g i = if l.dropoutRate < u i then g i / (1 - l.dropoutRate) else 0) ∧
      (Dropout.backward true (ofFn ds g) s.1).1 = .ok (ofFn ds (fun i => (1 - l.dropoutRate) * A g i)) := by
  refine ⟨fun idx => cmin (cmax (drawAt E ds.prod (ravel ds idx) r) 0) 1,
    ({ l with mask := some (ofFn ds (fun i => if l.dropoutRate < cmin (cmax (drawAt E ds.prod (ravel ds i) r) 0) 1
      then 1 else 0)) }, engineAfter E ds.prod ds.prod r),
    fun g i => g i * (if l.dropoutRate < cmin (cmax (drawAt E ds.prod (ravel ds i) r) 0) 1 then 1 / (1 - l.dropoutRate) else 0),
    (dropout_forward_training E h f l r (createRandom_ofFn E ds 0 1 r)).trans ?_,
    fun i => kept_iff_cmin _ _, ?_, ?_, ?_⟩
  · refine Prod.ext ?_ rfl
    simp only [Except.ok.injEq]
    refine ofFn_congr fun i _ => ?_
    unfold dropout
    split
    · rw [mul_one, mul_one_div]
    · rw [mul_zero, zero_mul]
  · intro g c v hc
    have : total ds (fun i => g i * (if l.dropoutRate < cmin (cmax (drawAt E ds.prod (ravel ds i) r) 0) 1
        then 1 / (1 - l.dropoutRate) else 0) * v i) = total ds (fun i => g i *
        (if l.dropoutRate < cmin (cmax (drawAt E ds.prod (ravel ds i) r) 0) 1 then v i / (1 - l.dropoutRate) else 0)) :=
      total_congr fun i _ => by split <;> ring
    rw [this]
    apply hasDerivAt_total (f := fun i t => g i * dropout l.dropoutRate _ (c t) i)
    intro i hi
    apply HasDerivAt.const_mul
    unfold dropout
    split
    · exact (hc.2 i hi).div_const _
    · exact hasDerivAt_const _ _
  · intro g i
    beta_reduce
    split <;> ring
  · unfold Dropout.backward
    rw [Mut.get_bind]
    simp only [derefOpt, Mut.lift_ok_bind, ofFn_shape, beq_shapeOf, decide_true, Bool.not_true, Bool.false_eq_true,
      if_false, if_true, Mut.lift_apply]
    rw [mul_same h]
    congr 1
    refine ofFn_congr fun i _ => ?_
    have : (1 : ℝ) - l.dropoutRate ≠ 0 := fun h0 => hrate (by linarith)
    split
    · field_simp
    · simp

/-- The rescaling is missing: whenever some element is kept, has a non-zero gradient and the rate is not
0, `backward(g)` is not the derivative of `forward`. -/
theorem C50_scale_refuted {ρ : Type} (E : Engine ρ ℝ) {ds : List Nat} (h : Dims ds) (f g : List Nat → ℝ) (l : Dropout ℝ)
    (r : ρ) (hrate : l.dropoutRate ≠ 1) (h0 : l.dropoutRate ≠ 0) {i : List Nat} (hi : ValidIdx ds i)
    (hk : kept l.dropoutRate (drawAt E ds.prod (ravel ds i) r)) (hg : g i ≠ 0) :
    ∃ (u y : List Nat → ℝ) (s : Dropout ℝ × ρ),
      Dropout.forward E true (ofFn ds f) (l, r) = (.ok (ofFn ds (dropout l.dropoutRate u f)), s) ∧
      (Dropout.backward true (ofFn ds g) s.1).1 = .ok (ofFn ds y) ∧
      ¬ HasGradient ds (fun x => total ds (fun j => g j * dropout l.dropoutRate u x j)) f y := by
  obtain ⟨u, s, A, h1, hu, h2, hA, h3⟩ := C50_training_partial E h f g l r hrate
  refine ⟨u, _, s, h1, h3, fun hG => ?_⟩
  have h4 := (h2 g).unique hG hi
  have h5 : A g i = g i / (1 - l.dropoutRate) := by rw [hA, if_pos ((hu i).2 hk)]
  have h6 : A g i ≠ 0 := by
    rw [h5]
    exact div_ne_zero hg (fun h7 => hrate (by linarith))
  have : l.dropoutRate * A g i = 0 := by linarith
  exact (mul_ne_zero h0 h6) this

/-- The hypotheses can be met: rate 1/4, one element, draw 1/2. -/
example : ∃ E : Engine Unit ℝ, kept (1 / 4) (drawAt E [1].prod (ravel [1] [0]) ()) :=
  ⟨⟨fun _ => (), fun _ _ => (1 / 2, ())⟩, by
    rw [kept_iff (by norm_num) (by norm_num)]
    simp [drawAt]
    norm_num⟩

/-- Evaluation mode: `backward(g)` is `g` if a mask of that shape was stored by an earlier training-mode
`forward`.  Missing for the full property: without such a call, see `C50_eval_fresh_refuted` and
`C50_eval_stale_refuted`. -/
theorem C50_eval_partial {T : Type} [Zero T] [Mul T] (ds : List Nat) (g m : List Nat → T) (l : Dropout T)
    (hm : l.mask = some (ofFn ds m)) : Dropout.backward false (ofFn ds g) l = (.ok (ofFn ds g), l) := by
  unfold Dropout.backward
  rw [Mut.get_bind, hm]
  simp only [derefOpt, Mut.lift_ok_bind, ofFn_shape, beq_shapeOf, decide_true, Bool.not_true, Bool.false_eq_true,
      if_false]
  rfl

/-- A layer that is only used in evaluation mode: `forward` works, `backward` is undefined behaviour. -/
theorem C50_eval_fresh_refuted {ρ : Type} (E : Engine ρ ℝ) (rate : ℝ) (x g : Tensor ℝ) (r : ρ) :
    ∃ s, Dropout.forward E false x ({ dropoutRate := rate }, r) = (.ok x, s) ∧
      (Dropout.backward false g s.1).1 = .error .ub := ⟨_, rfl, rfl⟩

/-- After a training-mode `forward` of another shape, evaluation-mode `backward` throws. -/
theorem C50_eval_stale_refuted {ρ : Type} (E : Engine ρ ℝ) {ds es : List Nat} (h : Dims ds) (hne : es ≠ ds)
    (f x g : List Nat → ℝ) (l : Dropout ℝ) (r : ρ) :
    ∃ s, Dropout.forward E false (ofFn es x) (Dropout.forward E true (ofFn ds f) (l, r)).2 = (.ok (ofFn es x), s) ∧
      (Dropout.backward false (ofFn es g) s.1).1 = .error .invalidArgument := by
  rw [dropout_forward_training E h f l r (createRandom_ofFn E ds 0 1 r)]
  refine ⟨_, rfl, ?_⟩
  unfold Dropout.backward
  rw [Mut.get_bind]
  simp only [derefOpt, Mut.lift_ok_bind]
  have hb : (!(shapeOf es).beq (shapeOf ds)) = true := by rw [beq_shapeOf, decide_eq_false hne]; rfl
  rw [if_pos (show (!(ofFn es g).shape.beq (ofFn ds _).shape) = true from hb)]
  rfl

end SmartDNN
