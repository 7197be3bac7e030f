import Verif.Proofs.Rising

/-!
# C105: raising the input never lowers the answer of a model without negative weights
-/

namespace SmartDNN
open Net Spec

/-- A model in which no weight or scale is negative and every activation rises: if one input is nowhere smaller than another, then
either both predictions throw the same exception, or the answer to it is nowhere smaller than the answer to the other.  This holds in
every arithmetic that respects the order, and whatever state the random engine and the stored intermediate results are in. -/
theorem C105_predict {ρ T : Type} [Zero T] [One T] [Add T] [Sub T] [Mul T] [Div T] [Neg T] [NatCast T]
    [IntCast T] [LT T] [DecidableLT T] [LE T] [DecidableLE T] [DecidableEq T] [MathFn T] (A : MonotoneArithmetic T)
    (E : Engine ρ T) {net : Net ρ T} (h : ∀ l ∈ net.layers, RisingLayer l) {x x' : Tensor T} (hx : Below x x') :
    SameOutcome Below (Net.predict E x net).1 (Net.predict E x' net).1 :=
  rise_layers A E net.layers h hx net.rng net.rng

/-- With exact arithmetic. -/
theorem C105_real {ρ : Type} (E : Engine ρ ℝ) {net : Net ρ ℝ} (h : ∀ l ∈ net.layers, RisingLayer l) {x x' : Tensor ℝ} (hx : Below x x') :
    SameOutcome Below (Net.predict E x net).1 (Net.predict E x' net).1 :=
  C105_predict monotone_real E h hx

/-- With every arithmetic that rounds exact results and in doing so keeps their order and zero. -/
theorem C105_rounding {ρ : Type} {rd : ℝ → ℝ} (hm : Monotone rd) (h0 : rd 0 = 0) (E : Engine ρ (Rounded rd)) {net : Net ρ (Rounded rd)}
    (h : ∀ l ∈ net.layers, RisingLayer l) {x x' : Tensor (Rounded rd)} (hx : Below x x') :
    SameOutcome Below (Net.predict E x net).1 (Net.predict E x' net).1 :=
  C105_predict (monotone_rounded hm h0) E h hx

/-- With binary floating point of any precision (`p` bits after the leading one, subnormal spacing `2^emin`), as long as nothing
overflows: rounding to nearest keeps the order of all numbers. -/
theorem C105_binary {ρ : Type} {p emin : Int} (hp : 0 ≤ p) (E : Engine ρ (Rounded (rnd p emin))) {net : Net ρ (Rounded (rnd p emin))}
    (h : ∀ l ∈ net.layers, RisingLayer l) {x x' : Tensor (Rounded (rnd p emin))} (hx : Below x x') :
    SameOutcome Below (Net.predict E x net).1 (Net.predict E x' net).1 :=
  C105_rounding (rnd_monotone hp) (rnd_zero p emin) E h hx

/-- Which activations rise, with exact arithmetic: ReLU, leaky ReLU with a slope that is not negative, sigmoid and tanh. -/
theorem C105_activations : RisingAct (T := ℝ) .relu ∧ (∀ α : ℝ, 0 ≤ α → RisingAct (.leakyRelu α)) ∧ RisingAct (T := ℝ) .sigmoid ∧ RisingAct (T := ℝ) .tanh := by
  refine ⟨?_, fun α hα => ?_, ?_, ?_⟩
  · exact rising_of (fun x => cmax 0 x) trivial (fun x => rfl) fun x y hxy => rise_max monotone_real (le_refl _) hxy
  · refine rising_of (fun x => if 0 < x then x else α * x) trivial (fun x => rfl) fun x y hxy => ?_
    split <;> split <;> nlinarith
  · refine rising_of (fun x => Act.sig (MathFn.toFloat x)) trivial (fun x => rfl) fun x y hxy => ?_
    show 1 / (1 + Real.exp (-x)) ≤ 1 / (1 + Real.exp (-y))
    have := Real.exp_pos (-y)
    exact one_div_le_one_div_of_le (by linarith) (by linarith [Real.exp_le_exp.2 (neg_le_neg hxy)])
  · refine rising_of (fun x => (Real.exp (x * ((2 : Nat) : ℝ)) - 1) / (Real.exp (x * ((2 : Nat) : ℝ)) + 1)) trivial (fun x => rfl) fun x y hxy => ?_
    have h1 := Real.exp_le_exp.2 (mul_le_mul_of_nonneg_right hxy (Nat.cast_nonneg (α := ℝ) 2))
    have h2 := Real.exp_pos (x * ((2 : Nat) : ℝ))
    have h3 := Real.exp_pos (y * ((2 : Nat) : ℝ))
    rw [div_le_div_iff₀ (by linarith) (by linarith)]
    nlinarith

/-- However the arithmetic rounds: ReLU, leaky ReLU and sigmoid. -/
theorem C105_activations_rounding {rd : ℝ → ℝ} (hm : Monotone rd) (h0 : rd 0 = 0) (h1 : rd 1 = 1) :
    RisingAct (T := Rounded rd) .relu ∧ (∀ α : Rounded rd, 0 ≤ α → RisingAct (.leakyRelu α)) ∧ RisingAct (T := Rounded rd) .sigmoid :=
  ⟨rising_relu hm h0, fun _ hα => rising_leaky hm h0 hα, rising_sigmoid hm h0 h1⟩

/-- Swish does not rise: it is smaller at -1 than at -5. -/
theorem C105_swish : ¬ RisingAct (T := ℝ) .swish := by
  intro h
  have h1 : -5 * (1 / (1 + Real.exp (- -5))) ≤ -1 * (1 / (1 + Real.exp (- -1))) := h.2 (-5) (-1) _ _ (by norm_num) rfl rfl
  rw [neg_neg, neg_neg] at h1
  have e1 : (2 : ℝ) ≤ Real.exp 1 := by linarith [Real.add_one_le_exp (1 : ℝ)]
  have e5 : Real.exp 5 = Real.exp 1 ^ 5 := by rw [← Real.exp_nat_mul]; norm_num
  have hp := Real.exp_pos 5
  rw [mul_one_div, mul_one_div, div_le_div_iff₀ (by linarith) (by linarith), e5] at h1
  have : (16 : ℝ) ≤ Real.exp 1 ^ 4 := by
    have := pow_le_pow_left₀ (by norm_num) e1 4
    linarith
  nlinarith [mul_le_mul this e1 (by norm_num) (by positivity)]

/-- A weight that is negative: the dense layer `y = -x` answers less to more. -/
theorem C105_negative {ρ : Type} (E : Engine ρ ℝ) (net : Net ρ ℝ)
    (hn : net.layers = [⟨.fc ⟨ofFn [1, 1] fun _ => -1, ofFn [1, 1] fun _ => 0, none, none, none⟩, true⟩]) :
    Below (ofFn [1, 1] fun _ => (0 : ℝ)) (ofFn [1, 1] fun _ => 1) ∧
    ¬ SameOutcome Below (Net.predict E (ofFn [1, 1] fun _ => 0) net).1 (Net.predict E (ofFn [1, 1] fun _ => 1) net).1 := by
  have hf : ∀ v : ℝ, (Net.predict E (ofFn [1, 1] fun _ => v) net).1 = .ok (ofFn [1, 1] (denseRow 1 (fun _ => -1) (fun _ => 0) fun _ => v)) := by
    intro v
    have h := fc_affine_batch (b := 1) (n := 1) (m := 1) ⟨by simp, by simp, by norm_num⟩ (fun _ => (-1 : ℝ)) (fun _ => 0) (fun _ => v)
    unfold Net.predict
    rw [hn]
    have e : (Layer.forward E (ofFn [1, 1] fun _ => v) (⟨.fc ⟨ofFn [1, 1] fun _ => -1, ofFn [1, 1] fun _ => 0, none, none, none⟩, true⟩, net.rng)).1
        = .ok (ofFn [1, 1] (denseRow 1 (fun _ => -1) (fun _ => 0) fun _ => v)) := h
    unfold forwardLayers
    generalize Layer.forward E _ _ = o at e
    obtain ⟨o1, l1, r1⟩ := o
    subst e
    rfl
  refine ⟨⟨rfl, .cons (by norm_num) .nil⟩, fun h => ?_⟩
  rw [hf, hf] at h
  have h2 := h.2
  have : denseRow 1 (fun _ => (-1 : ℝ)) (fun _ => 0) (fun _ => 0) [0, 0] ≤ denseRow 1 (fun _ => (-1 : ℝ)) (fun _ => 0) (fun _ => 1) [0, 0] := by
    rcases h2 with _ | ⟨h3, -⟩
    exact h3
  have e : ∀ v : ℝ, denseRow 1 (fun _ => (-1 : ℝ)) (fun _ => 0) (fun _ => v) [0, 0] = -v := by
    intro v
    simp [denseRow, dot, lsum, List.range_succ]
  rw [e, e] at this
  norm_num at this

/-! ### The hypotheses are met -/

/-- A convolutional network: convolution, ReLU, pooling, flattening, dropout and batch normalisation in evaluation mode, a dense layer and
sigmoid; the weights are squares of any numbers, the biases and the running statistics are any numbers. -/
noncomputable def risingNet (w b w2 b2 g s m v : List Nat → ℝ) (c : ℝ) : Net Unit ℝ :=
  { layers := [⟨.conv ⟨1, 2, 2, 2, 1, 0, 1, ofFn [2, 1, 2, 2] fun i => w i ^ 2, ofFn [2, 1, 1] b, none, none, none⟩, true⟩,
      ⟨.activation ⟨.relu, none⟩, true⟩, ⟨.maxPool ⟨2, 2, 0, c, none⟩, true⟩, ⟨.flatten {}, true⟩, ⟨.dropout ⟨c, none⟩, false⟩,
      ⟨.fc ⟨ofFn [2, 3] fun i => w2 i ^ 2, ofFn [1, 3] b2, none, none, none⟩, true⟩,
      ⟨.batchNorm ⟨c, c, c, ofFn [3] fun i => g i ^ 2, ofFn [3] s, ofFn [3] m, ofFn [3] v, none, none, none, none, none⟩, false⟩,
      ⟨.activation ⟨.sigmoid, none⟩, true⟩]
    loss := none
    optimizer := none
    rng := () }

/-- Brighter images never score lower. -/
example (w b w2 b2 g s m v : List Nat → ℝ) (c : ℝ) (x y : List Nat → ℝ) (h : ∀ i, x i ≤ y i) (E : Engine Unit ℝ) :
    SameOutcome Below (Net.predict E (ofFn [1, 1, 3, 3] x) (risingNet w b w2 b2 g s m v c)).1
      (Net.predict E (ofFn [1, 1, 3, 3] y) (risingNet w b w2 b2 g s m v c)).1 := by
  have sq : ∀ (ds : List Nat) (f : List Nat → ℝ), ∀ u ∈ (ofFn ds fun i => f i ^ 2).data, 0 ≤ u := by
    intro ds f u hu
    obtain ⟨i, -, rfl⟩ := List.mem_map.1 hu
    positivity
  refine C105_real E (fun l hl => ?_) ⟨rfl, ?_⟩
  · simp only [risingNet, List.mem_cons, List.not_mem_nil, or_false] at hl
    rcases hl with rfl | rfl | rfl | rfl | rfl | rfl | rfl | rfl
    · exact sq _ _
    · exact C105_activations.1
    · trivial
    · trivial
    · rfl
    · exact sq _ _
    · exact ⟨rfl, sq _ _⟩
    · exact C105_activations.2.2.1
  · show List.Forall₂ _ (List.map _ _) (List.map _ _)
    rw [List.forall₂_map_left_iff, List.forall₂_map_right_iff, List.forall₂_same]
    exact fun i _ => h i

/-- Single precision: the rounding keeps the order, zero and one. -/
example : Monotone (rnd 23 (-149)) ∧ rnd 23 (-149) 0 = 0 ∧ rnd 23 (-149) 1 = 1 :=
  ⟨rnd_monotone (by norm_num), rnd_zero _ _, rnd_one (by norm_num) (by norm_num)⟩

/-- Single precision: a dense layer with weights that are not negative, followed by ReLU. -/
example (w b x y : List Nat → Rounded (rnd 23 (-149))) (hw : ∀ i, 0 ≤ w i) (h : ∀ i, x i ≤ y i) (E : Engine Unit (Rounded (rnd 23 (-149)))) (net : Net Unit (Rounded (rnd 23 (-149))))
    (hn : net.layers = [⟨.fc ⟨ofFn [4, 2] w, ofFn [1, 2] b, none, none, none⟩, true⟩, ⟨.activation ⟨.relu, none⟩, true⟩]) :
    SameOutcome Below (Net.predict E (ofFn [1, 4] x) net).1 (Net.predict E (ofFn [1, 4] y) net).1 := by
  refine C105_binary (by norm_num) E (fun l hl => ?_) ⟨rfl, ?_⟩
  · rw [hn] at hl
    simp only [List.mem_cons, List.not_mem_nil, or_false] at hl
    rcases hl with rfl | rfl
    · intro u hu
      obtain ⟨i, -, rfl⟩ := List.mem_map.1 hu
      exact hw i
    · exact rising_relu (rnd_monotone (by norm_num)) (rnd_zero _ _)
  · show List.Forall₂ _ (List.map _ _) (List.map _ _)
    rw [List.forall₂_map_left_iff, List.forall₂_map_right_iff, List.forall₂_same]
    exact fun i _ => h i

end SmartDNN
