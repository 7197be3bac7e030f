import Verif.Props.Descent
import Mathlib.Topology.Algebra.InfiniteSum.Real

/-!
# Training a linear model on a linear relation converges (C76)
-/

namespace SmartDNN
open Net Spec Finset

/-! ### Specification -/

/-- A compiled model that consists of one fully connected layer from `n` to `m` features with weights `w` and biases `bias`, mean
squared error, and SGD with learning rate `lr`, without momentum and weight decay. -/
def Spec.LinearModel {ρ : Type} (n m : Nat) (lr : ℝ) (net : Net ρ ℝ) (w bias : List Nat → ℝ) : Prop :=
  ∃ (l : FC ℝ) (mode : Bool) (opt : Optimizer (Nat × Bool) ℝ), net.layers = [⟨.fc l, mode⟩] ∧
    l.weights = ofFn [n, m] w ∧ l.biases = ofFn [1, m] bias ∧ net.loss = some .mse ∧ net.optimizer = some opt ∧ PlainSGD lr opt

/-- Squared distance between two sets of parameters. -/
noncomputable def Spec.paramDist (n m : Nat) (w bias w' bias' : List Nat → ℝ) : ℝ :=
  total [n, m] (fun i => (w i - w' i) ^ 2) + total [1, m] (fun i => (bias i - bias' i) ^ 2)

/-- The sum over the rows of `x` of one plus the squared length of the row. -/
noncomputable def Spec.rowMass (b n : Nat) (x : List Nat → ℝ) : ℝ := total [b, n] (fun i => x i ^ 2) + b

/-- A training pair whose targets are exactly the affine map with weights `ws` and biases `bs` of its input rows, for which the
learning rate is at most `κ` times the bound `b m / Σ (1 + |row|²)`. -/
def Spec.LinearSample (n m : Nat) (lr κ : ℝ) (ws bs : List Nat → ℝ) (p : Tensor ℝ × Tensor ℝ) : Prop :=
  ∃ (b : Nat) (x : List Nat → ℝ), Dims [b, n] ∧ Dims [b, m] ∧ p = (ofFn [b, n] x, ofFn [b, m] (affine n ws bs x)) ∧
    lr * rowMass b n x ≤ κ * (b * m)

/-! ### Algebra -/

theorem descent_identity (b n m : ℕ) (X r : ℕ → ℕ → ℝ) (dw : ℕ → ℕ → ℝ) (db : ℕ → ℝ) (c : ℝ)
    (hr : ∀ i j, r i j = (∑ k ∈ range n, X i k * dw k j) + db j) :
    (∑ k ∈ range n, ∑ j ∈ range m, (dw k j - c * ∑ i ∈ range b, X i k * r i j) ^ 2) +
      ∑ j ∈ range m, (db j - c * ∑ i ∈ range b, r i j) ^ 2 =
    (∑ k ∈ range n, ∑ j ∈ range m, dw k j ^ 2) + (∑ j ∈ range m, db j ^ 2)
      - 2 * c * (∑ i ∈ range b, ∑ j ∈ range m, r i j ^ 2)
      + c ^ 2 * ((∑ k ∈ range n, ∑ j ∈ range m, (∑ i ∈ range b, X i k * r i j) ^ 2) +
        ∑ j ∈ range m, (∑ i ∈ range b, r i j) ^ 2) := by
  have h1 : ∑ i ∈ range b, ∑ j ∈ range m, r i j ^ 2 =
      (∑ k ∈ range n, ∑ j ∈ range m, dw k j * ∑ i ∈ range b, X i k * r i j) + ∑ j ∈ range m, db j * ∑ i ∈ range b, r i j := by
    rw [sum_comm, sum_comm (s := range n), ← sum_add_distrib]
    refine sum_congr rfl fun j _ => ?_
    simp only [mul_sum]
    rw [sum_comm, ← sum_add_distrib]
    refine sum_congr rfl fun i _ => ?_
    have : ∑ k ∈ range n, dw k j * (X i k * r i j) = (∑ k ∈ range n, X i k * dw k j) * r i j := by
      rw [sum_mul]
      exact sum_congr rfl fun k _ => by ring
    rw [this, ← add_mul, ← hr]
    ring
  rw [h1]
  have e1 : ∀ (a b : ℝ), (a - c * b) ^ 2 = a ^ 2 - 2 * c * (a * b) + c ^ 2 * b ^ 2 := fun a b => by ring
  simp only [e1, sum_add_distrib, sum_sub_distrib, ← mul_sum]
  ring

theorem descent_bound (b n m : ℕ) (X r : ℕ → ℕ → ℝ) :
    (∑ k ∈ range n, ∑ j ∈ range m, (∑ i ∈ range b, X i k * r i j) ^ 2) + ∑ j ∈ range m, (∑ i ∈ range b, r i j) ^ 2 ≤
    ((∑ i ∈ range b, ∑ k ∈ range n, X i k ^ 2) + b) * ∑ i ∈ range b, ∑ j ∈ range m, r i j ^ 2 := by
  have h1 : ∑ k ∈ range n, ∑ j ∈ range m, (∑ i ∈ range b, X i k * r i j) ^ 2 ≤
      (∑ i ∈ range b, ∑ k ∈ range n, X i k ^ 2) * ∑ i ∈ range b, ∑ j ∈ range m, r i j ^ 2 := by
    rw [sum_comm (s := range b) (t := range n), sum_comm (s := range b) (t := range m), sum_mul]
    refine sum_le_sum fun k _ => ?_
    rw [mul_sum]
    refine sum_le_sum fun j _ => ?_
    exact sum_mul_sq_le_sq_mul_sq _ _ _
  have h2 : ∑ j ∈ range m, (∑ i ∈ range b, r i j) ^ 2 ≤ b * ∑ i ∈ range b, ∑ j ∈ range m, r i j ^ 2 := by
    rw [sum_comm (s := range b) (t := range m), mul_sum]
    refine sum_le_sum fun j _ => ?_
    have := sum_mul_sq_le_sq_mul_sq (range b) (fun _ => (1 : ℝ)) (fun i => r i j)
    simpa using this
  rw [add_mul]
  exact add_le_add h1 h2

/-- One step, in terms of the parameter errors. -/
theorem descent_step (b n m : ℕ) (X r : ℕ → ℕ → ℝ) (dw : ℕ → ℕ → ℝ) (db : ℕ → ℝ) (c κ : ℝ) (hc : 0 ≤ c)
    (hr : ∀ i j, r i j = (∑ k ∈ range n, X i k * dw k j) + db j)
    (hκ : c * ((∑ i ∈ range b, ∑ k ∈ range n, X i k ^ 2) + b) ≤ 2 * κ) :
    (∑ k ∈ range n, ∑ j ∈ range m, (dw k j - c * ∑ i ∈ range b, X i k * r i j) ^ 2) +
      ∑ j ∈ range m, (db j - c * ∑ i ∈ range b, r i j) ^ 2 + 2 * c * (1 - κ) * (∑ i ∈ range b, ∑ j ∈ range m, r i j ^ 2) ≤
    (∑ k ∈ range n, ∑ j ∈ range m, dw k j ^ 2) + (∑ j ∈ range m, db j ^ 2) := by
  rw [descent_identity b n m X r dw db c hr]
  have hb := descent_bound b n m X r
  have hR : 0 ≤ ∑ i ∈ range b, ∑ j ∈ range m, r i j ^ 2 := sum_nonneg fun i _ => sum_nonneg fun j _ => sq_nonneg _
  generalize (∑ k ∈ range n, ∑ j ∈ range m, (∑ i ∈ range b, X i k * r i j) ^ 2) + ∑ j ∈ range m, (∑ i ∈ range b, r i j) ^ 2 = G at *
  generalize (∑ i ∈ range b, ∑ k ∈ range n, X i k ^ 2) + (b : ℝ) = S at *
  generalize ∑ i ∈ range b, ∑ j ∈ range m, r i j ^ 2 = R at *
  have e1 : c ^ 2 * G ≤ c ^ 2 * (S * R) := mul_le_mul_of_nonneg_left hb (sq_nonneg c)
  have e2 : c * R * (c * S) ≤ c * R * (2 * κ) := mul_le_mul_of_nonneg_left hκ (mul_nonneg hc hR)
  nlinarith

/-! ### One training step of a linear model -/

/-- The weights and biases after one step with predictions `y` and targets `t`. -/
noncomputable def stepWeights (b m : Nat) (lr : ℝ) (x y t w : List Nat → ℝ) : List Nat → ℝ := fun idx =>
  w idx - lr * ∑ i ∈ range b, x [i, idx.getD 0 0] * ((y [i, idx.getD 1 0] - t [i, idx.getD 1 0]) * 2 / (([b, m].prod : ℕ) : ℝ))

noncomputable def stepBiases (b m : Nat) (lr : ℝ) (y t bias : List Nat → ℝ) : List Nat → ℝ := fun idx =>
  bias idx - lr * ∑ i ∈ range b, ((y [i, idx.getD 1 0] - t [i, idx.getD 1 0]) * 2 / (([b, m].prod : ℕ) : ℝ))

theorem single_predict {ρ : Type} (E : Engine ρ ℝ) {x y : Tensor ℝ} {l l' : FC ℝ} (h : FC.forward x l = (.ok y, l')) (mode : Bool)
    (L : Option (Loss ℝ)) (o : Option (Optimizer (Nat × Bool) ℝ)) (r : ρ) :
    predict E x ⟨[⟨.fc l, mode⟩], L, o, r⟩ = (.ok y, ⟨[⟨.fc l', mode⟩], L, o, r⟩) := by
  simp only [predict, forwardLayers, Layer.forward, Layer.onKind, h]

theorem single_backward {ρ : Type} {g z : Tensor ℝ} {l l' : FC ℝ} (h : FC.backward g l = (.ok z, l')) (mode : Bool)
    (L : Option (Loss ℝ)) (o : Option (Optimizer (Nat × Bool) ℝ)) (r : ρ) :
    backward g (⟨[⟨.fc l, mode⟩], L, o, r⟩ : Net ρ ℝ) = (.ok z, ⟨[⟨.fc l', mode⟩], L, o, r⟩) := by
  simp only [backward, backwardLayers, Layer.backward, Layer.onKind, h]

theorem single_update {ρ : Type} {l : FC ℝ} {w b gw gb w' b' : Tensor ℝ} {o o' : Optimizer (Nat × Bool) ℝ}
    (hw : l.weights = w) (hb : l.biases = b) (h1 : l.weightGradients = some gw) (h2 : l.biasGradients = some gb)
    (h : Layer.optimizePair (0, false) (0, true) o w b gw gb = (.ok (), w', b', o')) (mode : Bool)
    (L : Option (Loss ℝ)) (r : ρ) :
    updateWeights (⟨[⟨.fc l, mode⟩], L, some o, r⟩ : Net ρ ℝ) =
      (.ok (), ⟨[⟨.fc { l with weights := w', biases := b' }, mode⟩], L, some o', r⟩) := by
  simp only [updateWeights, updateLayers, Layer.updateWeights, h1, h2, hw, hb, h]

theorem linear_step {ρ : Type} {b n m : Nat} {lr : ℝ} (E : Engine ρ ℝ) {net : Net ρ ℝ} {w bias : List Nat → ℝ}
    (h : LinearModel n m lr net w bias) (hx : Dims [b, n]) (hw : Dims [n, m]) (hg : Dims [b, m]) (x t : List Nat → ℝ) :
    ∃ net', StepOk E (ofFn [b, n] x) (ofFn [b, m] t) net net' (mse [b, m] (affine n w bias x) t) ∧
      LinearModel n m lr net' (stepWeights b m lr x (affine n w bias x) t w) (stepBiases b m lr (affine n w bias x) t bias) := by
  obtain ⟨l, mode, opt, h1, h2, h3, h4, h5, h6⟩ := h
  obtain ⟨ls, loss, op, r⟩ := net
  simp only at h1 h4 h5
  subst h1 h4 h5
  have hf := C37_batch (b := b) hg w bias x l h2 h3
  have hb := fc_backward (l := { l with input := some (ofFn [b, n] x) }) hx hw hg (w := w) (bias := bias) (x := x)
    (g := fun i => (affine n w bias x i - t i) * 2 / (([b, m].prod : ℕ) : ℝ)) h2 h3 rfl (ensure2D_mat _ _ _) (ensure2D_mat _ _ _)
  simp only [dot_eq_sum, lsum_eq_sum, ← List.sum_toFinset _ List.nodup_range, List.toFinset_range] at hb
  obtain ⟨opt', hp⟩ := plain_pair (k0 := ((0, false) : Nat × Bool)) (k1 := (0, true)) (by simp) h6 [n, m] [1, m] w bias
    (fun idx => ∑ i ∈ range b, x [i, idx.getD 0 0] * ((affine n w bias x [i, idx.getD 1 0] - t [i, idx.getD 1 0]) * 2 / (([b, m].prod : ℕ) : ℝ)))
    (fun idx => ∑ i ∈ range b, ((affine n w bias x [i, idx.getD 1 0] - t [i, idx.getD 1 0]) * 2 / (([b, m].prod : ℕ) : ℝ)))
  have hplain := optimizePair_plain (k0 := ((0, false) : Nat × Bool)) (k1 := (0, true)) h6 (ofFn [n, m] w) (ofFn [1, m] bias)
    (ofFn [n, m] (fun idx => ∑ i ∈ range b, x [i, idx.getD 0 0] * ((affine n w bias x [i, idx.getD 1 0] - t [i, idx.getD 1 0]) * 2 / (([b, m].prod : ℕ) : ℝ))))
    (ofFn [1, m] (fun idx => ∑ i ∈ range b, ((affine n w bias x [i, idx.getD 1 0] - t [i, idx.getD 1 0]) * 2 / (([b, m].prod : ℕ) : ℝ))))
  rw [hp] at hplain
  refine ⟨_, ⟨_, _, .mse, _, _, _, single_predict E hf mode _ _ r, rfl, C29_compute hg _ _, mse_gradient_ofFn hg _ _,
    single_backward hb mode _ _ r, single_update (by exact h2) (by exact h3) rfl rfl hp mode _ r⟩, _, mode, opt', rfl, rfl, rfl, rfl, rfl, hplain⟩

/-! ### Training on a linear relation -/

theorem linear_decrease {b n m : Nat} {lr κ : ℝ} (hlr : 0 ≤ lr) (hb : Dims [b, m]) (w bias ws bs x : List Nat → ℝ)
    (hκ : lr * rowMass b n x ≤ κ * (b * m)) :
    paramDist n m (stepWeights b m lr x (affine n w bias x) (affine n ws bs x) w)
        (stepBiases b m lr (affine n w bias x) (affine n ws bs x) bias) ws bs +
      4 * lr * (1 - κ) * mse [b, m] (affine n w bias x) (affine n ws bs x) ≤ paramDist n m w bias ws bs := by
  have hpos : (0 : ℝ) < b * m := by
    have := hb.prod_pos
    simp only [List.prod_cons, List.prod_nil, mul_one] at this
    exact_mod_cast this
  have hN : (([b, m].prod : ℕ) : ℝ) = b * m := by simp
  have key := descent_step b n m (fun i k => x [i, k]) (fun i j => affine n w bias x [i, j] - affine n ws bs x [i, j])
    (fun k j => w [k, j] - ws [k, j]) (fun j => bias [0, j] - bs [0, j]) (2 * lr / (b * m)) κ (by positivity) ?_ ?_
  · refine le_trans (le_of_eq ?_) (key.trans (le_of_eq ?_))
    · unfold paramDist mse
      simp only [total2, stepWeights, stepBiases, hN, sum_range_one, List.getD_cons_zero, List.getD_cons_succ]
      congr 1
      · congr 1
        · refine sum_congr rfl fun k _ => sum_congr rfl fun j _ => ?_
          congr 1
          rw [sub_right_comm, mul_sum, mul_sum]
          congr 1
          exact sum_congr rfl fun i _ => by field_simp
        · refine sum_congr rfl fun j _ => ?_
          congr 1
          rw [sub_right_comm, mul_sum, mul_sum]
          congr 1
          exact sum_congr rfl fun i _ => by field_simp
      · field_simp
        ring
    · unfold paramDist
      simp only [total2, sum_range_one]
  · intro i j
    simp only [affine, List.getD_cons_zero, List.getD_cons_succ]
    rw [add_sub_add_comm, ← sum_sub_distrib]
    congr 1
    exact sum_congr rfl fun k _ => by ring
  · unfold rowMass at hκ
    rw [total2] at hκ
    rw [div_mul_eq_mul_div, div_le_iff₀ hpos]
    linarith

theorem mse_nonneg (ds : List Nat) (p t : List Nat → ℝ) : 0 ≤ mse ds p t := by
  unfold mse total
  apply div_nonneg _ (by positivity)
  apply List.sum_nonneg
  intro x hx
  obtain ⟨i, _, rfl⟩ := List.mem_map.1 hx
  positivity

theorem linear_steps {ρ : Type} {n m : Nat} {lr κ : ℝ} (hlr : 0 ≤ lr) (hw : Dims [n, m]) (E : Engine ρ ℝ) (ws bs : List Nat → ℝ)
    (ps : List (Tensor ℝ × Tensor ℝ)) (hp : ∀ p ∈ ps, LinearSample n m lr κ ws bs p) :
    ∀ (net : Net ρ ℝ) (w bias : List Nat → ℝ), LinearModel n m lr net w bias →
    ∃ net' w' bias' vs, Steps E ps net net' vs ∧ LinearModel n m lr net' w' bias' ∧ 0 ≤ vs.sum ∧
      paramDist n m w' bias' ws bs + 4 * lr * (1 - κ) * vs.sum ≤ paramDist n m w bias ws bs := by
  induction ps with
  | nil => exact fun net w bias h => ⟨net, w, bias, [], .nil net, h, by simp, by simp⟩
  | cons p ps ih =>
    intro net w bias h
    obtain ⟨b, x, d1, d2, rfl, hκ⟩ := hp p (by simp)
    obtain ⟨net1, s1, s2⟩ := linear_step E h d1 hw d2 x (affine n ws bs x)
    obtain ⟨net2, w2, b2, vs, t1, t2, t3, t4⟩ := ih (fun q hq => hp q (by simp [hq])) net1 _ _ s2
    refine ⟨net2, w2, b2, _, .cons s1 t1, t2, ?_, ?_⟩
    · rw [List.sum_cons]
      exact add_nonneg (mse_nonneg _ _ _) t3
    · have := linear_decrease hlr d2 w bias ws bs x hκ
      rw [List.sum_cons, mul_add]
      linarith

/-- **C76.** A linear model (one dense layer, mean squared error, plain SGD) trained on batches whose targets are an
exact affine function of their inputs, with a learning rate below `b m / Σ (1 + |row|²)` for every batch.  There is a sequence of losses
that tends to zero such that every call of `train` succeeds and prints its beginning, one per epoch; and the squared
distance of the parameters to those of the affine function drops by at least `4 lr (1 - κ)` times the sum of the losses of all
steps.  In particular it never grows. -/
theorem C76_converges {ρ : Type} {n m : Nat} {lr κ : ℝ} (E : Engine ρ ℝ) (net : Net ρ ℝ) (w bias ws bs : List Nat → ℝ)
    (h : LinearModel n m lr net w bias) (hw : Dims [n, m]) (hlr : 0 < lr) (hκ : κ < 1)
    (inputs targets : List (Tensor ℝ)) (hne : inputs ≠ []) (hlen : inputs.length ≤ targets.length)
    (hp : ∀ p ∈ inputs.zip targets, LinearSample n m lr κ ws bs p) :
    ∃ v : Nat → ℝ, Filter.Tendsto v Filter.atTop (nhds 0) ∧ (∀ k, 0 ≤ v k) ∧
      ∀ N : Nat, ∃ net' w' bias',
        trainCall E inputs targets N net = (.ok (), net', (List.range N).map fun k => ofFn [1] fun _ => v k) ∧
        LinearModel n m lr net' w' bias' ∧
        paramDist n m w' bias' ws bs + 4 * lr * (1 - κ) * (inputs.length * ∑ k ∈ range N, v k) ≤ paramDist n m w bias ws bs := by
  have hn : (0 : ℝ) < inputs.length := by exact_mod_cast List.length_pos_of_ne_nil hne
  have hzip : ((inputs.zip targets).length : ℝ) = inputs.length := by
    rw [List.length_zip, Nat.min_eq_left hlen]
  let S := { q : Net ρ ℝ × (List Nat → ℝ) × (List Nat → ℝ) // LinearModel n m lr q.1 q.2.1 q.2.2 }
  have hstep : ∀ s : S, ∃ (s' : S) (v : ℝ), 0 ≤ v ∧ (∀ (k : Nat) (net2 : Net ρ ℝ) (rs : List (Tensor ℝ)),
      Epochs E (inputs.zip targets) k s'.1.1 net2 rs → Epochs E (inputs.zip targets) (k + 1) s.1.1 net2 ((ofFn [1] fun _ => v) :: rs)) ∧
      paramDist n m s'.1.2.1 s'.1.2.2 ws bs + 4 * lr * (1 - κ) * (inputs.length * v) ≤ paramDist n m s.1.2.1 s.1.2.2 ws bs := by
    rintro ⟨⟨net, w, bias⟩, hs⟩
    obtain ⟨net', w', b', vs, s1, s2, s3, s4⟩ := linear_steps hlr.le hw E ws bs (inputs.zip targets) hp net w bias hs
    refine ⟨⟨⟨net', w', b'⟩, s2⟩, vs.sum / inputs.length, div_nonneg s3 hn.le, ?_, ?_⟩
    · intro k net2 rs he
      have := Epochs.succ s1 he
      rw [hzip] at this
      rwa [show vs.foldl (· + ·) 0 = vs.sum from lsum_eq_sum vs] at this
    · rw [mul_div_cancel₀ _ hn.ne']
      exact s4
  choose next val h0 h1 h2 using hstep
  let s0 : S := ⟨⟨net, w, bias⟩, h⟩
  have hep : ∀ (N : Nat) (s : S), Epochs E (inputs.zip targets) N s.1.1 (next^[N] s).1.1
      ((List.range N).map fun k => ofFn [1] fun _ => val (next^[k] s)) := by
    intro N
    induction N with
    | zero => exact fun s => .zero _
    | succ N ih =>
      intro s
      have := h1 s N _ _ (ih (next s))
      rw [List.range_succ_eq_map, List.map_cons, List.map_map]
      exact this
  have hdist : ∀ N : Nat, paramDist n m (next^[N] s0).1.2.1 (next^[N] s0).1.2.2 ws bs +
      4 * lr * (1 - κ) * (inputs.length * ∑ k ∈ range N, val (next^[k] s0)) ≤ paramDist n m w bias ws bs := by
    intro N
    induction N with
    | zero => simp [s0]
    | succ N ih =>
      rw [sum_range_succ, Function.iterate_succ_apply']
      have := h2 (next^[N] s0)
      linarith
  have hc : 0 < 4 * lr * (1 - κ) * inputs.length := by
    have : 0 < 1 - κ := by linarith
    positivity
  refine ⟨fun k => val (next^[k] s0), ?_, fun k => h0 _, ?_⟩
  · refine (summable_of_sum_range_le (c := paramDist n m w bias ws bs / (4 * lr * (1 - κ) * inputs.length)) (fun k => h0 _) ?_).tendsto_atTop_zero
    intro N
    rw [le_div_iff₀ hc]
    have hd0 : 0 ≤ paramDist n m (next^[N] s0).1.2.1 (next^[N] s0).1.2.2 ws bs := by
      unfold paramDist
      simp only [total2]
      positivity
    linarith [hdist N]
  · intro N
    refine ⟨(next^[N] s0).1.1, _, _, (C55_train E inputs targets N net _ _ hlen hn.ne').2 ?_, (next^[N] s0).2, hdist N⟩
    rw [Int.toNat_natCast]
    exact hep N s0

/-! ### The exact rate for one row -/

theorem one_row_residual {n m : Nat} (lr : ℝ) (w bias x t : List Nat → ℝ) (j : Nat) :
    affine n (stepWeights 1 m lr x (affine n w bias x) t w) (stepBiases 1 m lr (affine n w bias x) t bias) x [0, j] - t [0, j] =
      (1 - 2 * lr * rowMass 1 n x / m) * (affine n w bias x [0, j] - t [0, j]) := by
  have hN : (([1, m].prod : ℕ) : ℝ) = m := by simp
  unfold rowMass
  rw [total2]
  have e : ∀ w' b' : List Nat → ℝ, affine n w' b' x [0, j] = (∑ k ∈ range n, x [0, k] * w' [k, j]) + b' [0, j] := fun _ _ => rfl
  rw [e (stepWeights _ _ _ _ _ _ _)]
  simp only [stepWeights, stepBiases, hN, sum_range_one, List.getD_cons_zero, List.getD_cons_succ]
  have e2 : ∀ g : ℝ, ∑ k ∈ range n, x [0, k] * (w [k, j] - lr * (x [0, k] * g)) =
      (∑ k ∈ range n, x [0, k] * w [k, j]) - lr * g * ∑ k ∈ range n, x [0, k] ^ 2 := by
    intro g
    rw [mul_sum, ← sum_sub_distrib]
    exact sum_congr rfl fun k _ => by ring
  rw [e2, e w bias]
  push_cast
  ring

theorem one_row_mse {n m : Nat} (lr : ℝ) (w bias x t : List Nat → ℝ) :
    mse [1, m] (affine n (stepWeights 1 m lr x (affine n w bias x) t w) (stepBiases 1 m lr (affine n w bias x) t bias) x) t =
      (1 - 2 * lr * rowMass 1 n x / m) ^ 2 * mse [1, m] (affine n w bias x) t := by
  unfold mse
  simp only [total2, sum_range_one, one_row_residual, mul_pow, ← mul_sum]
  ring

/-- The exact rate for one sample of one row, with any target and any learning rate: in epoch `k` the
loss is the first loss times `q ^ (2 k)` with `q = 1 - 2 lr (1 + |x|²) / m`. -/
theorem C76_one_row {ρ : Type} {n m : Nat} {lr : ℝ} (E : Engine ρ ℝ) (net : Net ρ ℝ) (w bias x t : List Nat → ℝ)
    (h : LinearModel n m lr net w bias) (hw : Dims [n, m]) (hx : Dims [1, n]) (hy : Dims [1, m]) (N : Nat) :
    ∃ net', trainCall E [ofFn [1, n] x] [ofFn [1, m] t] N net = (.ok (), net', (List.range N).map fun k => ofFn [1] fun _ =>
      (1 - 2 * lr * rowMass 1 n x / m) ^ (2 * k) * mse [1, m] (affine n w bias x) t) := by
  have hep : ∀ (N : Nat) (net : Net ρ ℝ) (w bias : List Nat → ℝ), LinearModel n m lr net w bias →
      ∃ net', Epochs E [(ofFn [1, n] x, ofFn [1, m] t)] N net net' ((List.range N).map fun k => ofFn [1] fun _ =>
        (1 - 2 * lr * rowMass 1 n x / m) ^ (2 * k) * mse [1, m] (affine n w bias x) t) := by
    intro N
    induction N with
    | zero => exact fun net w bias h => ⟨net, .zero _⟩
    | succ N ih =>
      intro net w bias h
      obtain ⟨net1, s1, s2⟩ := linear_step E h hx hw hy x t
      obtain ⟨net', he⟩ := ih net1 _ _ s2
      refine ⟨net', ?_⟩
      have := Epochs.succ (.cons s1 (.nil _)) he
      rw [List.range_succ_eq_map, List.map_cons, List.map_map]
      simp only [List.foldl_cons, List.foldl_nil, zero_add, List.length_singleton, Nat.cast_one, div_one, one_row_mse] at this
      simp only [mul_zero, pow_zero, one_mul]
      convert this using 2
      refine List.map_congr_left fun k _ => ?_
      refine ofFn_congr fun _ _ => ?_
      simp only [Nat.succ_eq_add_one]
      ring
  obtain ⟨net', he⟩ := hep N net w bias h
  refine ⟨net', (C55_train E _ _ N net _ _ (by simp) (by simp)).2 ?_⟩
  rw [Int.toNat_natCast]
  exact he

/-- The bound on the learning rate is sharp: with one row and a learning rate above `m / (1 + |x|²)`, the losses tend to
infinity unless the first one is zero. -/
theorem C76_divergence {ρ : Type} {n m : Nat} {lr : ℝ} (E : Engine ρ ℝ) (net : Net ρ ℝ) (w bias x t : List Nat → ℝ)
    (h : LinearModel n m lr net w bias) (hw : Dims [n, m]) (hx : Dims [1, n]) (hy : Dims [1, m])
    (hlr : (m : ℝ) < lr * rowMass 1 n x) (hne : affine n w bias x [0, 0] ≠ t [0, 0]) :
    ∃ v : Nat → ℝ, Filter.Tendsto v Filter.atTop Filter.atTop ∧ ∀ N : Nat, ∃ net',
      trainCall E [ofFn [1, n] x] [ofFn [1, m] t] N net = (.ok (), net', (List.range N).map fun k => ofFn [1] fun _ => v k) := by
  refine ⟨_, ?_, fun N => C76_one_row E net w bias x t h hw hx hy N⟩
  have hm0 : 0 < m := by
    have := hy.prod_pos
    simpa using this
  have hm : (0 : ℝ) < m := by exact_mod_cast hm0
  have hv : 0 < mse [1, m] (affine n w bias x) t := by
    unfold mse
    rw [total2, sum_range_one]
    refine div_pos (lt_of_lt_of_le ?_ (single_le_sum (f := fun j => (affine n w bias x [0, j] - t [0, j]) ^ 2) (fun j _ => sq_nonneg _)
      (mem_range.2 hm0))) (by simpa using hm)
    have : affine n w bias x [0, 0] - t [0, 0] ≠ 0 := sub_ne_zero.2 hne
    positivity
  have hq : 1 < (1 - 2 * lr * rowMass 1 n x / m) ^ 2 := by
    have : 1 < lr * rowMass 1 n x / m := by rwa [lt_div_iff₀ hm, one_mul]
    have e : 2 * lr * rowMass 1 n x / m = 2 * (lr * rowMass 1 n x / m) := by ring
    rw [e]
    nlinarith
  simp only [pow_mul]
  exact (tendsto_pow_atTop_atTop_of_one_lt hq).atTop_mul_const hv

/-! ### Non-vacuity -/

/-- A linear model 2→1, learning rate 1/10, trained on one batch of two rows (1,0), (0,1) with targets 3 and 4: the
hypotheses of `C76_converges` hold with `κ = 1/5`. -/
example (w bias : List Nat → ℝ) :
    let net : Net Unit ℝ := Net.compile .mse (.newSGD ⟨1/10, 0, 0, 0, false⟩)
      ⟨[⟨.fc { weights := ofFn [2, 1] w, biases := ofFn [1, 1] bias }, true⟩], none, none, ()⟩
    let x : List Nat → ℝ := fun i => if i.getD 0 0 = i.getD 1 0 then 1 else 0
    let ws : List Nat → ℝ := fun i => 2 + i.getD 0 0
    LinearModel 2 1 (1/10) net w bias ∧ Dims [2, 1] ∧ LinearSample 2 1 (1/10) (1/5) ws (fun _ => 1)
      (ofFn [2, 2] x, ofFn [2, 1] (affine 2 ws (fun _ => 1) x)) := by
  intro net x ws
  have d : ∀ {ds : List Nat}, ds ≠ [] → (∀ a ∈ ds, 0 < a) → ds.prod < 2 ^ 31 → Dims ds := fun a b c => ⟨a, b, c⟩
  refine ⟨⟨_, _, _, rfl, rfl, rfl, rfl, rfl, _, rfl, rfl, rfl, rfl⟩, d (by simp) (by simp) (by simp), 2, x,
    d (by simp) (by simp) (by simp), d (by simp) (by simp) (by simp), rfl, ?_⟩
  unfold rowMass
  rw [total2]
  simp only [sum_range_succ, sum_range_zero, x, List.getD_cons_zero, List.getD_cons_succ]
  norm_num

/-- And those of `C76_divergence`: learning rate 1 on the row (1, 1). -/
example : ((1 : Nat) : ℝ) < 1 * rowMass 1 2 (fun _ => 1) := by
  unfold rowMass
  rw [total2]
  norm_num [sum_range_succ]

end SmartDNN
