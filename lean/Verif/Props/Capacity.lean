import Verif.Proofs.Capacity

/-!
# C111: what models can fit
-/

namespace SmartDNN
open Net Spec

variable {ρ : Type} (E : Engine ρ ℝ)

/-- One hidden layer with ReLU can fit every consistent set of data: if there are at least as many hidden units as samples, some weights and biases
make the model predict the targets exactly. -/
theorem C111_fits {b n h m : Nat} (hh : Dims [b, h]) (hm : Dims [b, m]) (hb : b ≤ h) (x y : List Nat → ℝ) (hc : Consistent b n m x y) :
    ∃ w1 b1 w2 b2, ∀ net : Net ρ ℝ, net.layers = oneHidden n h m w1 b1 w2 b2 → (predict E (ofFn [b, n] x) net).1 = .ok (ofFn [b, m] y) := by
  classical
  obtain ⟨a, ha⟩ := separating_direction b n x
  let t : Nat → ℝ := fun i => ∑ j ∈ Finset.range n, x [i, j] * a j
  let S := (Finset.range b).image t
  have hS : S.card ≤ h := le_trans Finset.card_image_le (by simpa using hb)
  let F : ℝ → Nat → ℝ := fun s o => if hs : ∃ i < b, t i = s then y [hs.choose, o] else 0
  obtain ⟨c, v, hv⟩ := relu_interpolation_wide S F hS
  refine ⟨fun idx => a (idx.getD 0 0), fun idx => -c (idx.getD 1 0), fun idx => v (idx.getD 0 0) (idx.getD 1 0), fun _ => 0, fun net hn => ?_⟩
  have := congrArg Prod.fst (answer_oneHidden E (n := n) hh hm (fun idx => a (idx.getD 0 0)) (fun idx => -c (idx.getD 1 0))
    (fun idx => v (idx.getD 0 0) (idx.getD 1 0)) (fun _ => 0) x net.rng)
  rw [show (predict E (ofFn [b, n] x) net).1 = (answer E net.layers (ofFn [b, n] x) net.rng).1 from rfl, hn, this]
  refine congrArg Except.ok ?_
  refine ofFn_congr fun idx hi => ?_
  obtain ⟨i, o, rfl, hi, ho⟩ := valid2_iff.1 hi
  unfold denseRow
  simp only [dot_eq_sum, List.getD_cons_zero, List.getD_cons_succ, add_zero]
  have h1 := hv (t i) (Finset.mem_image.2 ⟨i, Finset.mem_range.2 hi, rfl⟩) o
  simp only [sub_eq_add_neg] at h1
  rw [h1]
  have hs : ∃ k < b, t k = t i := ⟨i, hi, rfl⟩
  show (if hs : ∃ k < b, t k = t i then y [hs.choose, o] else 0) = _
  rw [dif_pos hs]
  exact hc _ hs.choose_spec.1 _ hi (ha _ hs.choose_spec.1 _ hi hs.choose_spec.2) o ho

/-- Data that are not consistent cannot be fitted by it, whatever its size and its parameters. -/
theorem C111_inconsistent {b n h m : Nat} (hh : Dims [b, h]) (hm : Dims [b, m]) (x y w1 b1 w2 b2 : List Nat → ℝ) (net : Net ρ ℝ)
    (hn : net.layers = oneHidden n h m w1 b1 w2 b2) (hp : (predict E (ofFn [b, n] x) net).1 = .ok (ofFn [b, m] y)) : Consistent b n m x y := by
  have := congrArg Prod.fst (answer_oneHidden E (n := n) hh hm w1 b1 w2 b2 x net.rng)
  rw [show (predict E (ofFn [b, n] x) net).1 = (answer E net.layers (ofFn [b, n] x) net.rng).1 from rfl, hn, this] at hp
  intro i hi k hk hx o ho
  have e := Except.ok.inj hp
  rw [← ofFn_inj e (valid2_iff.2 ⟨i, o, rfl, hi, ho⟩), ← ofFn_inj e (valid2_iff.2 ⟨k, o, rfl, hk, ho⟩)]
  unfold denseRow
  simp only [dot_eq_sum, List.getD_cons_zero, List.getD_cons_succ]
  have : ∀ u, ∑ p ∈ Finset.range n, x [i, p] * w1 [p, u] = ∑ p ∈ Finset.range n, x [k, p] * w1 [p, u] := fun u =>
    Finset.sum_congr rfl fun p hp => by rw [hx p (Finset.mem_range.1 hp)]
  simp only [this]

/-- Without activations depth adds nothing: a model of dense layers only, however many, sends inputs with `x_i + x_j = x_k + x_l` to predictions
with `y_i + y_j = y_k + y_l`. -/
theorem C111_dense_only {b n m : Nat} {net : Net ρ ℝ} (h : OnlyDense b net.layers n m) (x : List Nat → ℝ) :
    ∃ y, (predict E (ofFn [b, n] x) net).1 = .ok (ofFn [b, m] y) ∧ ∀ i j k l,
      (∀ a < n, x [i, a] + x [j, a] = x [k, a] + x [l, a]) → ∀ a < m, y [i, a] + y [j, a] = y [k, a] + y [l, a] := by
  obtain ⟨y, h1, h2⟩ := onlyDense_parallelogram E h x net.rng
  exact ⟨y, congrArg Prod.fst h1, h2⟩

/-- So no such model, however it is trained, has a mean squared error below 1/4 on exclusive or … -/
theorem C111_xor_dense {net : Net ρ ℝ} (h : OnlyDense 4 net.layers 2 1) :
    ∃ y loss, (predict E (ofFn [4, 2] xorInputs) net).1 = .ok y ∧ Loss.mse.compute y (ofFn [4, 1] xorTargets) = .ok (ofFn [1] fun _ => loss) ∧ 1 / 4 ≤ loss := by
  obtain ⟨y, h1, h2⟩ := C111_dense_only E h xorInputs
  have hy := h2 0 3 1 2 (fun a ha => by
    obtain rfl | rfl : a = 0 ∨ a = 1 := by omega
    all_goals norm_num [xorInputs]) 0 (by omega)
  refine ⟨_, _, h1, C29_compute ⟨by simp, by simp, by decide⟩ _ _, ?_⟩
  have e : total [4, 1] (fun i => (y i - xorTargets i) ^ 2) = y [0, 0] ^ 2 + (y [1, 0] - 1) ^ 2 + (y [2, 0] - 1) ^ 2 + y [3, 0] ^ 2 := by
    rw [total, show indices [4, 1] = [[0, 0], [1, 0], [2, 0], [3, 0]] from rfl]
    simp only [List.map_cons, List.map_nil, List.sum_cons, List.sum_nil, xorTargets]
    ring
  unfold mse
  rw [e]
  norm_num
  nlinarith [sq_nonneg (y [0, 0] + y [1, 0] - 1), sq_nonneg (y [0, 0] + y [2, 0] - 1), sq_nonneg (y [3, 0] + y [1, 0] - 1), sq_nonneg (y [3, 0] + y [2, 0] - 1),
    sq_nonneg (y [0, 0] - y [3, 0]), sq_nonneg (y [1, 0] - y [2, 0])]

/-- … while one hidden layer with ReLU can get it right. -/
theorem C111_xor : ∃ w1 b1 w2 b2, ∀ net : Net ρ ℝ, net.layers = oneHidden 2 4 1 w1 b1 w2 b2 →
    (predict E (ofFn [4, 2] xorInputs) net).1 = .ok (ofFn [4, 1] xorTargets) := by
  refine C111_fits E ⟨by simp, by simp, by decide⟩ ⟨by simp, by simp, by decide⟩ le_rfl _ _ ?_
  intro i hi k hk hx o ho
  have h0 := hx 0 (by omega)
  have h1 := hx 1 (by omega)
  interval_cases i <;> interval_cases k <;> interval_cases o <;> simp_all [xorInputs, xorTargets]

/-- A model of three dense layers. -/
example (w1 b1 w2 b2 w3 b3 : List Nat → ℝ) : OnlyDense 4 [denseLayer (ofFn [2, 16] w1) (ofFn [1, 16] b1), denseLayer (ofFn [16, 16] w2) (ofFn [1, 16] b2),
    denseLayer (ofFn [16, 1] w3) (ofFn [1, 1] b3)] 2 1 :=
  .cons ⟨by simp, by simp, by decide⟩ rfl rfl (.cons ⟨by simp, by simp, by decide⟩ rfl rfl (.cons ⟨by simp, by simp, by decide⟩ rfl rfl (.nil 1)))

/-- Consistent data: three samples with two features and two targets. -/
example : Consistent 3 2 2 (fun i => i.getD 0 0) (fun i => (i.getD 0 0 : ℝ) ^ 2 + i.getD 1 0) := by
  intro i _ k _ h o _
  have := h 0 (by omega)
  simp only [List.getD_cons_zero] at this ⊢
  simp [this]

end SmartDNN
