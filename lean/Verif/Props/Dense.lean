import Verif.Proofs.Dense
import Verif.Proofs.LinearCalculus
import Verif.Proofs.Random

/-!
# Fully connected layer (C37, C38)
-/

namespace SmartDNN
open Spec

/-! ### C37 -/

section
variable {T : Type} [NonUnitalNonAssocSemiring T]

/-- A batch: `forward(x)` is `x W + b`; the layer only remembers the input. -/
theorem C37_batch {b n m : Nat} (h : Dims [b, m]) (w bias x : List Nat → T) (l : FC T)
    (hw : l.weights = ofFn [n, m] w) (hb : l.biases = ofFn [1, m] bias) :
    FC.forward (ofFn [b, n] x) l =
      (.ok (ofFn [b, m] (affine n w bias x)), { l with input := some (ofFn [b, n] x) }) := by
  refine Prod.ext ?_ rfl
  show FC.affine l.weights l.biases _ = _
  rw [hw, hb, fc_affine_batch h]
  unfold denseRow affine
  simp only [dot_eq_sum]

/-- A single sample: a 1-D input gives a 1-D output. -/
theorem C37_sample {n m : Nat} (hn : Dims [n]) (h : Dims [m]) (w bias x : List Nat → T) (l : FC T)
    (hw : l.weights = ofFn [n, m] w) (hb : l.biases = ofFn [1, m] bias) :
    FC.forward (ofFn [n] x) l =
      (.ok (ofFn [m] (affine1 n w bias x)), { l with input := some (ofFn [n] x) }) := by
  refine Prod.ext ?_ rfl
  show FC.affine l.weights l.biases _ = _
  rw [hw, hb, fc_affine_sample hn h]
  unfold affine1
  simp only [dot_eq_sum]

/-- A wrong feature count is rejected with an exception. -/
theorem C37_rejects_batch {b n k m : Nat} (hk : k ≠ n) (w x : List Nat → T) (l : FC T)
    (hw : l.weights = ofFn [n, m] w) : (FC.forward (ofFn [b, k] x) l).1 = .error .invalidArgument := by
  show FC.affine l.weights l.biases _ = _
  unfold FC.affine
  rw [hw, ensure2D_mat]
  simp only [Except.bind_ok']
  rw [C15_rejects b k n m hk]
  rfl

theorem C37_rejects_sample {n k m : Nat} (hd : Dims [k]) (hk : k ≠ n) (w x : List Nat → T) (l : FC T)
    (hw : l.weights = ofFn [n, m] w) : (FC.forward (ofFn [k] x) l).1 = .error .invalidArgument := by
  show FC.affine l.weights l.biases _ = _
  unfold FC.affine
  rw [hw, ensure2D_row hd]
  simp only [Except.bind_ok']
  rw [C15_rejects 1 k n m hk]
  rfl

end

/-- Whatever the input and the outcome, `forward` changes nothing but the remembered input. -/
theorem C37_params {T : Type} [Zero T] [Add T] [Mul T] (x : Tensor T) (l : FC T) :
    (FC.forward x l).2 = { l with input := some x } := rfl

/-- A layer as constructed has the shapes assumed above, so the theorems apply to it. -/
theorem C37_constructed {ρ T : Type} [LT T] [DecidableLT T] [Zero T] [One T] (E : Engine ρ T) {n m : Nat}
    (h : Dims [n, m]) (r : ρ) :
    ∃ w l r', FC.new E n m r = .ok (l, r') ∧ l.weights = ofFn [n, m] w ∧ l.biases = ofFn [1, m] (fun _ => 0) ∧
      l.input = none ∧ l.weightGradients = none ∧ l.biasGradients = none := by
  unfold FC.new
  rw [show [(n : Int), (m : Int)] = ints [n, m] from rfl, make_dims h,
    show [(1 : Int), (m : Int)] = ints [1, m] from rfl, make_dims (dims_cons_one (dims_tail h))]
  simp only [Except.bind_ok', Tensor.rand, createRandom_ofFn]
  exact ⟨_, _, _, rfl, rfl, zeros_shapeOf _, rfl, rfl, rfl⟩

example : ∃ y, (FC.forward (ofFn [2, 3] (fun i => (i.sum : Int)))
    { weights := ofFn [3, 2] (fun i => (i.getD 0 0 : Int) - i.getD 1 0), biases := ofFn [1, 2] (fun _ => 5) }).1 =
      .ok (ofFn [2, 2] y) := by
  exact ⟨_, by rw [C37_batch (n := 3) (by constructor <;> simp) _ _ _ _ rfl rfl]⟩

/-! ### C38 -/

/-- After `forward` of a batch `x`, `backward(g)` returns the adjoint in the input and stores the
adjoints in the weights and the biases: along every curve of inputs (weights, biases) the derivative of
`<g, output>` is the inner product of the velocity with the returned (stored) tensor. -/
theorem C38_batch {b n m : Nat} (hx : Dims [b, n]) (hw : Dims [n, m]) (hg : Dims [b, m])
    (w bias x g : List Nat → ℝ) (l : FC ℝ)
    (hlw : l.weights = ofFn [n, m] w) (hlb : l.biases = ofFn [1, m] bias) :
    ∃ (A : (List Nat → ℝ) → List Nat → ℝ) (gw gb : List Nat → ℝ),
      HasVJP [b, n] [b, m] (affine n w bias) x A ∧
      HasGradient [n, m] (fun w => total [b, m] (fun j => g j * affine n w bias x j)) w gw ∧
      HasGradient [1, m] (fun bias => total [b, m] (fun j => g j * affine n w bias x j)) bias gb ∧
      FC.backward (ofFn [b, m] g) (FC.forward (ofFn [b, n] x) l).2 =
        (.ok (ofFn [b, n] (A g)),
         { l with input := some (ofFn [b, n] x)
                  weightGradients := some (ofFn [n, m] gw)
                  biasGradients := some (ofFn [1, m] gb) }) := by
  refine ⟨_, _, _, hasVJP_affine_input b n m w bias x, hasGradient_affine_weights b n m w bias x g,
    hasGradient_affine_bias b n m w bias x g, ?_⟩
  rw [C37_params, fc_backward (l := { l with input := some (ofFn [b, n] x) }) hx hw hg (w := w) (bias := bias) (x := x) (g := g) hlw hlb rfl
    (ensure2D_mat _ _ _) (ensure2D_mat _ _ _)]
  simp only [dot_eq_sum, lsum_eq_sum]
  congr 3

/-- A single sample: the same with the sample as the only row.  Missing for the full property: the
returned gradient has dimensions `(1, n)`, not `(n)`, see `C38_sample_shape_refuted`. -/
theorem C38_sample_partial {n m : Nat} (hn : Dims [n]) (hw : Dims [n, m]) (hm : Dims [m])
    (w bias x g : List Nat → ℝ) (l : FC ℝ)
    (hlw : l.weights = ofFn [n, m] w) (hlb : l.biases = ofFn [1, m] bias) :
    ∃ (A : (List Nat → ℝ) → List Nat → ℝ) (gw gb : List Nat → ℝ),
      HasVJP [n] [m] (affine1 n w bias) x A ∧
      HasGradient [n, m] (fun w => total [m] (fun j => g j * affine1 n w bias x j)) w gw ∧
      HasGradient [1, m] (fun bias => total [m] (fun j => g j * affine1 n w bias x j)) bias gb ∧
      FC.backward (ofFn [m] g) (FC.forward (ofFn [n] x) l).2 =
        (.ok (ofFn [1, n] (fun idx => A g [idx.getD 1 0])),
         { l with input := some (ofFn [n] x)
                  weightGradients := some (ofFn [n, m] gw)
                  biasGradients := some (ofFn [1, m] gb) }) := by
  have ht : ∀ w bias x : List Nat → ℝ, ∀ g : List Nat → ℝ, total [m] (fun j => g j * affine1 n w bias x j) =
      total [1, m] (fun j => g [j.getD 1 0] * affine n w bias (fun i => x [i.getD 1 0]) j) := by
    intro w bias x g
    rw [total1, total2, Finset.sum_range_one]
    rfl
  have hA : HasVJP [n] [m] (affine1 n w bias) x (fun g idx => ∑ j ∈ Finset.range m, g [j] * w [idx.getD 0 0, j]) := by
    intro g c v hc
    have h := hasVJP_affine_input 1 n m w bias (fun i => x [i.getD 1 0]) (fun j => g [j.getD 1 0])
      (fun t i => c t [i.getD 1 0]) (fun i => v [i.getD 1 0])
      ⟨fun i hi => by
        obtain ⟨i, j, rfl, hi, hj⟩ := valid2_iff.1 hi
        exact hc.1 _ (valid1_iff.2 ⟨j, rfl, hj⟩),
       fun i hi => by
        obtain ⟨i, j, rfl, hi, hj⟩ := valid2_iff.1 hi
        exact hc.2 _ (valid1_iff.2 ⟨j, rfl, hj⟩)⟩
    simp only [← ht w bias _ g] at h
    rw [total2, Finset.sum_range_one] at h
    rw [total1]
    exact h
  refine ⟨_, _, _, hA,
    (hasGradient_affine_weights 1 n m w bias (fun i => x [i.getD 1 0]) (fun j => g [j.getD 1 0])).congr
      (fun w => ht w bias x g) (fun _ _ => rfl),
    (hasGradient_affine_bias 1 n m w bias (fun i => x [i.getD 1 0]) (fun j => g [j.getD 1 0])).congr
      (fun bias => ht w bias x g) (fun _ _ => rfl), ?_⟩
  rw [C37_params, fc_backward (l := { l with input := some (ofFn [n] x) }) (b := 1) (dims_cons_one hn) hw (dims_cons_one hm) (w := w) (bias := bias)
    (x := fun i => x [i.getD 1 0]) (g := fun i => g [i.getD 1 0]) hlw hlb rfl (ensure2D_row hn x) (ensure2D_row hm g)]
  simp only [dot_eq_sum, lsum_eq_sum]
  congr 3

/-- "The returned gradient has the shape of the forward input" fails for every 1-D sample: the result has
two dimensions. -/
theorem C38_sample_shape_refuted {n m : Nat} (hn : Dims [n]) (hw : Dims [n, m]) (hm : Dims [m])
    (w bias x g : List Nat → ℝ) (l : FC ℝ)
    (hlw : l.weights = ofFn [n, m] w) (hlb : l.biases = ofFn [1, m] bias) :
    ∃ t, (FC.backward (ofFn [m] g) (FC.forward (ofFn [n] x) l).2).1 = .ok t ∧ t.shape ≠ (ofFn [n] x).shape := by
  obtain ⟨A, gw, gb, _, _, _, h⟩ := C38_sample_partial hn hw hm w bias x g l hlw hlb
  refine ⟨_, by rw [h], ?_⟩
  intro hs
  have := congrArg Shape.dims hs
  simp at this

/-- Batches of any other history: `backward` uses the input of the latest `forward`, whatever the layer
saw before. -/
theorem C38_latest {T : Type} [Zero T] [Add T] [Mul T] (xs : List (Tensor T)) (x : Tensor T) (l : FC T) :
    (xs.foldl (fun l x => (FC.forward x l).2) l |> FC.forward x).2 = { l with input := some x } := by
  induction xs generalizing l with
  | nil => rfl
  | cons y ys ih => rw [List.foldl_cons, ih]; rfl

example : ∃ (A : (List Nat → ℝ) → List Nat → ℝ) (l : FC ℝ),
    FC.backward (ofFn [2, 3] (fun i => (i.sum : ℝ))) (FC.forward (ofFn [2, 4] (fun _ => (1 : ℝ)))
      { weights := ofFn [4, 3] (fun i => (i.sum : ℝ)), biases := ofFn [1, 3] (fun _ => (0 : ℝ)) }).2 =
      (.ok (ofFn [2, 4] (A (fun i => (i.sum : ℝ)))), l) := by
  obtain ⟨A, _, _, _, _, _, h⟩ := C38_batch (b := 2) (n := 4) (m := 3) (by constructor <;> simp)
    (by constructor <;> simp) (by constructor <;> simp) (fun i => (i.sum : ℝ)) (fun _ => (0 : ℝ)) (fun _ => (1 : ℝ))
    (fun i => (i.sum : ℝ)) { weights := ofFn [4, 3] (fun i => (i.sum : ℝ)), biases := ofFn [1, 3] (fun _ => (0 : ℝ)) }
    rfl rfl
  exact ⟨A, _, h⟩

end SmartDNN
