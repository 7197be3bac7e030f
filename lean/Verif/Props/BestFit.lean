import Verif.Props.Convergence
import Mathlib.Topology.Order.MonotoneConvergence

/-!
# Training a linear model converges to the best affine fit (C89)

The targets are arbitrary here; `C76_converges` treats targets that an affine map fits exactly.
-/

namespace SmartDNN
open Net Spec Finset

/-! ### Specification -/

/-- The mean squared error of the affine map with weights `w` and biases `bias` on a batch. -/
noncomputable def Spec.fitError (b n m : Nat) (x t w bias : List Nat → ℝ) : ℝ := mse [b, m] (affine n w bias x) t

/-! ### Algebra -/

section
variable (b n m : ℕ) (X : ℕ → ℕ → ℝ)

/-- The derivative of the predictions in the direction `(u, v)`. -/
def lin (u : ℕ → ℕ → ℝ) (v : ℕ → ℝ) (i j : ℕ) : ℝ := (∑ k ∈ range n, X i k * u k j) + v j

theorem lin_adjoint (u : ℕ → ℕ → ℝ) (v : ℕ → ℝ) (r : ℕ → ℕ → ℝ) :
    ∑ i ∈ range b, ∑ j ∈ range m, lin n X u v i j * r i j =
      (∑ k ∈ range n, ∑ j ∈ range m, u k j * ∑ i ∈ range b, X i k * r i j) + ∑ j ∈ range m, v j * ∑ i ∈ range b, r i j := by
  rw [sum_comm, sum_comm (s := range n), ← sum_add_distrib]
  refine sum_congr rfl fun j _ => ?_
  simp only [mul_sum]
  rw [sum_comm, ← sum_add_distrib]
  refine sum_congr rfl fun i _ => ?_
  rw [lin, add_mul, sum_mul]
  congr 1
  exact sum_congr rfl fun k _ => by ring

theorem lin_bound (u : ℕ → ℕ → ℝ) (v : ℕ → ℝ) :
    ∑ i ∈ range b, ∑ j ∈ range m, lin n X u v i j ^ 2 ≤
      ((∑ i ∈ range b, ∑ k ∈ range n, X i k ^ 2) + b) * ((∑ k ∈ range n, ∑ j ∈ range m, u k j ^ 2) + ∑ j ∈ range m, v j ^ 2) := by
  have h1 : ∀ i j, lin n X u v i j ^ 2 ≤ ((∑ k ∈ range n, X i k ^ 2) + 1) * ((∑ k ∈ range n, u k j ^ 2) + v j ^ 2) := by
    intro i j
    have := sum_mul_sq_le_sq_mul_sq (range (n + 1)) (fun k => if k < n then X i k else 1) (fun k => if k < n then u k j else v j)
    simp only [sum_range_succ, lt_irrefl, if_false, one_pow, one_mul] at this
    have e1 : ∑ k ∈ range n, (if k < n then X i k else 1) * (if k < n then u k j else v j) = ∑ k ∈ range n, X i k * u k j :=
      sum_congr rfl fun k hk => by rw [if_pos (mem_range.1 hk), if_pos (mem_range.1 hk)]
    have e2 : ∑ k ∈ range n, (if k < n then X i k else 1) ^ 2 = ∑ k ∈ range n, X i k ^ 2 :=
      sum_congr rfl fun k hk => by rw [if_pos (mem_range.1 hk)]
    have e3 : ∑ k ∈ range n, (if k < n then u k j else v j) ^ 2 = ∑ k ∈ range n, u k j ^ 2 :=
      sum_congr rfl fun k hk => by rw [if_pos (mem_range.1 hk)]
    rw [e1, e2, e3] at this
    exact this
  refine (sum_le_sum fun i _ => sum_le_sum fun j _ => h1 i j).trans (le_of_eq ?_)
  simp only [← mul_sum, ← sum_mul]
  rw [sum_add_distrib, sum_add_distrib, sum_comm (s := range m)]
  simp

/-- The squared length of the gradient. -/
def gradNorm (r : ℕ → ℕ → ℝ) : ℝ :=
  (∑ k ∈ range n, ∑ j ∈ range m, (∑ i ∈ range b, X i k * r i j) ^ 2) + ∑ j ∈ range m, (∑ i ∈ range b, r i j) ^ 2

theorem step_distance (dw : ℕ → ℕ → ℝ) (db : ℕ → ℝ) (r : ℕ → ℕ → ℝ) (c : ℝ) :
    (∑ k ∈ range n, ∑ j ∈ range m, (dw k j - c * ∑ i ∈ range b, X i k * r i j) ^ 2) +
      ∑ j ∈ range m, (db j - c * ∑ i ∈ range b, r i j) ^ 2 =
    (∑ k ∈ range n, ∑ j ∈ range m, dw k j ^ 2) + (∑ j ∈ range m, db j ^ 2)
      - 2 * c * (∑ i ∈ range b, ∑ j ∈ range m, lin n X dw db i j * r i j) + c ^ 2 * gradNorm b n m X r := by
  rw [lin_adjoint, gradNorm]
  have e1 : ∀ (a b : ℝ), (a - c * b) ^ 2 = a ^ 2 - 2 * c * (a * b) + c ^ 2 * b ^ 2 := fun a b => by ring
  simp only [e1, sum_add_distrib, sum_sub_distrib, ← mul_sum]
  ring

/-- What one step does to the residuals. -/
theorem step_residual (r : ℕ → ℕ → ℝ) {c κ : ℝ} (hc : 0 ≤ c) (hκ : c * ((∑ i ∈ range b, ∑ k ∈ range n, X i k ^ 2) + b) ≤ 2 * κ) :
    (∑ i ∈ range b, ∑ j ∈ range m,
      (r i j - c * lin n X (fun k j => ∑ i ∈ range b, X i k * r i j) (fun j => ∑ i ∈ range b, r i j) i j) ^ 2) +
      2 * c * (1 - κ) * gradNorm b n m X r ≤ ∑ i ∈ range b, ∑ j ∈ range m, r i j ^ 2 := by
  have e1 : ∀ (a b : ℝ), (a - c * b) ^ 2 = a ^ 2 - 2 * c * (b * a) + c ^ 2 * b ^ 2 := fun a b => by ring
  simp only [e1, sum_add_distrib, sum_sub_distrib, ← mul_sum]
  have hb := lin_bound b n m X (fun k j => ∑ i ∈ range b, X i k * r i j) (fun j => ∑ i ∈ range b, r i j)
  have ha := lin_adjoint b n m X (fun k j => ∑ i ∈ range b, X i k * r i j) (fun j => ∑ i ∈ range b, r i j) r
  have hG : gradNorm b n m X r = (∑ k ∈ range n, ∑ j ∈ range m, (∑ i ∈ range b, X i k * r i j) ^ 2) + ∑ j ∈ range m, (∑ i ∈ range b, r i j) ^ 2 := rfl
  rw [← hG] at hb
  have hG' : (∑ k ∈ range n, ∑ j ∈ range m, (∑ i ∈ range b, X i k * r i j) * ∑ i ∈ range b, X i k * r i j) +
      ∑ j ∈ range m, (∑ i ∈ range b, r i j) * ∑ i ∈ range b, r i j = gradNorm b n m X r := by
    rw [hG]
    simp only [pow_two]
  rw [hG'] at ha
  rw [ha]
  have hG0 : 0 ≤ gradNorm b n m X r := by rw [hG]; positivity
  generalize gradNorm b n m X r = G at *
  generalize (∑ i ∈ range b, ∑ k ∈ range n, X i k ^ 2) + (b : ℝ) = S at *
  have q1 := mul_le_mul_of_nonneg_left hb (sq_nonneg c)
  have q2 : c * G * (c * S) ≤ c * G * (2 * κ) := mul_le_mul_of_nonneg_left hκ (mul_nonneg hc hG0)
  nlinarith

end

/-! ### One training step -/

theorem paramDist_nonneg (n m : Nat) (w bias w' bias' : List Nat → ℝ) : 0 ≤ paramDist n m w bias w' bias' := by
  unfold paramDist
  simp only [total2]
  positivity

/-- One step lowers the error, and moves the parameters towards every better fit. -/
theorem fit_step {b n m : Nat} {lr κ : ℝ} (hlr : 0 ≤ lr) (hκ1 : κ < 1) (hb : Dims [b, m]) (w bias x t : List Nat → ℝ)
    (hκ : lr * rowMass b n x ≤ κ * (b * m)) :
    let w' := stepWeights b m lr x (affine n w bias x) t w
    let bias' := stepBiases b m lr (affine n w bias x) t bias
    fitError b n m x t w' bias' ≤ fitError b n m x t w bias ∧
    ∀ ws bs, paramDist n m w' bias' ws bs + 2 * lr * (fitError b n m x t w bias - fitError b n m x t ws bs) ≤
      paramDist n m w bias ws bs + lr / (1 - κ) * (fitError b n m x t w bias - fitError b n m x t w' bias') := by
  intro w' bias'
  have hpos : (0 : ℝ) < b * m := by
    have := hb.prod_pos
    simp only [List.prod_cons, List.prod_nil, mul_one] at this
    exact_mod_cast this
  have hN : (([b, m].prod : ℕ) : ℝ) = b * m := by simp
  let X : ℕ → ℕ → ℝ := fun i k => x [i, k]
  let r : ℕ → ℕ → ℝ := fun i j => affine n w bias x [i, j] - t [i, j]
  let c : ℝ := 2 * lr / (b * m)
  have hc : 0 ≤ c := by positivity
  have hcS : c * ((∑ i ∈ range b, ∑ k ∈ range n, X i k ^ 2) + b) ≤ 2 * κ := by
    unfold rowMass at hκ
    rw [total2] at hκ
    show 2 * lr / (b * m) * _ ≤ _
    rw [div_mul_eq_mul_div, div_le_iff₀ hpos]
    linarith
  have ew : ∀ k j, w' [k, j] = w [k, j] - c * ∑ i ∈ range b, X i k * r i j := by
    intro k j
    simp only [w', stepWeights, hN, List.getD_cons_zero, List.getD_cons_succ, X, r, c]
    rw [mul_sum, mul_sum]
    congr 1
    exact sum_congr rfl fun i _ => by field_simp
  have eb : ∀ j, bias' [0, j] = bias [0, j] - c * ∑ i ∈ range b, r i j := by
    intro j
    simp only [bias', stepBiases, hN, List.getD_cons_zero, List.getD_cons_succ, r, c]
    rw [mul_sum, mul_sum]
    congr 1
    exact sum_congr rfl fun i _ => by field_simp
  have eaff : ∀ (w bias : List Nat → ℝ) i j, affine n w bias x [i, j] = lin n X (fun k j => w [k, j]) (fun j => bias [0, j]) i j := fun _ _ _ _ => rfl
  have er : ∀ i j, affine n w' bias' x [i, j] - t [i, j] =
      r i j - c * lin n X (fun k j => ∑ i ∈ range b, X i k * r i j) (fun j => ∑ i ∈ range b, r i j) i j := by
    intro i j
    rw [eaff w' bias']
    simp only [lin, ew, eb]
    show _ = (affine n w bias x [i, j] - t [i, j]) - _
    rw [eaff w bias, lin]
    have : ∑ k ∈ range n, X i k * (w [k, j] - c * ∑ i ∈ range b, X i k * r i j) =
        (∑ k ∈ range n, X i k * w [k, j]) - c * ∑ k ∈ range n, X i k * ∑ i ∈ range b, X i k * r i j := by
      rw [mul_sum, ← sum_sub_distrib]
      exact sum_congr rfl fun k _ => by ring
    rw [this]
    ring
  have hres := step_residual b n m X r hc hcS
  have hG0 : 0 ≤ gradNorm b n m X r := by unfold gradNorm; positivity
  have f0 : fitError b n m x t w bias * (b * m) = ∑ i ∈ range b, ∑ j ∈ range m, r i j ^ 2 := by
    unfold fitError mse
    rw [hN, div_mul_cancel₀ _ hpos.ne', total2]
  have f1 : fitError b n m x t w' bias' * (b * m) = ∑ i ∈ range b, ∑ j ∈ range m,
      (r i j - c * lin n X (fun k j => ∑ i ∈ range b, X i k * r i j) (fun j => ∑ i ∈ range b, r i j) i j) ^ 2 := by
    unfold fitError mse
    rw [hN, div_mul_cancel₀ _ hpos.ne', total2]
    simp only [er]
  rw [← f1, ← f0] at hres
  have hk : 0 < 1 - κ := by linarith
  constructor
  · have : 0 ≤ 2 * c * (1 - κ) * gradNorm b n m X r := by positivity
    exact le_of_mul_le_mul_right (by linarith) hpos
  · intro ws bs
    have f2 : fitError b n m x t ws bs * (b * m) = ∑ i ∈ range b, ∑ j ∈ range m, (affine n ws bs x [i, j] - t [i, j]) ^ 2 := by
      unfold fitError mse
      rw [hN, div_mul_cancel₀ _ hpos.ne', total2]
    have hd := step_distance b n m X (fun k j => w [k, j] - ws [k, j]) (fun j => bias [0, j] - bs [0, j]) r c
    have d1 : paramDist n m w' bias' ws bs = (∑ k ∈ range n, ∑ j ∈ range m, (w [k, j] - ws [k, j] - c * ∑ i ∈ range b, X i k * r i j) ^ 2) +
        ∑ j ∈ range m, (bias [0, j] - bs [0, j] - c * ∑ i ∈ range b, r i j) ^ 2 := by
      unfold paramDist
      simp only [total2, sum_range_one, ew, eb, sub_right_comm]
    have d0 : paramDist n m w bias ws bs = (∑ k ∈ range n, ∑ j ∈ range m, (w [k, j] - ws [k, j]) ^ 2) + ∑ j ∈ range m, (bias [0, j] - bs [0, j]) ^ 2 := by
      unfold paramDist
      simp only [total2, sum_range_one]
    rw [← d1, ← d0] at hd
    have hin : fitError b n m x t w bias * (b * m) - fitError b n m x t ws bs * (b * m) ≤
        2 * ∑ i ∈ range b, ∑ j ∈ range m, lin n X (fun k j => w [k, j] - ws [k, j]) (fun j => bias [0, j] - bs [0, j]) i j * r i j := by
      rw [f0, f2, ← sum_sub_distrib, mul_sum]
      refine sum_le_sum fun i _ => ?_
      rw [← sum_sub_distrib, mul_sum]
      refine sum_le_sum fun j _ => ?_
      have : lin n X (fun k j => w [k, j] - ws [k, j]) (fun j => bias [0, j] - bs [0, j]) i j = r i j - (affine n ws bs x [i, j] - t [i, j]) := by
        show _ = (affine n w bias x [i, j] - t [i, j]) - _
        rw [eaff w bias, eaff ws bs]
        simp only [lin]
        rw [sub_sub_sub_cancel_right, add_sub_add_comm, ← sum_sub_distrib]
        congr 1
        exact sum_congr rfl fun k _ => by ring
      rw [this]
      nlinarith [sq_nonneg (r i j - (affine n ws bs x [i, j] - t [i, j]))]
    generalize ∑ i ∈ range b, ∑ j ∈ range m, lin n X (fun k j => w [k, j] - ws [k, j]) (fun j => bias [0, j] - bs [0, j]) i j * r i j = I at *
    generalize gradNorm b n m X r = G at *
    generalize fitError b n m x t w bias = F at *
    generalize fitError b n m x t w' bias' = F' at *
    generalize fitError b n m x t ws bs = Fs at *
    have hcN : c * (b * m) = 2 * lr := by
      show 2 * lr / (b * m) * (b * m) = _
      rw [div_mul_cancel₀ _ hpos.ne']
    have q1 : c ^ 2 * G ≤ lr / (1 - κ) * (F - F') := by
      rw [div_mul_eq_mul_div, le_div_iff₀ hk]
      have := mul_le_mul_of_nonneg_left hres hc
      have e1 : c * (F' * (b * m) + 2 * c * (1 - κ) * G) = 2 * lr * F' + 2 * (c ^ 2 * G * (1 - κ)) := by rw [← hcN]; ring
      have e2 : c * (F * (b * m)) = 2 * lr * F := by rw [← hcN]; ring
      rw [e1, e2] at this
      linarith
    have q2 := mul_le_mul_of_nonneg_left hin hc
    have e3 : c * (F * (b * m) - Fs * (b * m)) = 2 * lr * (F - Fs) := by rw [← hcN]; ring
    rw [e3] at q2
    linarith

/-! ### The theorem -/

/-- **C89.** A linear model (one dense layer, mean squared error, plain SGD) trained on one batch with arbitrary targets, with a
learning rate below `b m / Σ (1 + |row|²)`.  There is a sequence of losses that never grows and tends to the smallest
error that affine maps reach on the batch, and every call of `train` succeeds and prints its beginning, one per epoch.  After `N`
epochs the loss exceeds the error of any other affine map by at most a constant, computed from the starting point, over `N`. -/
theorem C89_best_fit {ρ : Type} {b n m : Nat} {lr κ : ℝ} (E : Engine ρ ℝ) (net : Net ρ ℝ) (w bias : List Nat → ℝ)
    (h : LinearModel n m lr net w bias) (hx : Dims [b, n]) (hw : Dims [n, m]) (hg : Dims [b, m]) (hlr : 0 < lr) (hκ1 : κ < 1)
    (x t : List Nat → ℝ) (hκ : lr * rowMass b n x ≤ κ * (b * m)) :
    ∃ v : Nat → ℝ, Antitone v ∧
      Filter.Tendsto v Filter.atTop (nhds (⨅ p : (List Nat → ℝ) × (List Nat → ℝ), fitError b n m x t p.1 p.2)) ∧
      (∀ N : Nat, ∃ net', trainCall E [ofFn [b, n] x] [ofFn [b, m] t] N net =
        (.ok (), net', (List.range N).map fun k => ofFn [1] fun _ => v k)) ∧
      ∀ ws bs (N : Nat), N * (v N - fitError b n m x t ws bs) ≤
        paramDist n m w bias ws bs / (2 * lr) + fitError b n m x t w bias / (2 * (1 - κ)) := by
  have hk : 0 < 1 - κ := by linarith
  have hnn : ∀ w bias, 0 ≤ fitError b n m x t w bias := fun w bias => mse_nonneg _ _ _
  let P := (List Nat → ℝ) × (List Nat → ℝ)
  let next : P → P := fun q => (stepWeights b m lr x (affine n q.1 q.2 x) t q.1, stepBiases b m lr (affine n q.1 q.2 x) t q.2)
  let F : P → ℝ := fun q => fitError b n m x t q.1 q.2
  have hstep : ∀ q : P, F (next q) ≤ F q ∧ ∀ ws bs, paramDist n m (next q).1 (next q).2 ws bs + 2 * lr * (F q - fitError b n m x t ws bs) ≤
      paramDist n m q.1 q.2 ws bs + lr / (1 - κ) * (F q - F (next q)) := fun q => fit_step hlr.le hκ1 hg q.1 q.2 x t hκ
  have hep : ∀ (N : Nat) (q : P) (net : Net ρ ℝ), LinearModel n m lr net q.1 q.2 →
      ∃ net', Epochs E [(ofFn [b, n] x, ofFn [b, m] t)] N net net' ((List.range N).map fun k => ofFn [1] fun _ => F (next^[k] q)) := by
    intro N
    induction N with
    | zero => exact fun q net _ => ⟨net, .zero _⟩
    | succ N ih =>
      intro q net hq
      obtain ⟨net1, s1, s2⟩ := linear_step E hq hx hw hg x t
      obtain ⟨net', he⟩ := ih (next q) net1 s2
      refine ⟨net', ?_⟩
      have := Epochs.succ (.cons s1 (.nil _)) he
      simp only [List.foldl_cons, List.foldl_nil, zero_add, List.length_singleton, Nat.cast_one, div_one] at this
      rw [List.range_succ_eq_map, List.map_cons, List.map_map]
      exact this
  let v : Nat → ℝ := fun k => F (next^[k] (w, bias))
  have hanti : Antitone v := antitone_nat_of_succ_le fun k => by
    show F (next^[k + 1] (w, bias)) ≤ F (next^[k] (w, bias))
    rw [Function.iterate_succ_apply']
    exact (hstep _).1
  have hrate : ∀ ws bs (N : Nat), N * (v N - fitError b n m x t ws bs) ≤
      paramDist n m w bias ws bs / (2 * lr) + fitError b n m x t w bias / (2 * (1 - κ)) := by
    intro ws bs N
    have hsum : ∀ N : Nat, paramDist n m (next^[N] (w, bias)).1 (next^[N] (w, bias)).2 ws bs +
        2 * lr * ∑ k ∈ range N, (v k - fitError b n m x t ws bs) ≤ paramDist n m w bias ws bs + lr / (1 - κ) * (v 0 - v N) := by
      intro N
      induction N with
      | zero => simp
      | succ N ih =>
        rw [sum_range_succ]
        have := (hstep (next^[N] (w, bias))).2 ws bs
        rw [← Function.iterate_succ_apply' next] at this
        have e : F (next^[N] (w, bias)) = v N := rfl
        have e' : F (next^[N + 1] (w, bias)) = v (N + 1) := rfl
        rw [e, Nat.succ_eq_add_one, e'] at this
        have q1 : lr / (1 - κ) * (v 0 - v (N + 1)) = lr / (1 - κ) * (v 0 - v N) + lr / (1 - κ) * (v N - v (N + 1)) := by ring
        rw [q1, mul_add]
        linarith
    have h1 := hsum N
    have h2 := paramDist_nonneg n m (next^[N] (w, bias)).1 (next^[N] (w, bias)).2 ws bs
    have h3 : (N : ℝ) * (v N - fitError b n m x t ws bs) ≤ ∑ k ∈ range N, (v k - fitError b n m x t ws bs) := by
      have := card_nsmul_le_sum (range N) (fun k => v k - fitError b n m x t ws bs) (v N - fitError b n m x t ws bs)
        (fun k hk => by have := hanti (mem_range.1 hk).le; linarith)
      simpa using this
    have h4 : 0 ≤ v N := hnn _ _
    have h5 : lr / (1 - κ) * (v 0 - v N) ≤ lr / (1 - κ) * fitError b n m x t w bias := by
      apply mul_le_mul_of_nonneg_left _ (by positivity)
      have : v 0 = fitError b n m x t w bias := rfl
      linarith
    have h6 : 2 * lr * (paramDist n m w bias ws bs / (2 * lr) + fitError b n m x t w bias / (2 * (1 - κ))) =
        paramDist n m w bias ws bs + lr / (1 - κ) * fitError b n m x t w bias := by
      field_simp
    refine le_of_mul_le_mul_left ?_ (show 0 < 2 * lr by positivity)
    rw [h6]
    nlinarith
  refine ⟨v, hanti, ?_, fun N => ?_, hrate⟩
  · have hbdd : BddBelow (Set.range v) := ⟨0, by rintro _ ⟨k, rfl⟩; exact hnn _ _⟩
    have hbdd' : BddBelow (Set.range fun p : P => fitError b n m x t p.1 p.2) := ⟨0, by rintro _ ⟨k, rfl⟩; exact hnn _ _⟩
    have hlim := tendsto_atTop_ciInf hanti hbdd
    have heq : ⨅ i, v i = ⨅ p : P, fitError b n m x t p.1 p.2 := by
      apply le_antisymm
      · refine le_ciInf fun p => ?_
        refine le_of_forall_pos_le_add fun ε hε => ?_
        obtain ⟨N, hN⟩ := exists_nat_gt ((paramDist n m w bias p.1 p.2 / (2 * lr) + fitError b n m x t w bias / (2 * (1 - κ))) / ε)
        rw [div_lt_iff₀ hε] at hN
        have h1 := hrate p.1 p.2 N
        have h2 : (N : ℝ) * (v N - fitError b n m x t p.1 p.2) < N * ε := lt_of_le_of_lt h1 hN
        have h3 : v N - fitError b n m x t p.1 p.2 < ε := lt_of_mul_lt_mul_left h2 (Nat.cast_nonneg N)
        have h4 := ciInf_le hbdd N
        linarith
      · refine le_ciInf fun k => ?_
        exact ciInf_le hbdd' (next^[k] (w, bias))
    rw [← heq]
    exact hlim
  · obtain ⟨net', he⟩ := hep N (w, bias) net h
    refine ⟨net', (C55_train E _ _ N net _ _ (by simp) (by simp)).2 ?_⟩
    rw [Int.toNat_natCast]
    exact he

/-- The hypotheses are met, and the best fit may have a positive error: two rows with the same input 1 and the targets 0 and 2, learning rate 1/10. -/
example (w bias : List Nat → ℝ) :
    let net : Net Unit ℝ := Net.compile .mse (.newSGD ⟨1/10, 0, 0, 0, false⟩)
      ⟨[⟨.fc { weights := ofFn [1, 1] w, biases := ofFn [1, 1] bias }, true⟩], none, none, ()⟩
    let x : List Nat → ℝ := fun _ => 1
    let t : List Nat → ℝ := fun i => 2 * i.getD 0 0
    LinearModel 1 1 (1/10) net w bias ∧ Dims [2, 1] ∧ Dims [1, 1] ∧ 1/10 * rowMass 2 1 x ≤ (1/5) * ((2 : Nat) * (1 : Nat)) ∧
      ∀ w bias, 1 ≤ fitError 2 1 1 x t w bias := by
  intro net x t
  have d : ∀ {ds : List Nat}, ds ≠ [] → (∀ a ∈ ds, 0 < a) → ds.prod < 2 ^ 31 → Dims ds := fun a b c => ⟨a, b, c⟩
  refine ⟨⟨_, _, _, rfl, rfl, rfl, rfl, rfl, _, rfl, rfl, rfl, rfl⟩, d (by simp) (by simp) (by simp), d (by simp) (by simp) (by simp), ?_, ?_⟩
  · unfold rowMass
    rw [total2]
    norm_num [sum_range_succ, x]
  · intro w bias
    unfold fitError mse
    rw [total2]
    simp only [sum_range_succ, sum_range_zero, affine, x, t]
    norm_num
    nlinarith [sq_nonneg (w [0, 0] + bias [0, 0] - 1)]

end SmartDNN
