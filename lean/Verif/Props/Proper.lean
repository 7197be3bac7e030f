import Verif.Spec.Proper
import Verif.Props.Losses
import Verif.Proofs.LinearCalculus

/-!
# C110: what the losses ask for
-/

namespace SmartDNN
open Spec

theorem total_list_sum (ds : List Nat) (fs : List (List Nat → ℝ)) : (fs.map fun f => total ds f).sum = total ds fun i => (fs.map fun f => f i).sum := by
  induction fs with
  | nil => simp [total]
  | cons f fs ih => simp only [List.map_cons, List.sum_cons, ih, total_add]

theorem list_sum_div {α : Type} (l : List α) (f : α → ℝ) (c : ℝ) : (l.map fun a => f a / c).sum = (l.map f).sum / c := by
  simp only [div_eq_mul_inv]
  rw [List.sum_map_mul_right]

theorem list_sum_neg {α : Type} (l : List α) (f : α → ℝ) : (l.map fun a => -f a).sum = -(l.map f).sum := by
  induction l with
  | nil => simp
  | cons a l ih => simp only [List.map_cons, List.sum_cons, ih]; ring

/-- Mean squared error asks for the average: for every set of targets and every answer `p` given to all of them, the sum of the losses is
the sum for the average of the targets plus, for each target, the loss of `p` against that average. -/
theorem C110_mse {ds : List Nat} (hd : Dims ds) :
    ∃ loss : (List Nat → ℝ) → (List Nat → ℝ) → ℝ, (∀ p t, Loss.mse.compute (ofFn ds p) (ofFn ds t) = .ok (ofFn [1] fun _ => loss p t)) ∧
      ∀ (ts : List (List Nat → ℝ)) (p : List Nat → ℝ), ts ≠ [] →
        (ts.map fun t => loss p t).sum = (ts.map fun t => loss (averageOf ts) t).sum + ts.length * loss p (averageOf ts) := by
  refine ⟨mse ds, fun p t => C29_compute hd p t, fun ts p hts => ?_⟩
  have hn : (ts.length : ℝ) ≠ 0 := by
    have := List.length_pos_iff.2 hts
    positivity
  have key : ∀ i, (ts.map fun t => (p i - t i) ^ 2).sum = (ts.map fun t => (averageOf ts i - t i) ^ 2).sum + ts.length * (p i - averageOf ts i) ^ 2 := by
    intro i
    have h : ∀ (l : List (List Nat → ℝ)) (a c : ℝ), (l.map fun t => (a - t i) ^ 2).sum =
        (l.map fun t => (c - t i) ^ 2).sum + (l.length * (a ^ 2 - c ^ 2) - 2 * (a - c) * (l.map fun t => t i).sum) := by
      intro l a c
      induction l with
      | nil => simp
      | cons t l ih => simp only [List.map_cons, List.sum_cons, ih, List.length_cons]; push_cast; ring
    rw [h ts (p i) (averageOf ts i)]
    have e : (ts.map fun t => t i).sum = ts.length * averageOf ts i := by unfold averageOf; field_simp
    rw [e]
    ring
  have hs : ∀ q : List Nat → ℝ, (ts.map fun t => mse ds q t).sum = total ds (fun i => (ts.map fun t => (q i - t i) ^ 2).sum) / (ds.prod : ℝ) := by
    intro q
    have := total_list_sum ds (ts.map fun t i => (q i - t i) ^ 2)
    simp only [List.map_map] at this
    unfold mse
    rw [list_sum_div]
    congr 1
  rw [hs, hs]
  unfold mse
  rw [total_congr fun i _ => key i, total_add, total_mul_left]
  ring

/-- So the average is the best answer one can give to all of them, and any other answer is worse. -/
theorem C110_mse_best {ds : List Nat} (hd : Dims ds) :
    ∃ loss : (List Nat → ℝ) → (List Nat → ℝ) → ℝ, (∀ p t, Loss.mse.compute (ofFn ds p) (ofFn ds t) = .ok (ofFn [1] fun _ => loss p t)) ∧
      ∀ (ts : List (List Nat → ℝ)) (p : List Nat → ℝ), ts ≠ [] → (ts.map fun t => loss (averageOf ts) t).sum ≤ (ts.map fun t => loss p t).sum ∧
        ((ts.map fun t => loss p t).sum = (ts.map fun t => loss (averageOf ts) t).sum ↔ ofFn ds p = ofFn ds (averageOf ts)) := by
  obtain ⟨loss, h1, h2⟩ := C110_mse hd
  refine ⟨loss, h1, fun ts p hts => ?_⟩
  have hn : (0 : ℝ) < ts.length := by exact_mod_cast List.length_pos_iff.2 hts
  obtain ⟨v, e, hv⟩ := C29_nonneg hd p (averageOf ts)
  have hl : loss p (averageOf ts) = v := by
    rw [h1] at e
    exact ofFn_inj (Except.ok.inj e) (idx := [0]) (valid1_iff.2 ⟨0, rfl, by omega⟩)
  have hz := C29_zero_iff hd p (averageOf ts)
  rw [h1] at hz
  rw [← hl] at hv
  rw [h2 ts p hts]
  refine ⟨by nlinarith, ?_⟩
  rw [← hz]
  constructor
  · intro h
    have : loss p (averageOf ts) = 0 := by
      have : (ts.length : ℝ) * loss p (averageOf ts) = 0 := by linarith
      exact (mul_eq_zero.1 this).resolve_left hn.ne'
    rw [this]
  · intro h
    have : loss p (averageOf ts) = 0 := ofFn_inj (Except.ok.inj h) (idx := [0]) (valid1_iff.2 ⟨0, rfl, by omega⟩)
    rw [this]
    ring

/-- Cross entropy sees only the average of the targets: the sum of the losses of one answer is as many times its loss against the
average (the frequencies of the classes, if the targets are one-hot). -/
theorem C110_cross_entropy_average {b k : Nat} (hd : Dims [b, k]) (eps : ℝ) :
    ∃ loss : (List Nat → ℝ) → (List Nat → ℝ) → ℝ,
      (∀ p t, (Loss.crossEntropy eps).compute (ofFn [b, k] p) (ofFn [b, k] t) = .ok (ofFn [1] fun _ => loss p t)) ∧
      ∀ (ts : List (List Nat → ℝ)) (p : List Nat → ℝ), ts ≠ [] → (ts.map fun t => loss p t).sum = ts.length * loss p (averageOf ts) := by
  refine ⟨crossEntropy eps b k, fun p t => C30_compute hd eps p t, fun ts p hts => ?_⟩
  have hn : (ts.length : ℝ) ≠ 0 := by
    have := List.length_pos_iff.2 hts
    positivity
  unfold crossEntropy
  rw [list_sum_div]
  have := total_list_sum [b, k] (ts.map fun t i => t i * Real.log (clampTo eps (p i)))
  simp only [List.map_map] at this
  have e : (ts.map fun t => -total [b, k] fun i => t i * Real.log (clampTo eps (p i))).sum =
      -total [b, k] fun i => (ts.map fun t => t i * Real.log (clampTo eps (p i))).sum := by
    rw [list_sum_neg]
    congr 1
  rw [e, ← mul_div_assoc, mul_neg, ← total_mul_left]
  congr 2
  refine total_congr fun i _ => ?_
  rw [List.sum_map_mul_right]
  unfold averageOf
  field_simp

theorem gibbs_term {q x s : ℝ} (hq : 0 ≤ q) (hx : 0 < x) (hs : 0 < s) : q * Real.log x ≤ q * Real.log q + (x / s - q) + q * Real.log s := by
  rcases hq.eq_or_lt with rfl | hq
  · simp; positivity
  · have h := Real.log_le_sub_one_of_pos (show 0 < x / (q * s) by positivity)
    rw [Real.log_div hx.ne' (by positivity), Real.log_mul hq.ne' hs.ne'] at h
    have := mul_le_mul_of_nonneg_left h hq.le
    have e : q * (x / (q * s) - 1) = x / s - q := by field_simp
    rw [e] at this
    linarith

/-- Cross entropy asks for the target distribution: no answer that is a distribution has a smaller loss than the target itself, except
for what clamping to `[eps, 1 - eps]` can gain, at most `log (1 + k eps) - log (1 - eps)`. -/
theorem C110_cross_entropy {b k : Nat} (hd : Dims [b, k]) {eps : ℝ} (h0 : 0 < eps) (h1 : eps ≤ 1 / 2) :
    ∃ loss : (List Nat → ℝ) → (List Nat → ℝ) → ℝ,
      (∀ p t, (Loss.crossEntropy eps).compute (ofFn [b, k] p) (ofFn [b, k] t) = .ok (ofFn [1] fun _ => loss p t)) ∧
      ∀ p t, Distributions b k p → Distributions b k t → loss t t ≤ loss p t + (Real.log (1 + k * eps) - Real.log (1 - eps)) := by
  refine ⟨crossEntropy eps b k, fun p t => C30_compute hd eps p t, fun p t hp ht => ?_⟩
  have hb : (0 : ℝ) < b := by exact_mod_cast hd.pos b (by simp)
  have tot : ∀ q, Distributions b k q → total [b, k] q = b := by
    intro q hq
    rw [total_cons', Finset.sum_congr rfl fun i hi => show total [k] (fun x => q (i :: x)) = 1 by
      rw [total_cons', ← hq.2 i (Finset.mem_range.1 hi)]
      exact Finset.sum_congr rfl fun j _ => by simp [total, indices]]
    simp
  have vld : ∀ {P : List Nat → Prop}, (∀ i j, i < b → j < k → P [i, j]) → ∀ i, ValidIdx [b, k] i → P i := by
    intro P h i hi
    obtain ⟨i, j, rfl, h1, h2⟩ := valid2_iff.1 hi
    exact h i j h1 h2
  have cp : ∀ x, 0 < clampTo eps x := fun x => lt_min (lt_max_of_lt_right h0) (by linarith)
  set s : ℝ := 1 + k * eps with hs
  have hs0 : 0 < s := by positivity
  -- the loss of the target itself
  have up : -total [b, k] (fun i => t i * Real.log (clampTo eps (t i))) ≤ -total [b, k] (fun i => t i * Real.log (t i)) - b * Real.log (1 - eps) := by
    have : total [b, k] (fun i => t i * Real.log (t i) + t i * Real.log (1 - eps)) ≤ total [b, k] fun i => t i * Real.log (clampTo eps (t i)) := by
      refine total_mono (vld fun i j hi hj => ?_)
      have h := ht.1 i j hi hj
      rcases h.eq_or_lt with h | h
      · rw [← h]; simp
      · have hle : t [i, j] ≤ 1 := by
          rw [← ht.2 i hi]
          exact Finset.single_le_sum (f := fun j => t [i, j]) (fun j' hj' => ht.1 i j' hi (Finset.mem_range.1 hj')) (Finset.mem_range.2 hj)
        rw [← mul_add, ← Real.log_mul h.ne' (by linarith)]
        refine mul_le_mul_of_nonneg_left (Real.log_le_log (by nlinarith) ?_) h.le
        refine le_min ?_ ?_
        · exact le_trans (by nlinarith) (le_max_left _ _)
        · nlinarith
    rw [total_add, total_mul_right, tot t ht] at this
    linarith
  -- the loss of the answer
  have low : total [b, k] (fun i => t i * Real.log (clampTo eps (p i))) ≤ total [b, k] (fun i => t i * Real.log (t i)) + b * Real.log s := by
    have h2 : total [b, k] (fun i => t i * Real.log (clampTo eps (p i))) ≤
        total [b, k] (fun i => t i * Real.log (t i) + ((p i + eps) * (1 / s) - t i) + t i * Real.log s) := by
      refine total_mono (vld fun i j hi hj => ?_)
      have hc : clampTo eps (p [i, j]) ≤ p [i, j] + eps := by
        refine (min_le_left _ _).trans (max_le (by linarith) ?_)
        linarith [hp.1 i j hi hj]
      have := gibbs_term (ht.1 i j hi hj) (cp (p [i, j])) hs0
      have h3 : clampTo eps (p [i, j]) / s ≤ (p [i, j] + eps) * (1 / s) := by rw [mul_one_div]; exact div_le_div_of_nonneg_right hc hs0.le
      linarith
    rw [total_add, total_add, total_sub, total_mul_right, total_add, total_mul_right, tot t ht, tot p hp] at h2
    have hc : total [b, k] (fun _ => eps) = b * k * eps := by
      rw [total_cons', Finset.sum_congr rfl fun i _ => show total [k] (fun _ => eps) = k * eps by
        rw [total_cons', Finset.sum_congr rfl fun j _ => show total [] (fun _ => eps) = eps by simp [total, indices]]
        simp]
      simp
      ring
    rw [hc] at h2
    have : ((b : ℝ) + b * k * eps) * (1 / s) = b := by rw [hs]; field_simp
    rw [this] at h2
    linarith
  unfold crossEntropy
  rw [← sub_nonneg] at up low ⊢
  have e : -total [b, k] (fun i => t i * Real.log (clampTo eps (p i))) / (b : ℝ) + (Real.log s - Real.log (1 - eps)) -
      -total [b, k] (fun i => t i * Real.log (clampTo eps (t i))) / (b : ℝ) =
      (-total [b, k] (fun i => t i * Real.log (clampTo eps (p i))) + b * (Real.log s - Real.log (1 - eps)) + total [b, k] fun i => t i * Real.log (clampTo eps (t i))) / b := by
    field_simp
    ring
  rw [e]
  refine div_nonneg ?_ hb.le
  linarith

/-- The gain is real: with a probability below `eps` among the targets, moving that probability elsewhere lowers the loss. -/
theorem C110_clamping {eps : ℝ} (h0 : 0 < eps) (h1 : eps ≤ 1 / 3) :
    ∃ p t : List Nat → ℝ, Distributions 1 3 p ∧ Distributions 1 3 t ∧ ∃ u v, u < v ∧
      (Loss.crossEntropy eps).compute (ofFn [1, 3] p) (ofFn [1, 3] t) = .ok (ofFn [1] fun _ => u) ∧
      (Loss.crossEntropy eps).compute (ofFn [1, 3] t) (ofFn [1, 3] t) = .ok (ofFn [1] fun _ => v) := by
  have hd : Dims [1, 3] := ⟨by simp, by simp, by norm_num⟩
  have sum3 : ∀ f : List Nat → ℝ, ∑ j ∈ Finset.range 3, f [0, j] = f [0, 0] + f [0, 1] + f [0, 2] := fun f => by
    simp [Finset.sum_range_succ]
  have three : ∀ a b c : ℝ, 0 ≤ a → 0 ≤ b → 0 ≤ c → a + b + c = 1 → Distributions 1 3 fun i => if i = [0, 0] then a else if i = [0, 1] then b else c := by
    intro a b c ha hb hc h
    refine ⟨fun i j _ _ => by dsimp only; split_ifs <;> assumption, fun i hi => ?_⟩
    obtain rfl : i = 0 := by omega
    have := sum3 fun i => if i = [0, 0] then a else if i = [0, 1] then b else c
    dsimp only at this ⊢
    rw [this]
    simpa using h
  refine ⟨_, _, three (1 / 2) (1 / 2) 0 (by norm_num) (by norm_num) le_rfl (by norm_num),
    three (1 / 2 - eps / 2) (1 / 2) (eps / 2) (by linarith) (by norm_num) (by linarith) (by ring), _, _, ?_, C30_compute hd _ _ _, C30_compute hd _ _ _⟩
  have tot : ∀ f : List Nat → ℝ, total [1, 3] f = f [0, 0] + f [0, 1] + f [0, 2] := fun f => by
    rw [total_cons', Finset.sum_range_one, total_cons']
    simp [Finset.sum_range_succ, total, indices]
  have c1 : clampTo eps (1 / 2) = 1 / 2 := by unfold clampTo; rw [max_eq_left (by linarith), min_eq_left (by linarith)]
  have c2 : clampTo eps (1 / 2 - eps / 2) = 1 / 2 - eps / 2 := by unfold clampTo; rw [max_eq_left (by linarith), min_eq_left (by linarith)]
  have c3 : clampTo eps 0 = clampTo eps (eps / 2) := by unfold clampTo; rw [max_eq_right h0.le, max_eq_right (by linarith)]
  have hl : Real.log (1 / 2 - eps / 2) < Real.log (1 / 2) := Real.log_lt_log (by linarith) (by linarith)
  unfold crossEntropy
  rw [tot, tot]
  simp only [if_true, List.cons.injEq, one_ne_zero, and_false, and_true, if_false, OfNat.ofNat_ne_zero, true_and, OfNat.ofNat_ne_one, Nat.cast_one, div_one]
  rw [c1, c2, c3]
  nlinarith

/-! ### The hypotheses are met -/

/-- Targets 0, 1 and 5 of one number: the average is 2. -/
example : averageOf [fun _ => 0, fun _ => 1, fun _ => 5] [0] = 2 := by
  norm_num [averageOf]

/-- One-hot labels of ten classes are distributions. -/
example (c : Nat) (hc : c < 10) : Distributions 1 10 fun i => if i = [0, c] then 1 else 0 := by
  refine ⟨fun i j _ _ => by dsimp only; split_ifs <;> norm_num, fun i hi => ?_⟩
  obtain rfl : i = 0 := by omega
  simp [hc]

end SmartDNN
