import Verif.Spec.Capacity
import Verif.Proofs.Rewrite
import Verif.Props.Activations
import Verif.Props.Losses
import Mathlib.Algebra.Polynomial.Roots
import Mathlib.Data.Finset.Max
import Mathlib.Tactic.Linarith

/-!
# What models can fit (proofs for C111)
-/

namespace SmartDNN
open Net Spec

theorem relu_interpolation (S : Finset ℝ) (y : ℝ → Nat → ℝ) : ∃ (c : Nat → ℝ) (v : Nat → Nat → ℝ),
    ∀ t ∈ S, ∀ o, ∑ k ∈ Finset.range S.card, relu (t - c k) * v k o = y t o := by
  induction S using Finset.induction_on_max with
  | empty => exact ⟨fun _ => 0, fun _ _ => 0, by simp⟩
  | insert t S hS ih =>
    obtain ⟨c, v, h⟩ := ih
    have ht : t ∉ S := fun h => lt_irrefl _ (hS t h)
    obtain ⟨d, hd1, hd2⟩ : ∃ d, d < t ∧ ∀ s ∈ S, s ≤ d := by
      rcases S.eq_empty_or_nonempty with rfl | hne
      · exact ⟨t - 1, by linarith, by simp⟩
      · exact ⟨S.max' hne, hS _ (S.max'_mem hne), fun s hs => S.le_max' s hs⟩
    refine ⟨fun k => if k = S.card then d else c k,
      fun k o => if k = S.card then (y t o - ∑ k ∈ Finset.range S.card, relu (t - c k) * v k o) / (t - d) else v k o, fun s hs o => ?_⟩
    beta_reduce
    rw [Finset.card_insert_of_notMem ht, Finset.sum_range_succ, if_pos rfl, if_pos rfl]
    have e : ∑ k ∈ Finset.range S.card, relu (s - if k = S.card then d else c k) *
        (if k = S.card then (y t o - ∑ k ∈ Finset.range S.card, relu (t - c k) * v k o) / (t - d) else v k o) =
        ∑ k ∈ Finset.range S.card, relu (s - c k) * v k o := by
      refine Finset.sum_congr rfl fun k hk => ?_
      have : k ≠ S.card := (Finset.mem_range.1 hk).ne
      rw [if_neg this, if_neg this]
    rw [e]
    rcases Finset.mem_insert.1 hs with rfl | hs
    · have : relu (s - d) = s - d := max_eq_right (by linarith)
      rw [this, mul_div_cancel₀ _ (by linarith : s - d ≠ 0)]
      ring
    · have : relu (s - d) = 0 := max_eq_left (by linarith [hd2 s hs])
      rw [this, h s hs o]
      ring

theorem relu_interpolation_wide (S : Finset ℝ) (y : ℝ → Nat → ℝ) {h : Nat} (hh : S.card ≤ h) : ∃ (c : Nat → ℝ) (v : Nat → Nat → ℝ),
    ∀ t ∈ S, ∀ o, ∑ k ∈ Finset.range h, relu (t - c k) * v k o = y t o := by
  obtain ⟨c, v, hcv⟩ := relu_interpolation S y
  refine ⟨c, fun k o => if k < S.card then v k o else 0, fun t ht o => ?_⟩
  rw [← hcv t ht o, ← Finset.sum_subset (Finset.range_mono hh) fun k _ hk => ?_]
  · exact Finset.sum_congr rfl fun k hk => by beta_reduce; rw [if_pos (Finset.mem_range.1 hk)]
  · beta_reduce
    rw [if_neg fun h => hk (Finset.mem_range.2 h), mul_zero]

open Polynomial in
theorem separating_direction (b n : Nat) (x : List Nat → ℝ) : ∃ a : Nat → ℝ, ∀ i < b, ∀ k < b,
    ∑ j ∈ Finset.range n, x [i, j] * a j = ∑ j ∈ Finset.range n, x [k, j] * a j → ∀ j < n, x [i, j] = x [k, j] := by
  classical
  let P : Nat × Nat → ℝ[X] := fun p => ∑ j ∈ Finset.range n, C (x [p.1, j] - x [p.2, j]) * X ^ j
  let pairs := (Finset.range b ×ˢ Finset.range b).filter fun p => P p ≠ 0
  have hne : ∏ p ∈ pairs, P p ≠ 0 := Finset.prod_ne_zero_iff.2 fun p hp => (Finset.mem_filter.1 hp).2
  obtain ⟨s, hs⟩ : ∃ s, (∏ p ∈ pairs, P p).eval s ≠ 0 := by
    by_contra h
    push Not at h
    exact hne (Polynomial.funext fun r => by rw [h r, eval_zero])
  rw [eval_prod, Finset.prod_ne_zero_iff] at hs
  refine ⟨fun j => s ^ j, fun i hi k hk he j hj => ?_⟩
  have hz : P (i, k) = 0 := by
    by_contra h
    refine hs (i, k) (Finset.mem_filter.2 ⟨Finset.mem_product.2 ⟨Finset.mem_range.2 hi, Finset.mem_range.2 hk⟩, h⟩) ?_
    simp only [P, eval_finset_sum, eval_mul, eval_C, eval_pow, eval_X, sub_mul, Finset.sum_sub_distrib]
    linarith
  have hc : (P (i, k)).coeff j = x [i, j] - x [k, j] := by
    simp only [P, finset_sum_coeff, coeff_C_mul_X_pow]
    rw [Finset.sum_eq_single j (fun l _ hl => if_neg fun h => hl h.symm) (fun h => absurd (Finset.mem_range.2 hj) h), if_pos rfl]
  rw [hz, coeff_zero] at hc
  linarith

theorem answer_oneHidden {ρ : Type} (E : Engine ρ ℝ) {b n h m : Nat} (hh : Dims [b, h]) (hm : Dims [b, m]) (w1 b1 w2 b2 x : List Nat → ℝ) (r : ρ) :
    answer E (oneHidden n h m w1 b1 w2 b2) (ofFn [b, n] x) r =
      (.ok (ofFn [b, m] (denseRow h w2 b2 fun i => relu (denseRow n w1 b1 x i))), r) := by
  unfold oneHidden
  rw [answer_dense E _ _ (fc_affine_batch hh _ _ _), answer_act E _ _ (C25_relu_forward _ _), answer_dense E _ _ (fc_affine_batch hm _ _ _)]
  rfl

theorem onlyDense_parallelogram {ρ : Type} (E : Engine ρ ℝ) {b n m : Nat} {ls : List (Layer ℝ)} (h : OnlyDense b ls n m) :
    ∀ (x : List Nat → ℝ) (r : ρ), ∃ y, answer E ls (ofFn [b, n] x) r = (.ok (ofFn [b, m] y), r) ∧ ∀ i j k l,
      (∀ a < n, x [i, a] + x [j, a] = x [k, a] + x [l, a]) → ∀ a < m, y [i, a] + y [j, a] = y [k, a] + y [l, a] := by
  induction h with
  | nil n => exact fun x r => ⟨x, rfl, fun _ _ _ _ h => h⟩
  | @cons f mode ls n k m w bias hd hw hb hls ih =>
    intro x r
    obtain ⟨y, hy, hp⟩ := ih (denseRow n w bias x) r
    refine ⟨y, ?_, fun i j i' l hx => hp i j i' l fun a _ => ?_⟩
    · rw [← hy]
      refine answer_step (l' := ⟨.fc { f with input := some (ofFn [b, n] x) }, mode⟩) (r' := r) E ?_
      have hf : FC.forward (ofFn [b, n] x) f = (.ok (ofFn [b, k] (denseRow n w bias x)), { f with input := some (ofFn [b, n] x) }) := by
        unfold FC.forward
        rw [Mut.modify_bind, Mut.get_bind, Mut.lift_apply, hw, hb, fc_affine_batch hd]
      simp only [Layer.forward, Layer.onKind, hf]
    · unfold denseRow
      simp only [dot_eq_sum, List.getD_cons_zero, List.getD_cons_succ]
      have : ∑ p ∈ Finset.range n, x [i, p] * w [p, a] + ∑ p ∈ Finset.range n, x [j, p] * w [p, a] =
          ∑ p ∈ Finset.range n, x [i', p] * w [p, a] + ∑ p ∈ Finset.range n, x [l, p] * w [p, a] := by
        rw [← Finset.sum_add_distrib, ← Finset.sum_add_distrib]
        exact Finset.sum_congr rfl fun p hp => by rw [← add_mul, ← add_mul, hx p (Finset.mem_range.1 hp)]
      linarith

end SmartDNN
