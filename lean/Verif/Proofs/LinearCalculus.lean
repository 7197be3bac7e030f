import Verif.Proofs.Calculus
import Verif.Spec.Layers
import Mathlib.Algebra.BigOperators.Ring.Finset
import Mathlib.Analysis.Calculus.Deriv.Add

/-!
# Gradients of linear maps between arrays
-/

namespace SmartDNN
open Spec

theorem total1 (a : Nat) (f : List Nat → ℝ) : total [a] f = ∑ i ∈ Finset.range a, f [i] := by
  rw [total_cons, ← List.sum_toFinset _ List.nodup_range, List.toFinset_range]
  exact Finset.sum_congr rfl fun i _ => by simp [total, indices]

theorem total_cons' (d : Nat) (ds : List Nat) (f : List Nat → ℝ) :
    total (d :: ds) f = ∑ i ∈ Finset.range d, total ds (fun x => f (i :: x)) := by
  rw [total_cons, ← List.sum_toFinset _ List.nodup_range, List.toFinset_range]

theorem total2 (a b : Nat) (f : List Nat → ℝ) :
    total [a, b] f = ∑ i ∈ Finset.range a, ∑ j ∈ Finset.range b, f [i, j] := by
  rw [total_cons']
  exact Finset.sum_congr rfl fun i _ => total1 b _

theorem total4 (a b c d : Nat) (f : List Nat → ℝ) :
    total [a, b, c, d] f = ∑ i ∈ Finset.range a, ∑ j ∈ Finset.range b, ∑ k ∈ Finset.range c,
      ∑ l ∈ Finset.range d, f [i, j, k, l] := by
  rw [total_cons']
  refine Finset.sum_congr rfl fun i _ => ?_
  rw [total_cons']
  exact Finset.sum_congr rfl fun j _ => total2 c d _

/-- Gradient of a map whose every output is an affine combination of inputs: output `j` is
`∑ k ∈ K, M j k * x (p j k) + c j`. -/
theorem hasVJP_gather {κ : Type} {ds es : List Nat} (K : List κ) (M : List Nat → κ → ℝ) (p : List Nat → κ → List Nat)
    (c : List Nat → ℝ) (hp : ∀ j, ValidIdx es j → ∀ k ∈ K, M j k = 0 ∨ ValidIdx ds (p j k)) (f : List Nat → ℝ) :
    HasVJP ds es (fun x j => (K.map (fun k => M j k * x (p j k))).sum + c j) f
      (fun g i => total es (fun j => (K.map (fun k => if p j k = i then g j * M j k else 0)).sum)) := by
  intro g cv v hc
  have h1 : HasDerivAt (fun t => total es (fun j => g j * ((K.map (fun k => M j k * cv t (p j k))).sum + c j)))
      (total es (fun j => g j * (K.map (fun k => M j k * v (p j k))).sum)) 0 := by
    apply hasDerivAt_total (f := fun j t => g j * ((K.map (fun k => M j k * cv t (p j k))).sum + c j))
    intro j hj
    apply HasDerivAt.const_mul
    refine HasDerivAt.add_const _ ?_
    apply hasDerivAt_list_sum (f := fun k t => M j k * cv t (p j k))
    intro k hk
    rcases hp j hj k hk with h0 | h0
    · simpa [h0] using hasDerivAt_const (0 : ℝ) (0 : ℝ)
    · exact (hc.2 _ h0).const_mul _
  convert h1 using 1
  have h2 : ∀ i, total es (fun j => (K.map (fun k => if p j k = i then g j * M j k else 0)).sum) * v i =
      total es (fun j => (K.map (fun k => if p j k = i then g j * M j k * v i else 0)).sum) := by
    intro i
    rw [← total_mul_right]
    refine total_congr fun j _ => ?_
    rw [← List.sum_map_mul_right]
    congr 1
    refine List.map_congr_left fun k _ => ?_
    rw [ite_mul, zero_mul]
  simp only [h2]
  rw [total_comm]
  refine total_congr fun j hj => ?_
  unfold total
  rw [sum_comm', ← List.sum_map_mul_left]
  congr 1
  refine List.map_congr_left fun k hk => ?_
  rcases hp j hj k hk with h0 | h0
  · simp [h0]
  · have := total_single h0 (fun i => g j * M j k * v i)
    unfold total at this
    rw [show g j * (M j k * v (p j k)) = g j * M j k * v (p j k) by ring, ← this]
    congr 1
    refine List.map_congr_left fun i _ => ?_
    by_cases h : p j k = i
    · simp [h]
    · rw [if_neg h, if_neg (fun h' => h h'.symm)]

theorem extensional_gather {κ : Type} {ds es : List Nat} (K : List κ) (M : List Nat → κ → ℝ) (p : List Nat → κ → List Nat)
    (c : List Nat → ℝ) (hp : ∀ j, ValidIdx es j → ∀ k ∈ K, M j k = 0 ∨ ValidIdx ds (p j k)) :
    Extensional ds es (fun x j => (K.map (fun k => M j k * x (p j k))).sum + c j) := by
  intro x y h j hj
  beta_reduce
  congr 2
  refine List.map_congr_left fun k hk => ?_
  rcases hp j hj k hk with h0 | h0
  · simp [h0]
  · rw [h _ h0]

/-! ### The affine map -/

theorem hasVJP_affine_input (b n m : Nat) (w bias x : List Nat → ℝ) :
    HasVJP [b, n] [b, m] (affine n w bias) x
      (fun g idx => ∑ j ∈ Finset.range m, g [idx.getD 0 0, j] * w [idx.getD 1 0, j]) := by
  intro g c v hc
  have h1 : HasDerivAt (fun t => total [b, m] (fun j => g j * affine n w bias (c t) j))
      (total [b, m] (fun j => g j * ∑ k ∈ Finset.range n, v [j.getD 0 0, k] * w [k, j.getD 1 0])) 0 := by
    apply hasDerivAt_total (f := fun j t => g j * affine n w bias (c t) j)
    intro j hj
    obtain ⟨i, j, rfl, hi, hj⟩ := valid2_iff.1 hj
    apply HasDerivAt.const_mul
    unfold affine
    refine HasDerivAt.add_const _ ?_
    apply HasDerivAt.fun_sum
    intro k hk
    apply HasDerivAt.mul_const
    exact hc.2 _ (valid2_iff.2 ⟨i, k, rfl, hi, by simpa using hk⟩)
  convert h1 using 1
  rw [total2, total2]
  refine Finset.sum_congr rfl fun i _ => ?_
  simp only [List.getD_cons_zero, List.getD_cons_succ, Finset.sum_mul, Finset.mul_sum]
  rw [Finset.sum_comm]
  exact Finset.sum_congr rfl fun j _ => Finset.sum_congr rfl fun k _ => by ring

theorem extensional_affine_input (b n m : Nat) (w bias : List Nat → ℝ) :
    Extensional [b, n] [b, m] (affine n w bias) := by
  intro x y h j hj
  obtain ⟨i, j, rfl, hi, hj⟩ := valid2_iff.1 hj
  unfold affine
  congr 1
  refine Finset.sum_congr rfl fun k hk => ?_
  simp only [List.getD_cons_zero]
  rw [h _ (valid2_iff.2 ⟨i, k, rfl, hi, by simpa using hk⟩)]

theorem extensional_affine_weights (b n m : Nat) (bias x : List Nat → ℝ) :
    Extensional [n, m] [b, m] (fun w => affine n w bias x) := by
  intro w w' h j hj
  obtain ⟨i, j, rfl, hi, hj⟩ := valid2_iff.1 hj
  simp only [affine, List.getD_cons_zero, List.getD_cons_succ]
  congr 1
  refine Finset.sum_congr rfl fun k hk => ?_
  rw [h [k, j] (valid2_iff.2 ⟨k, j, rfl, Finset.mem_range.1 hk, hj⟩)]

theorem extensional_affine_bias (b n m : Nat) (w x : List Nat → ℝ) :
    Extensional [1, m] [b, m] (fun bias => affine n w bias x) := by
  intro c c' h j hj
  obtain ⟨i, j, rfl, hi, hj⟩ := valid2_iff.1 hj
  simp only [affine, List.getD_cons_zero, List.getD_cons_succ]
  rw [h [0, j] (valid2_iff.2 ⟨0, j, rfl, Nat.one_pos, hj⟩)]

theorem hasGradient_affine_weights (b n m : Nat) (w bias x g : List Nat → ℝ) :
    HasGradient [n, m] (fun w => total [b, m] (fun j => g j * affine n w bias x j)) w
      (fun idx => ∑ i ∈ Finset.range b, x [i, idx.getD 0 0] * g [i, idx.getD 1 0]) := by
  intro c v hc
  have h1 : HasDerivAt (fun t => total [b, m] (fun j => g j * affine n (c t) bias x j))
      (total [b, m] (fun j => g j * ∑ k ∈ Finset.range n, x [j.getD 0 0, k] * v [k, j.getD 1 0])) 0 := by
    apply hasDerivAt_total (f := fun j t => g j * affine n (c t) bias x j)
    intro j hj
    obtain ⟨i, j, rfl, hi, hj⟩ := valid2_iff.1 hj
    apply HasDerivAt.const_mul
    unfold affine
    refine HasDerivAt.add_const _ ?_
    apply HasDerivAt.fun_sum
    intro k hk
    apply HasDerivAt.const_mul
    exact hc.2 _ (valid2_iff.2 ⟨k, j, rfl, by simpa using hk, hj⟩)
  convert h1 using 1
  rw [total2, total2]
  simp only [List.getD_cons_zero, List.getD_cons_succ, Finset.sum_mul, Finset.mul_sum]
  rw [Finset.sum_comm]
  conv_lhs => enter [2, j]; rw [Finset.sum_comm]
  rw [Finset.sum_comm]
  refine Finset.sum_congr rfl fun i _ => Finset.sum_congr rfl fun j _ => Finset.sum_congr rfl fun k _ => by ring

theorem hasGradient_affine_bias (b n m : Nat) (w bias x g : List Nat → ℝ) :
    HasGradient [1, m] (fun bias => total [b, m] (fun j => g j * affine n w bias x j)) bias
      (fun idx => ∑ i ∈ Finset.range b, g [i, idx.getD 1 0]) := by
  intro c v hc
  have h1 : HasDerivAt (fun t => total [b, m] (fun j => g j * affine n w (c t) x j))
      (total [b, m] (fun j => g j * v [0, j.getD 1 0])) 0 := by
    apply hasDerivAt_total (f := fun j t => g j * affine n w (c t) x j)
    intro j hj
    obtain ⟨i, j, rfl, hi, hj⟩ := valid2_iff.1 hj
    apply HasDerivAt.const_mul
    unfold affine
    refine HasDerivAt.const_add _ ?_
    exact hc.2 _ (valid2_iff.2 ⟨0, j, rfl, by omega, hj⟩)
  convert h1 using 1
  rw [total2, total2]
  simp only [List.getD_cons_zero, List.getD_cons_succ, Finset.sum_mul, Finset.range_one, Finset.sum_singleton]
  rw [Finset.sum_comm]

end SmartDNN
