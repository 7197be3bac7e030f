import Verif.Spec.Rounding
import Verif.Spec.Linear
import Mathlib.Algebra.Order.BigOperators.Group.List
import Mathlib.Algebra.BigOperators.Group.List.Basic

/-!
# Rounding errors of sums
-/

namespace SmartDNN
open Spec

variable {F : Type} [Zero F] [One F] [Add F] [Sub F] [Mul F] [Div F] [NatCast F] {u η : ℝ}

theorem one_le_growth (M : FloatModel F u η) (n : Nat) : 1 ≤ (1 + u) ^ n :=
  one_le_pow₀ (by linarith [M.u_nonneg])

theorem lsum_append_one (l : List F) (x : F) : lsum (l ++ [x]) = lsum l + x := by
  simp [lsum]

theorem sum_abs_nonneg (l : List ℝ) : 0 ≤ (l.map (fun x => |x|)).sum :=
  List.sum_nonneg (by simp)

theorem abs_sum_map_le {ι : Type} (L : List ι) (f : ι → ℝ) : |(L.map f).sum| ≤ (L.map (fun i => |f i|)).sum := by
  induction L with
  | nil => simp
  | cons x L ih =>
    simp only [List.map_cons, List.sum_cons]
    have := abs_add_le (f x) (L.map f).sum
    linarith

/-- Left-to-right sum of floating-point numbers. -/
theorem lsum_error (M : FloatModel F u η) (l : List F) (h : M.fin (lsum l)) :
    (∀ x ∈ l, M.fin x) ∧ |M.val (lsum l) - (l.map M.val).sum| ≤ ((1 + u) ^ l.length - 1) * (l.map (fun x => |M.val x|)).sum := by
  induction l using List.reverseRecOn with
  | nil => simp [lsum, M.val_zero]
  | append_singleton l x ih =>
    rw [lsum_append_one] at h
    obtain ⟨h1, h2, h3⟩ := M.add _ _ h
    obtain ⟨h4, h5⟩ := ih h1
    refine ⟨?_, ?_⟩
    · intro y hy
      rcases List.mem_append.1 hy with hy | hy
      · exact h4 y hy
      · rw [List.mem_singleton.1 hy]
        exact h2
    · rw [lsum_append_one]
      simp only [List.map_append, List.sum_append, List.map_cons, List.map_nil, List.sum_cons, List.sum_nil, add_zero,
        List.length_append, List.length_cons, List.length_nil, zero_add]
      have hu := M.u_nonneg
      have hG := one_le_growth M l.length
      set G := (1 + u) ^ l.length with hGd
      set s := M.val (lsum l)
      set S := (l.map M.val).sum
      set A := (l.map (fun x => |M.val x|)).sum
      have hA : 0 ≤ A := List.sum_nonneg (by simp)
      have hSA : |S| ≤ A := abs_sum_map_le l M.val
      have hs : |s| ≤ G * A := by
        have : |s| ≤ |s - S| + |S| := by
          have := abs_add_le (s - S) S
          rwa [sub_add_cancel] at this
        nlinarith
      have e1 : |s + M.val x| ≤ G * A + |M.val x| := le_trans (abs_add_le _ _) (by linarith)
      have e2 : |M.val (lsum l + x) - (S + M.val x)| ≤ |M.val (lsum l + x) - (s + M.val x)| + |s - S| := by
        have := abs_add_le (M.val (lsum l + x) - (s + M.val x)) (s - S)
        rwa [show M.val (lsum l + x) - (s + M.val x) + (s - S) = M.val (lsum l + x) - (S + M.val x) by ring] at this
      have e3 : u * |s + M.val x| ≤ u * (G * A + |M.val x|) := mul_le_mul_of_nonneg_left e1 hu
      rw [pow_succ, ← hGd]
      have hx := abs_nonneg (M.val x)
      have e4 : u * |M.val x| ≤ (G * (1 + u) - 1) * |M.val x| :=
        mul_le_mul_of_nonneg_right (by nlinarith) hx
      calc _ ≤ _ := e2
        _ ≤ u * (G * A + |M.val x|) + (G - 1) * A := by linarith
        _ = (G * (1 + u) - 1) * A + u * |M.val x| := by ring
        _ ≤ (G * (1 + u) - 1) * A + (G * (1 + u) - 1) * |M.val x| := by linarith
        _ = _ := by ring

theorem sum_map_le {ι : Type} (L : List ι) (f g : ι → ℝ) (h : ∀ i ∈ L, f i ≤ g i) : (L.map f).sum ≤ (L.map g).sum :=
  List.sum_le_sum h

theorem sum_map_linear {ι : Type} (L : List ι) (a : ι → ℝ) (v η : ℝ) :
    (L.map (fun i => v * a i + η)).sum = v * (L.map a).sum + L.length * η := by
  induction L with
  | nil => simp
  | cons x L ih =>
    simp only [List.map_cons, List.sum_cons, ih, List.length_cons]
    push_cast
    ring

/-- Left-to-right sum of approximations `p i` of the numbers `e i`. -/
theorem lsum_approx (M : FloatModel F u η) {ι : Type} (L : List ι) (p : ι → F) (e a : ι → ℝ) {v ε : ℝ} (ha : ∀ i ∈ L, |e i| ≤ a i)
    (hp : ∀ i ∈ L, M.fin (p i) → |M.val (p i) - e i| ≤ v * a i + ε) (h : M.fin (lsum (L.map p))) :
    |M.val (lsum (L.map p)) - (L.map e).sum| ≤
      ((1 + u) ^ L.length * (1 + v) - 1) * (L.map a).sum + L.length * ((1 + u) ^ L.length * ε) := by
  obtain ⟨h1, h2⟩ := lsum_error M _ h
  simp only [List.map_map, List.length_map] at h2
  have hf : ∀ i ∈ L, |M.val (p i) - e i| ≤ v * a i + ε := fun i hi => hp i hi (h1 _ (List.mem_map_of_mem hi))
  have k1 : (L.map ((fun x => |M.val x|) ∘ p)).sum ≤ (1 + v) * (L.map a).sum + L.length * ε := by
    rw [← sum_map_linear]
    refine sum_map_le _ _ _ fun i hi => ?_
    have := abs_add_le (M.val (p i) - e i) (e i)
    rw [sub_add_cancel] at this
    have := hf i hi
    have := ha i hi
    simp only [Function.comp]
    linarith
  have k2 : |(L.map (M.val ∘ p)).sum - (L.map e).sum| ≤ v * (L.map a).sum + L.length * ε := by
    rw [← sum_map_linear]
    clear h h1 h2 hp ha k1
    induction L with
    | nil => simp
    | cons x L ih =>
      simp only [List.map_cons, List.sum_cons, Function.comp]
      have := ih (fun i hi => hf i (List.mem_cons_of_mem _ hi))
      have h3 := hf x List.mem_cons_self
      have := abs_add_le (M.val (p x) - e x) ((L.map (M.val ∘ p)).sum - (L.map e).sum)
      rw [show M.val (p x) + (L.map (M.val ∘ p)).sum - (e x + (L.map e).sum) =
        M.val (p x) - e x + ((L.map (M.val ∘ p)).sum - (L.map e).sum) by ring]
      linarith
  have hG := one_le_growth M L.length
  set G := (1 + u) ^ L.length
  set A := (L.map a).sum
  have k3 := abs_add_le (M.val (lsum (L.map p)) - (L.map (M.val ∘ p)).sum) ((L.map (M.val ∘ p)).sum - (L.map e).sum)
  rw [sub_add_sub_cancel] at k3
  have k4 := mul_le_mul_of_nonneg_left k1 (by linarith : 0 ≤ G - 1)
  calc _ ≤ _ := k3
    _ ≤ (G - 1) * ((1 + v) * A + L.length * ε) + (v * A + L.length * ε) := by linarith
    _ = _ := by ring

/-- Inner products. -/
theorem dot_error (M : FloatModel F u η) (k : Nat) (x y : Nat → F) (h : M.fin (dot k x y)) :
    |M.val (dot k x y) - ((List.range k).map (fun p => M.val (x p) * M.val (y p))).sum| ≤
      ((1 + u) ^ (k + 1) - 1) * ((List.range k).map (fun p => |M.val (x p) * M.val (y p)|)).sum + k * ((1 + u) ^ k * η) := by
  have := lsum_approx M (List.range k) (fun p => x p * y p) (fun p => M.val (x p) * M.val (y p))
    (fun p => |M.val (x p) * M.val (y p)|) (fun _ _ => le_refl _)
    (fun i _ hf => (M.mul _ _ hf).2.2) h
  rw [List.length_range] at this
  rw [pow_succ]
  exact this

/-- Adding one more term. -/
theorem add_error (M : FloatModel F u η) (d b : F) (D A B : ℝ) (h : M.fin (d + b)) {G ε : ℝ} (hG : 1 ≤ G)
    (hD : |D| ≤ A) (hd : M.fin d → |M.val d - D| ≤ (G - 1) * A + ε) (hB : |M.val b| ≤ B) :
    |M.val (d + b) - (D + M.val b)| ≤ (G * (1 + u) - 1) * (A + B) + (1 + u) * ε := by
  obtain ⟨h1, h2, h3⟩ := M.add _ _ h
  have h4 := hd h1
  have hu := M.u_nonneg
  have k1 := abs_add_le (M.val d - D) D
  rw [sub_add_cancel] at k1
  have k2 := abs_add_le (M.val d) (M.val b)
  have k3 := abs_add_le (M.val (d + b) - (M.val d + M.val b)) (M.val d - D)
  rw [show M.val (d + b) - (M.val d + M.val b) + (M.val d - D) = M.val (d + b) - (D + M.val b) by ring] at k3
  have hA : 0 ≤ A := le_trans (abs_nonneg _) hD
  have hB0 : 0 ≤ B := le_trans (abs_nonneg _) hB
  have k4 : u * |M.val d + M.val b| ≤ u * (G * A + ε + B) := mul_le_mul_of_nonneg_left (by nlinarith) hu
  have k5 : u * B ≤ (G * (1 + u) - 1) * B := mul_le_mul_of_nonneg_right (by nlinarith) hB0
  calc _ ≤ _ := k3
    _ ≤ u * (G * A + ε + B) + ((G - 1) * A + ε) := by linarith
    _ = (G * (1 + u) - 1) * A + u * B + (1 + u) * ε := by ring
    _ ≤ _ := by linarith

end SmartDNN
