import Verif.Spec.FreshDense
import Verif.Props.DrawsIndep
import Verif.Props.Dense

/-!
# New fully connected layers (proofs for C123)
-/

namespace SmartDNN
open Spec MeasureTheory ProbabilityTheory

variable {ρ : Type}

/-- A new layer: its weights are `Tensor::rand`, its biases are 0. -/
theorem fresh_dense (S : RandSource ρ ℝ) {n m : Nat} (hw : Dims [n, m]) (r : ρ) :
    ∃ w r', Tensor.randn S.engine (shapeOf [n, m]) 0 1 r = .ok (ofFn [n, m] w, r') ∧ (∀ i, 0 ≤ w i) ∧
      FC.new S.engine n m r = .ok ({ weights := ofFn [n, m] w, biases := ofFn [1, m] fun _ => 0 }, r') := by
  have hm : Dims [1, m] := dims_cons_one (dims_tail hw)
  refine ⟨_, _, createRandom_ofFn S.engine [n, m] 0 1 r, fun i => ?_, ?_⟩
  · rw [cmax_real, cmin_real]
    exact le_min (le_max_right _ _) zero_le_one
  · unfold FC.new
    rw [show ([(n : Int), (m : Int)]) = ints [n, m] from rfl, make_dims hw]
    change (do
      let (w, r) ← createRandom S.engine (shapeOf [n, m]) 0 1 r
      let sb ← Shape.make (ints [1, m])
      return (({ weights := w, biases := Tensor.zeros sb } : FC ℝ), r)) = _
    rw [createRandom_ofFn, make_dims hm]
    change Except.ok _ = Except.ok _
    rw [zeros_shapeOf]

theorem deadOutput_iff {n m j : Nat} (hw : Dims [n, m]) (hj : j < m) {w : List Nat → ℝ} (h0 : ∀ i, 0 ≤ w i) :
    DeadOutput n m j { weights := ofFn [n, m] w, biases := ofFn [1, m] fun _ => 0 } ↔ ∀ i < n, w [i, j] = 0 := by
  constructor
  · intro h i hi
    have hm : Dims [1, m] := dims_cons_one (dims_tail hw)
    obtain ⟨y, l', e, hy⟩ := h 1 hm fun _ => 1
    rw [C37_batch hm w (fun _ => 0) _ _ rfl rfl] at e
    have e1 := ofFn_inj (Except.ok.inj (congrArg Prod.fst e)) (valid2_iff.2 ⟨0, j, rfl, Nat.one_pos, hj⟩)
    rw [hy 0 Nat.one_pos] at e1
    simp only [affine, List.getD_cons_succ, List.getD_cons_zero, one_mul, add_zero] at e1
    exact (Finset.sum_eq_zero_iff_of_nonneg fun _ _ => h0 _).1 e1 i (Finset.mem_range.2 hi)
  · intro h b hb x
    refine ⟨_, _, C37_batch hb w (fun _ => 0) x _ rfl rfl, fun i _ => ?_⟩
    simp only [affine, List.getD_cons_succ, List.getD_cons_zero, add_zero]
    exact Finset.sum_eq_zero fun k hk => by rw [h k (Finset.mem_range.1 hk), mul_zero]

theorem alikeOutputs_iff {n m j k : Nat} (hw : Dims [n, m]) (hj : j < m) (hk : k < m) {w : List Nat → ℝ} :
    AlikeOutputs n m j k { weights := ofFn [n, m] w, biases := ofFn [1, m] fun _ => 0 } ↔ ∀ i < n, w [i, j] = w [i, k] := by
  constructor
  · intro h i hi
    have hm : Dims [1, m] := dims_cons_one (dims_tail hw)
    obtain ⟨y, l', e, hy⟩ := h 1 hm fun q => if q.getD 1 0 = i then 1 else 0
    rw [C37_batch hm w (fun _ => 0) _ _ rfl rfl] at e
    have e1 : ∀ c < m, w [i, c] = y [0, c] := fun c hc => by
      rw [← ofFn_inj (Except.ok.inj (congrArg Prod.fst e)) (valid2_iff.2 ⟨0, c, rfl, Nat.one_pos, hc⟩)]
      simp [affine, hi]
    rw [e1 j hj, e1 k hk, hy 0 Nat.one_pos]
  · intro h b hb x
    refine ⟨_, _, C37_batch hb w (fun _ => 0) x _ rfl rfl, fun i _ => ?_⟩
    simp only [affine, List.getD_cons_succ, List.getD_cons_zero, add_zero]
    exact Finset.sum_congr rfl fun q hq => by rw [h q (Finset.mem_range.1 hq)]

/-- Two numbers of the engine are different with probability one. -/
theorem gauss_distinct [MeasurableSpace ρ] (P : Measure ρ) (S : RandSource ρ ℝ) (hm : ∀ k, Measurable (gaussAt S k)) (hlaw : ∀ k, P.map (gaussAt S k) = gaussianReal 0 1)
    (hind : iIndepFun (gaussAt S) P) {a b : Nat} (hab : a ≠ b) : P {r | gaussAt S a r = gaussAt S b r} = 0 := by
  have := hind.isProbabilityMeasure
  have := nullSingletonClass_gaussianReal (μ := 0) (v := 1) one_ne_zero
  have h := (indepFun_iff_map_prod_eq_prod_map_map (hm a).aemeasurable (hm b).aemeasurable).1 (hind.indepFun hab)
  have e : {r | gaussAt S a r = gaussAt S b r} = (fun r => (gaussAt S a r, gaussAt S b r)) ⁻¹' {p : ℝ × ℝ | p.1 = p.2} := rfl
  have hd : MeasurableSet {p : ℝ × ℝ | p.1 = p.2} := measurableSet_eq_fun measurable_fst measurable_snd
  rw [e, ← Measure.map_apply ((hm a).prodMk (hm b)) hd, h, hlaw, hlaw, Measure.measure_prod_null hd]
  refine Filter.Eventually.of_forall fun x => ?_
  have : Prod.mk x ⁻¹' {p : ℝ × ℝ | p.1 = p.2} = {x} := by
    ext y
    simp [eq_comm]
  dsimp only
  rw [this]
  exact measure_singleton x

end SmartDNN
