import Verif.Model.Losses
import Verif.Spec.Losses
import Verif.Proofs.SoftmaxReal
import Verif.Proofs.MatmulDispatch

/-! Lemmas about the losses. -/

namespace SmartDNN
open Spec

section
variable {T : Type}

theorem reindex_valid {es ds idx : List Nat} (h : es.prod = ds.prod) (hv : ValidIdx es idx) :
    ValidIdx ds (reindex es ds idx) ∧ ravel ds (reindex es ds idx) = ravel es idx := by
  have hr := ravel_lt hv
  obtain ⟨x, hx, hk, hi⟩ := exists_idx_of_lt (ds := ds) (k := ravel es idx) (by omega)
  unfold reindex
  rw [List.getD_eq_getElem?_getD, hi]
  exact ⟨hx, hk⟩

/-- A buffer of dimensions `ds` reinterpreted with dimensions `es`. -/
theorem reinterpret_ofFn {es ds : List Nat} (h : es.prod = ds.prod) (f : List Nat → T) :
    (⟨shapeOf es, (indices ds).map f⟩ : Tensor T) = ofFn es (fun idx => f (reindex es ds idx)) := by
  unfold ofFn
  congr 1
  apply List.ext_getElem? 
  intro k
  by_cases hk : k < es.prod
  · obtain ⟨x, hx, hr, hi⟩ := exists_idx_of_lt hk
    obtain ⟨y, hy, hr', hi'⟩ := exists_idx_of_lt (ds := ds) (k := k) (by omega)
    rw [List.getElem?_map, List.getElem?_map, hi, hi']
    simp only [Option.map_some]
    unfold reindex
    rw [hr, List.getD_eq_getElem?_getD, hi']
    rfl
  · rw [List.getElem?_eq_none (by simp; omega), List.getElem?_eq_none (by simp; omega)]

theorem reindex_one {es : List Nat} {n : Nat} (h : es.prod = n) {idx : List Nat} (hv : ValidIdx es idx) :
    reindex es [n] idx = [ravel es idx] := by
  obtain ⟨h1, h2⟩ := reindex_valid (es := es) (ds := [n]) (by simp [h]) hv
  obtain ⟨i, hi, _⟩ := valid1_iff.1 h1
  rw [hi] at h2 ⊢
  rw [ravel1] at h2
  rw [h2]

theorem beq_shapeOf (a b : List Nat) : (shapeOf a).beq (shapeOf b) = decide (a = b) := by
  unfold Shape.beq
  by_cases h : a = b
  · subst h; simp
  · have : ints a ≠ ints b := fun h' => h (ints_inj h')
    simp [h, this]

theorem divScalar_ofFn [Zero T] [DecidableEq T] [Div T] (ds : List Nat) (f : List Nat → T) {s : T} (hs : s ≠ 0) :
    (ofFn ds f).divScalar s = .ok (ofFn ds (fun i => f i / s)) := by
  unfold Tensor.divScalar
  rw [if_neg hs, map_ofFn]

end

theorem mseTarget_same (ds : List Nat) (f g : List Nat → ℝ) :
    Loss.mseTarget (ofFn ds f) (ofFn ds g) = .ok (ofFn ds g) := by
  unfold Loss.mseTarget
  simp only [ofFn_shape, beq_shapeOf, decide_true]
  rfl

theorem prod_ne_zero' {ds : List Nat} (hd : Dims ds) : (ds.prod : ℝ) ≠ 0 := by
  have := hd.prod_pos
  positivity

theorem mse_compute_ofFn {ds : List Nat} (hd : Dims ds) (f g : List Nat → ℝ) :
    Loss.mse.compute (ofFn ds f) (ofFn ds g) = .ok (ofFn [1] (fun _ => mse ds f g)) := by
  simp only [Loss.compute, mseTarget_same, Except.bind_ok', sub_same hd, mul_same hd, sumAll_ofFn, ofFn_shape,
    shapeOf_size]
  rw [divScalar_ofFn _ _ (prod_ne_zero' hd)]
  congr 2
  funext _
  unfold mse total
  rw [lsum_eq_sum]
  simp only [pow_two]

theorem mse_gradient_ofFn {ds : List Nat} (hd : Dims ds) (f g : List Nat → ℝ) :
    Loss.mse.gradient (ofFn ds f) (ofFn ds g) = .ok (ofFn ds (fun i => (f i - g i) * 2 / (ds.prod : ℝ))) := by
  simp only [Loss.gradient, mseTarget_same, Except.bind_ok', sub_same hd, mulScalar_ofFn, ofFn_shape,
    shapeOf_size]
  rw [divScalar_ofFn _ _ (prod_ne_zero' hd)]
  simp

theorem hasGradient_mse (ds : List Nat) (f g : List Nat → ℝ) :
    HasGradient ds (fun x => mse ds x g) f (fun i => (f i - g i) * 2 / (ds.prod : ℝ)) := by
  intro c v hc
  have h := (hasDerivAt_total (ds := ds) (fun i t => (c t i - g i) ^ 2) (fun i => 2 * (f i - g i) * v i) 0 (by
    intro i hi
    have := ((hc.2 i hi).sub_const (g i)).fun_pow 2
    rw [hc.1 i hi] at this
    simpa using this)).div_const (ds.prod : ℝ)
  refine h.congr_deriv ?_
  rw [div_eq_mul_inv, ← total_mul_right]
  exact total_congr (fun i _ => by ring)

theorem mseTarget_rank1 {ds : List Nat} {n : Nat} (hd : Dims ds) (h0 : ds.head? = some n) (hp : ds.prod = n)
    (f g : List Nat → ℝ) :
    Loss.mseTarget (ofFn ds f) (ofFn [n] g) = .ok (ofFn ds (fun idx => g [ravel ds idx])) := by
  by_cases hds : ds = [n]
  · subst hds
    rw [mseTarget_same]
    congr 1
    apply ofFn_congr
    intro idx hv
    obtain ⟨i, rfl, _⟩ := valid1_iff.1 hv
    rw [ravel1]
  · unfold Loss.mseTarget
    obtain ⟨d, ds, rfl⟩ : ∃ d ds', ds = d :: ds' := by
      cases ds with
      | nil => simp at h0
      | cons d ds' => exact ⟨d, ds', rfl⟩
    simp only [List.head?_cons, Option.some.injEq] at h0
    subst h0
    simp only [ofFn_shape, beq_shapeOf, hds, decide_false, Bool.not_false, if_true, shapeOf_rank, List.length_cons,
      List.length_nil, get0, Except.bind_ok', shapeOf_dims]
    rw [reshaped_ofFn hd (by simp [hp]), reinterpret_ofFn (by simp [hp])]
    simp only [Except.ok.injEq]
    apply ofFn_congr
    intro idx hv
    rw [reindex_one hp hv]

theorem mseTarget_err {a b : List Nat} (ha : Dims a) (h : a ≠ b)
    (h1 : ¬ (b.length = 1 ∧ a.head? = b.head? ∧ a.prod = b.prod)) (hb : Dims b) (f g : List Nat → ℝ) :
    Loss.mseTarget (ofFn a f) (ofFn b g) = .error .invalidArgument ∨
    Loss.mseTarget (ofFn a f) (ofFn b g) = .error .runtimeError := by
  unfold Loss.mseTarget
  simp only [ofFn_shape, beq_shapeOf, h, decide_false, Bool.not_false, if_true, shapeOf_rank, shapeOf_dims]
  by_cases hl : b.length = 1
  · rw [if_pos hl]
    obtain ⟨n, rfl⟩ := List.length_eq_one_iff.1 hl
    obtain ⟨d, ds, rfl⟩ : ∃ d ds', a = d :: ds' := by
      cases a with
      | nil => exact absurd rfl ha.ne
      | cons d ds' => exact ⟨d, ds', rfl⟩
    simp only [get0, Except.bind_ok']
    by_cases hn : n = d
    · subst hn
      right
      rw [if_pos rfl]
      unfold Tensor.reshaped
      rw [make_dims ha]
      simp only [Except.bind_ok', shapeOf_dims]
      have hi : ∀ x ∈ n :: ds, x < 2 ^ 31 := fun x hx =>
        lt_of_le_of_lt (Nat.le_of_dvd ha.prod_pos (dvd_prod_of_mem hx)) ha.lt
      rw [tensor_reshape_eq]
      unfold Shape.reshape Mut.exec
      rw [reshapeM_eq, reshapeSize_ints ha.pos hi, if_pos ha.lt64]
      have hv : validateDimensions (ints (n :: ds)) = .ok () := by
        have := make_dims ha
        unfold Shape.make at this
        cases hx : validateDimensions (ints (n :: ds)) with
        | ok u => rfl
        | error e => rw [hx] at this; exact absurd this (by simp)
      rw [hv]
      have hne : (ofFn [n] g).shape.size ≠ (n :: ds).prod := by
        intro he
        apply h1
        refine ⟨rfl, rfl, ?_⟩
        simp only [ofFn_shape, shapeOf_size] at he
        exact he.symm
      simp only [if_neg hne]
      rfl
    · left
      rw [if_neg (by exact_mod_cast hn)]
      rfl
  · left
    rw [if_neg hl]
    rfl

/-! ### Cross entropy -/

theorem clamp_eq {eps : ℝ} (x : ℝ) : Loss.clamp eps x = clampTo eps x := by
  have h1 : cmax x eps = max x eps := by
    unfold cmax
    split
    · exact (max_eq_right (by linarith)).symm
    · exact (max_eq_left (by linarith)).symm
  unfold Loss.clamp clampTo cmin
  rw [h1]
  split
  · exact (min_eq_right (by linarith)).symm
  · exact (min_eq_left (by linarith)).symm

theorem clampTo_mem {eps : ℝ} (h1 : eps ≤ 1 / 2) (x : ℝ) : eps ≤ clampTo eps x ∧ clampTo eps x ≤ 1 - eps := by
  unfold clampTo
  refine ⟨le_min (le_max_right _ _) (by linarith), min_le_right _ _⟩

theorem cce_compute_ofFn {b k : Nat} (hd : Dims [b, k]) (eps : ℝ) (p t : List Nat → ℝ) :
    (Loss.crossEntropy eps).compute (ofFn [b, k] p) (ofFn [b, k] t) =
      .ok (ofFn [1] (fun _ => crossEntropy eps b k p t)) := by
  simp only [Loss.compute, ofFn_shape, beq_shapeOf, decide_true, Bool.not_true, Bool.false_eq_true, if_false,
    get0, get1, Except.bind_ok', Except.pure_eq', forI_nat, make_one]
  have : forN b (0 : ℝ) (fun i loss => forN k loss (fun j loss => do
        let x ← (ofFn [b, k] p).at_ [(i : Int), (j : Int)]
        let y ← (ofFn [b, k] t).at_ [(i : Int), (j : Int)]
        Except.ok (loss - y * MathFn.log (Loss.clamp eps x)))) =
      .ok (-(total [b, k] (fun i => t i * Real.log (clampTo eps (p i))))) := by
    refine (forN_indices2 _ _ _ _).trans ?_
    have := foldlM_inv (l := indices [b, k]) (f := fun loss idx => do
        let x ← (ofFn [b, k] p).at_ [((idx.getD 0 0 : Nat) : Int), ((idx.getD 1 0 : Nat) : Int)]
        let y ← (ofFn [b, k] t).at_ [((idx.getD 0 0 : Nat) : Int), ((idx.getD 1 0 : Nat) : Int)]
        Except.ok (loss - y * MathFn.log (Loss.clamp eps x))) (fun (x : ℝ) => x)
      (fun s idx => s + - (t idx * Real.log (clampTo eps (p idx)))) 0 (by
        intro idx hi s
        obtain ⟨i, j, rfl, hi, hj⟩ := valid2_iff.1 (mem_indices.1 hi)
        have hv : ValidIdx [b, k] [i, j] := valid2_iff.2 ⟨i, j, rfl, hi, hj⟩
        have e1 := at_ofFn hd p hv
        have e2 := at_ofFn hd t hv
        simp only [ints_cons, ints_nil] at e1 e2
        simp only [List.getD_cons_zero, List.getD_cons_succ, e1, e2, Except.bind_ok', clamp_eq]
        congr 1)
    refine this.trans ?_
    rw [foldl_add_sum, zero_add, ← total_neg]
    rfl
  rw [this]
  simp only [Except.bind_ok', full_shapeOf]
  unfold crossEntropy
  simp

theorem cce_gradient_ofFn {b k : Nat} (hd : Dims [b, k]) (eps : ℝ) (p t : List Nat → ℝ) :
    (Loss.crossEntropy eps).gradient (ofFn [b, k] p) (ofFn [b, k] t) =
      .ok (ofFn [b, k] (fun i => (clampTo eps (p i) - t i) / (b : ℝ))) := by
  simp only [Loss.gradient, ofFn_shape, beq_shapeOf, decide_true, Bool.not_true, Bool.false_eq_true, if_false,
    get0, get1, Except.bind_ok', forI_nat, zeros_shapeOf]
  have : forN b (ofFn [b, k] (fun _ => (0 : ℝ))) (fun i grad => forN k grad (fun j grad => do
        let x ← (ofFn [b, k] p).at_ [(i : Int), (j : Int)]
        let y ← (ofFn [b, k] t).at_ [(i : Int), (j : Int)]
        grad.setAt [(i : Int), (j : Int)] (Loss.clamp eps x - y))) =
      .ok (ofFn [b, k] (fun i => clampTo eps (p i) - t i)) := by
    refine (forN_indices2 _ _ _ _).trans ?_
    apply foldlM_fill
    intro idx hv f
    obtain ⟨i, j, rfl, hi, hj⟩ := valid2_iff.1 hv
    have e1 := at_ofFn hd p hv
    have e2 := at_ofFn hd t hv
    have e3 := fun w => setAt_ofFn hd f hv w
    simp only [ints_cons, ints_nil] at e1 e2 e3
    simp only [List.getD_cons_zero, List.getD_cons_succ, e1, e2, e3, Except.bind_ok', clamp_eq]
  rw [this]
  simp only [Except.bind_ok']
  have hb : (b : ℝ) ≠ 0 := by
    have := hd.pos b (by simp)
    positivity
  have := divScalar_ofFn [b, k] (fun i => clampTo eps (p i) - t i) hb
  simpa using this

end SmartDNN
