import Verif.Proofs.IeeeRange
import Verif.Proofs.Losses
import Verif.Proofs.Dense
import Verif.Proofs.Elementwise
import Verif.Props.UpdateWeights

/-! NaN in floating-point operations, sums, activations, losses, optimizers. -/

namespace SmartDNN
open Spec

namespace Spec.Ieee
variable {R : Format}

theorem nan_add (a : Ieee R) : .nan + a = .nan := by cases a <;> rfl
theorem add_nan (a : Ieee R) : a + .nan = .nan := by cases a <;> rfl
theorem nan_sub (a : Ieee R) : .nan - a = .nan := by cases a <;> rfl
theorem sub_nan (a : Ieee R) : a - .nan = .nan := by cases a <;> rfl
theorem nan_mul (a : Ieee R) : .nan * a = .nan := by cases a <;> rfl
theorem mul_nan (a : Ieee R) : a * .nan = .nan := by cases a <;> rfl
theorem nan_div (a : Ieee R) : .nan / a = .nan := by cases a <;> rfl
theorem div_nan (a : Ieee R) : a / .nan = .nan := by cases a <;> rfl
theorem neg_nan : -(.nan : Ieee R) = .nan := rfl
theorem not_nan_lt (a : Ieee R) : ¬ (.nan : Ieee R) < a := by cases a <;> exact id
theorem not_lt_nan (a : Ieee R) : ¬ a < (.nan : Ieee R) := by cases a <;> exact id

theorem foldl_nan {α : Type} (g : Ieee R → α → Ieee R) (h1 : ∀ y, g .nan y = .nan) (l : List α) : l.foldl g .nan = .nan := by
  induction l with
  | nil => rfl
  | cons y l ih => rw [List.foldl_cons, h1, ih]

theorem foldl_hits_nan {α : Type} (g : Ieee R → α → Ieee R) (h1 : ∀ y, g .nan y = .nan) {l : List α} {y : α} (hy : y ∈ l)
    (h2 : ∀ a, g a y = .nan) (a : Ieee R) : l.foldl g a = .nan := by
  induction l generalizing a with
  | nil => cases hy
  | cons z l ih =>
    rw [List.foldl_cons]
    rcases List.mem_cons.1 hy with rfl | hy
    · rw [h2, foldl_nan g h1]
    · exact ih hy _

theorem lsum_nan {l : List (Ieee R)} (h : .nan ∈ l) : lsum l = .nan :=
  foldl_hits_nan (· + ·) nan_add h add_nan _

theorem dot_nan {k : Nat} {x y : Nat → Ieee R} {p : Nat} (hp : p < k) (h : x p = .nan ∨ y p = .nan) : dot k x y = .nan := by
  refine lsum_nan (List.mem_map.2 ⟨p, List.mem_range.2 hp, ?_⟩)
  rcases h with h | h <;> rw [h]
  · exact nan_mul _
  · exact mul_nan _

theorem natCast_ne_zero {n : Nat} (h : 0 < n) : (n : Ieee R) ≠ 0 := by
  intro hc
  have h1 : (1 : ℝ) ≤ R.rd n := by
    have := R.mono (show (1 : ℝ) ≤ n by exact_mod_cast h)
    rwa [R.one] at this
  change ofReal R (n : ℝ) = _ at hc
  rw [zero_def] at hc
  rcases ofReal_cases R (n : ℝ) with ⟨a, b⟩ | a
  · rw [hc] at b
    change 0 = R.rd n at b
    linarith
  · rw [a] at hc
    cases hc

theorem intCast_ne_zero {n : Nat} (h : 0 < n) : ((n : Int) : Ieee R) ≠ 0 := by
  have : ((n : Int) : Ieee R) = (n : Ieee R) := by
    show ofReal R (((n : Int) : ℝ)) = ofReal R (n : ℝ)
    rw [Int.cast_natCast]
  rw [this]
  exact natCast_ne_zero h

end Spec.Ieee

open Ieee
variable {R : Format} [MathFn (Ieee R)]

theorem nan_mem_ofFn {ds : List Nat} {f : List Nat → Ieee R} : .nan ∈ (ofFn ds f).data ↔ ∃ i, ValidIdx ds i ∧ f i = .nan := by
  rw [ofFn_data, List.mem_map]
  simp only [mem_indices]

theorem all_nan_ofFn {ds : List Nat} {f : List Nat → Ieee R} : (∀ v ∈ (ofFn ds f).data, v = .nan) ↔ ∀ i, ValidIdx ds i → f i = .nan := by
  rw [ofFn_data]
  simp only [List.mem_map, mem_indices]
  constructor
  · exact fun h i hi => h _ ⟨i, hi, rfl⟩
  · rintro h v ⟨i, hi, rfl⟩
    exact h i hi

/-! ### Activations -/

/-- The activations that keep NaN. -/
def Spec.KeepsNan : Act (Ieee R) → Prop
  | .relu => False
  | _ => True

theorem sig_nan (L : Libm R) : Act.sig (.nan : Ieee R) = .nan := by
  unfold Act.sig
  rw [neg_nan, L.exp_nan, add_nan, div_nan]

theorem rowSum_nan (L : Libm R) {ds : List Nat} {f : List Nat → Ieee R} {b : Nat} {y : List Nat} (hy : ValidIdx ds y)
    (h : f (b :: y) = .nan) : rowSum ds f b = .nan := by
  unfold rowSum
  refine lsum_nan (List.mem_map.2 ⟨y, mem_indices.2 hy, ?_⟩)
  rw [h, nan_sub, L.exp_nan]

/-- Elementwise activations: NaN stays where it is. -/
theorem act_nan (L : Libm R) (a : Act (Ieee R)) (ha : a ≠ .softmax) (hk : KeepsNan a) (ds : List Nat) (f : List Nat → Ieee R) :
    ∃ g, a.forward (ofFn ds f) = .ok (ofFn ds g) ∧ ∀ i, f i = .nan → g i = .nan := by
  cases a with
  | relu => exact hk.elim
  | leakyRelu alpha =>
    refine ⟨_, map_ofFn ds f _, fun i hi => ?_⟩
    beta_reduce
    rw [hi, if_neg (not_lt_nan _), mul_nan]
  | sigmoid =>
    refine ⟨_, map_ofFn ds f _, fun i hi => ?_⟩
    beta_reduce
    rw [hi, L.toFloat_nan, sig_nan L]
  | tanh =>
    refine ⟨_, map_ofFn ds f _, fun i hi => ?_⟩
    beta_reduce
    rw [hi, nan_mul, L.exp_nan, nan_sub, nan_div]
  | swish =>
    refine ⟨_, map_ofFn ds f _, fun i hi => ?_⟩
    beta_reduce
    rw [hi, nan_mul]
  | mish =>
    refine ⟨_, map_ofFn ds f _, fun i hi => ?_⟩
    beta_reduce
    rw [hi, nan_mul]
  | softmax => exact absurd rfl ha

/-- Softmax: one NaN makes its row NaN. -/
theorem softmax_nan (L : Libm R) {d : Nat} {ds : List Nat} (hd : Dims (d :: ds)) (hne : ds ≠ []) (f : List Nat → Ieee R) :
    ∃ g, Act.softmax.forward (ofFn (d :: ds) f) = .ok (ofFn (d :: ds) g) ∧
      ∀ b x y, ValidIdx ds y → f (b :: y) = .nan → g (b :: x) = .nan := by
  refine ⟨_, softmaxForward_ofFn hd hne f, fun b x y hy h => ?_⟩
  simp only [List.headD_cons]
  rw [rowSum_nan L hy h, div_nan]

/-- A NaN gradient stays NaN, through every elementwise activation. -/
theorem act_back_nan {ds : List Nat} (hd : Dims ds) (a : Act (Ieee R)) (ha : a ≠ .softmax) (f g : List Nat → Ieee R) :
    ∃ z, a.backward (ofFn ds f) (ofFn ds g) = .ok (ofFn ds z) ∧ ∀ i, g i = .nan → z i = .nan := by
  cases a with
  | relu =>
    refine ⟨fun i => (if 0 < f i then 1 else 0) * g i, ?_, fun i hi => by beta_reduce; rw [hi, mul_nan]⟩
    simp only [Act.backward, Tensor.apply]
    rw [map_ofFn]
    simp only [Except.bind_ok', mul_same hd]
  | leakyRelu alpha =>
    refine ⟨_, applyPair_ofFn ds f g _, fun i hi => ?_⟩
    beta_reduce
    rw [hi]
    split
    · rfl
    · exact mul_nan _
  | sigmoid =>
    refine ⟨fun i => Act.sig (MathFn.toFloat (f i)) * (Act.sig (MathFn.toFloat (f i)) * (-1) + 1) * g i, ?_,
      fun i hi => by beta_reduce; rw [hi, mul_nan]⟩
    simp only [Act.backward, Act.forward, Tensor.apply]
    rw [map_ofFn]
    simp only [Except.bind_ok', scalarSub_ofFn, mul_same hd]
  | tanh =>
    refine ⟨fun i => (1 - MathFn.tanh (f i) * MathFn.tanh (f i)) * g i, ?_, fun i hi => by beta_reduce; rw [hi, mul_nan]⟩
    simp only [Act.backward, Tensor.apply]
    rw [map_ofFn]
    simp only [Except.bind_ok', mul_same hd]
  | swish => exact ⟨_, applyPair_ofFn ds f g _, fun i hi => by beta_reduce; rw [hi, nan_mul]⟩
  | mish => exact ⟨_, applyPair_ofFn ds f g _, fun i hi => by beta_reduce; rw [hi, nan_mul]⟩
  | softmax => exact absurd rfl ha

theorem softmax_back_nan {d : Nat} {ds : List Nat} (hd : Dims (d :: ds)) (hne : ds ≠ []) (f g : List Nat → Ieee R) :
    ∃ z, Act.softmax.backward (ofFn (d :: ds) f) (ofFn (d :: ds) g) = .ok (ofFn (d :: ds) z) ∧
      ∀ b x y, ValidIdx ds y → g (b :: y) = .nan → z (b :: x) = .nan := by
  refine ⟨_, softmaxBackward_ofFn hd hne f g, fun b x y hy h => ?_⟩
  change rowGrad ds _ g b x = .nan
  unfold rowGrad
  refine foldl_hits_nan _ (fun y => ?_) (mem_indices.2 hy) (fun a => ?_) _
  · split
    · exact nan_add _
    · exact nan_sub _
  · rw [h]
    split
    · rw [mul_nan, add_nan]
    · rw [mul_nan, sub_nan]

/-! ### Losses -/

theorem mse_nan {ds : List Nat} (hd : Dims ds) (p t : List Nat → Ieee R) :
    ∃ v g, Loss.mse.compute (ofFn ds p) (ofFn ds t) = .ok (ofFn [1] fun _ => v) ∧
      Loss.mse.gradient (ofFn ds p) (ofFn ds t) = .ok (ofFn ds g) ∧
      (∀ i, ValidIdx ds i → p i = .nan ∨ t i = .nan → v = .nan ∧ g i = .nan) := by
  have ht : Loss.mseTarget (ofFn ds p) (ofFn ds t) = .ok (ofFn ds t) := by
    unfold Loss.mseTarget
    simp only [ofFn_shape, beq_shapeOf, decide_true]
    rfl
  have hz : ((ds.prod : Nat) : Ieee R) ≠ 0 := natCast_ne_zero hd.prod_pos
  refine ⟨lsum ((indices ds).map fun i => (p i - t i) * (p i - t i)) / (ds.prod : Ieee R),
    fun i => (p i - t i) * ((2 : Nat) : Ieee R) / (ds.prod : Ieee R), ?_, ?_, fun i hi h => ?_⟩
  · simp only [Loss.compute, ht, Except.bind_ok', sub_same hd, mul_same hd, sumAll_ofFn, ofFn_shape, shapeOf_size]
    rw [divScalar_ofFn _ _ hz]
  · simp only [Loss.gradient, ht, Except.bind_ok', sub_same hd, mulScalar_ofFn, ofFn_shape, shapeOf_size]
    rw [divScalar_ofFn _ _ hz]
  · have hn : p i - t i = .nan := by
      rcases h with h | h <;> rw [h]
      · exact nan_sub _
      · exact sub_nan _
    constructor
    · rw [lsum_nan (List.mem_map.2 ⟨i, mem_indices.2 hi, by rw [hn, mul_nan]⟩), nan_div]
    · beta_reduce
      rw [hn, nan_mul, nan_div]

theorem clamp_nan (eps : Ieee R) : Loss.clamp eps .nan = .nan := by
  unfold Loss.clamp cmin cmax
  rw [if_neg (not_nan_lt _), if_neg (not_lt_nan _)]

theorem cce_nan (L : Libm R) {b k : Nat} (hd : Dims [b, k]) (eps : Ieee R) (p t : List Nat → Ieee R) :
    ∃ v g, (Loss.crossEntropy eps).compute (ofFn [b, k] p) (ofFn [b, k] t) = .ok (ofFn [1] fun _ => v) ∧
      (Loss.crossEntropy eps).gradient (ofFn [b, k] p) (ofFn [b, k] t) = .ok (ofFn [b, k] g) ∧
      (∀ i, ValidIdx [b, k] i → p i = .nan ∨ t i = .nan → v = .nan ∧ g i = .nan) := by
  have hb : ((b : Int) : Ieee R) ≠ 0 := intCast_ne_zero (hd.pos b (by simp))
  refine ⟨(indices [b, k]).foldl (fun s i => s - t i * MathFn.log (Loss.clamp eps (p i))) 0 / ((b : Int) : Ieee R),
    fun i => (Loss.clamp eps (p i) - t i) / ((b : Int) : Ieee R), ?_, ?_, fun i hi h => ?_⟩
  · simp only [Loss.compute, ofFn_shape, beq_shapeOf, decide_true, Bool.not_true, Bool.false_eq_true, if_false,
      get0, get1, Except.bind_ok', Except.pure_eq', forI_nat, make_one]
    have : forN b (0 : Ieee R) (fun i loss => forN k loss (fun j loss => do
          let x ← (ofFn [b, k] p).at_ [(i : Int), (j : Int)]
          let y ← (ofFn [b, k] t).at_ [(i : Int), (j : Int)]
          Except.ok (loss - y * MathFn.log (Loss.clamp eps x)))) =
        .ok ((indices [b, k]).foldl (fun s i => s - t i * MathFn.log (Loss.clamp eps (p i))) 0) := by
      refine (forN_indices2 _ _ _ _).trans ?_
      refine foldlM_inv (l := indices [b, k]) (f := fun loss idx => do
          let x ← (ofFn [b, k] p).at_ [((idx.getD 0 0 : Nat) : Int), ((idx.getD 1 0 : Nat) : Int)]
          let y ← (ofFn [b, k] t).at_ [((idx.getD 0 0 : Nat) : Int), ((idx.getD 1 0 : Nat) : Int)]
          Except.ok (loss - y * MathFn.log (Loss.clamp eps x))) (fun (x : Ieee R) => x)
        (fun s i => s - t i * MathFn.log (Loss.clamp eps (p i))) 0 (by
          intro idx hi s
          obtain ⟨i, j, rfl, hi, hj⟩ := valid2_iff.1 (mem_indices.1 hi)
          have hv : ValidIdx [b, k] [i, j] := valid2_iff.2 ⟨i, j, rfl, hi, hj⟩
          have e1 := at_ofFn hd p hv
          have e2 := at_ofFn hd t hv
          simp only [ints_cons, ints_nil] at e1 e2
          simp only [List.getD_cons_zero, List.getD_cons_succ, e1, e2, Except.bind_ok'])
    rw [this]
    simp only [Except.bind_ok', full_shapeOf]
  · simp only [Loss.gradient, ofFn_shape, beq_shapeOf, decide_true, Bool.not_true, Bool.false_eq_true, if_false,
      get0, get1, Except.bind_ok', forI_nat, zeros_shapeOf]
    have : forN b (ofFn [b, k] (fun _ => (0 : Ieee R))) (fun i grad => forN k grad (fun j grad => do
          let x ← (ofFn [b, k] p).at_ [(i : Int), (j : Int)]
          let y ← (ofFn [b, k] t).at_ [(i : Int), (j : Int)]
          grad.setAt [(i : Int), (j : Int)] (Loss.clamp eps x - y))) =
        .ok (ofFn [b, k] (fun i => Loss.clamp eps (p i) - t i)) := by
      refine (forN_indices2 _ _ _ _).trans ?_
      apply foldlM_fill
      intro idx hv f
      obtain ⟨i, j, rfl, hi, hj⟩ := valid2_iff.1 hv
      have e1 := at_ofFn hd p hv
      have e2 := at_ofFn hd t hv
      have e3 := fun w => setAt_ofFn hd f hv w
      simp only [ints_cons, ints_nil] at e1 e2 e3
      simp only [List.getD_cons_zero, List.getD_cons_succ, e1, e2, e3, Except.bind_ok']
    rw [this]
    simp only [Except.bind_ok']
    exact divScalar_ofFn [b, k] (fun i => Loss.clamp eps (p i) - t i) hb
  · have hm : t i * MathFn.log (Loss.clamp eps (p i)) = .nan := by
      rcases h with h | h <;> rw [h]
      · rw [clamp_nan, L.log_nan, mul_nan]
      · exact nan_mul _
    constructor
    · rw [foldl_hits_nan (fun s i => s - t i * MathFn.log (Loss.clamp eps (p i))) (fun y => nan_sub _) (mem_indices.2 hi)
        (fun a => by beta_reduce; rw [hm, sub_nan]), nan_div]
    · beta_reduce
      rcases h with h | h <;> rw [h]
      · rw [clamp_nan, nan_sub, nan_div]
      · rw [sub_nan, nan_div]

/-! ### Optimizers -/

theorem sgdCell_nan (o : SGDOptions (Ieee R)) (lr g : Ieee R) (s : Ieee R × Ieee R) (h : s.1 = .nan ∨ g = .nan) :
    (sgdCell o lr g s).1 = .nan := by
  unfold sgdCell
  rcases h with h | h
  · rw [h]
    dsimp only
    by_cases hm : o.momentum ≠ 0
    · rw [if_pos hm]; exact nan_sub _
    · rw [if_neg hm]; exact nan_sub _
  · subst h
    simp only [mul_nan, add_nan, nan_add, ite_self, sub_nan]
    by_cases hm : o.momentum ≠ 0
    · rw [if_pos hm]
    · rw [if_neg hm]

theorem rmsCell_nan (o : RMSPropOptions (Ieee R)) (lr g : Ieee R) (s : Ieee R × Ieee R × Ieee R × Ieee R) (h : s.1 = .nan ∨ g = .nan) :
    (rmsCell o lr g s).1 = .nan := by
  unfold rmsCell
  rcases h with h | h
  · rw [h]
    exact nan_sub _
  · subst h
    simp only [nan_div, add_nan, nan_add, ite_self, mul_nan]
    by_cases hm : 0 < o.momentum
    · rw [if_pos hm, if_pos hm, mul_nan, sub_nan]
    · rw [if_neg hm, mul_nan, sub_nan]

theorem adamCell_nan (o : AdamOptions (Ieee R)) (lr : Ieee R) (it : Nat) (g : Ieee R) (s : Ieee R × Ieee R × Ieee R)
    (h : s.1 = .nan ∨ g = .nan) : (adamCell o lr it g s).1 = .nan := by
  unfold adamCell Adam.updateParameter
  rcases h with h | h
  · rw [h]
    exact nan_sub _
  · subst h
    simp only [nan_div, mul_nan, add_nan, nan_add, ite_self, sub_nan]

/-- The state the optimizer keeps for the address `k`, if any, consists of arrays of dimensions `ds`. -/
def Spec.OptAt {K : Type} (opt : Optimizer K (Ieee R)) (k : K) (ds : List Nat) : Prop :=
  let good (m : TMap K (Ieee R)) := ∀ t, m k = some t → ∃ f, t = ofFn ds f
  match opt with
  | .sgd o => good o.momentumBuffers
  | .rmsprop o => good o.squaredGrads ∧ good o.meanGrads ∧ good o.velocityBuffers
  | .adam o => good o.m ∧ good o.v

theorem lookup_at {K : Type} {k : K} {ds : List Nat} {m : TMap K (Ieee R)} (h : ∀ t, m k = some t → ∃ f, t = ofFn ds f) :
    ∃ f, lookupOrZero m k (shapeOf ds) = ofFn ds f := by
  unfold lookupOrZero
  cases hm : m k with
  | none => exact ⟨_, full_shapeOf _ _⟩
  | some t => exact h t hm

theorem assign_at {K : Type} [DecidableEq K] (m : TMap K (Ieee R)) (k : K) (ds : List Nat) (f : List Nat → Ieee R) :
    ∀ t, assign m k (some (ofFn ds f)) k = some t → ∃ f, t = ofFn ds f := by
  intro t ht
  unfold assign at ht
  rw [if_pos rfl] at ht
  exact ⟨f, (Option.some.inj ht).symm⟩

theorem assign_other {K : Type} [DecidableEq K] {m : TMap K (Ieee R)} {k k' : K} (hk : k' ≠ k) {ds : List Nat} (v : Option (Tensor (Ieee R)))
    (h : ∀ t, m k' = some t → ∃ f, t = ofFn ds f) : ∀ t, assign m k v k' = some t → ∃ f, t = ofFn ds f := by
  intro t ht
  rw [assign_ne _ _ hk] at ht
  exact h t ht

theorem stepPair_nan {K : Type} [DecidableEq K] (r : Ieee R) (w : World K (Ieee R)) (k : K) {ds : List Nat} (f g : List Nat → Ieee R)
    (hf : w.mem k = ofFn ds f) (ho : OptAt w.opt k ds) :
    ∃ w' f', stepPair r w (k, ofFn ds g) = .ok w' ∧ w'.mem k = ofFn ds f' ∧ (∀ i, f i = .nan ∨ g i = .nan → f' i = .nan) ∧
      OptAt w'.opt k ds ∧ ∀ k', k' ≠ k → w'.mem k' = w.mem k' ∧ ∀ es, OptAt w.opt k' es → OptAt w'.opt k' es := by
  obtain ⟨mem, o⟩ := w
  dsimp only at hf ho
  cases o with
  | sgd o =>
    obtain ⟨b, hb⟩ := lookup_at ho
    unfold stepPair SGD.updateTensor
    simp only [hf, ofFn_shape, hb, sgd_loop_ofFn, Except.bind_ok', Except.pure_eq']
    refine ⟨_, _, rfl, if_pos rfl, fun i hi => sgdCell_nan _ _ _ _ hi, assign_at _ _ _ _, fun k' hk => ⟨if_neg hk, fun es h => ?_⟩⟩
    exact assign_other hk _ h
  | rmsprop o =>
    obtain ⟨h1, h2, h3⟩ := ho
    obtain ⟨b1, hb1⟩ := lookup_at h1
    obtain ⟨b2, hb2⟩ := lookup_at h2
    obtain ⟨b3, hb3⟩ := lookup_at h3
    unfold stepPair RMSProp.updateTensor
    simp only [hf, ofFn_shape, hb1, hb2, hb3, rms_loop_ofFn, Except.bind_ok', Except.pure_eq']
    refine ⟨_, _, rfl, if_pos rfl, fun i hi => rmsCell_nan _ _ _ _ hi, ⟨assign_at _ _ _ _, ?_, ?_⟩,
      fun k' hk => ⟨if_neg hk, fun es h => ⟨assign_other hk _ h.1, ?_, ?_⟩⟩⟩
    · dsimp only; split
      · exact assign_at _ _ _ _
      · exact h2
    · dsimp only; split
      · exact assign_at _ _ _ _
      · exact h3
    · dsimp only; split
      · exact assign_other hk _ h.2.1
      · exact h.2.1
    · dsimp only; split
      · exact assign_other hk _ h.2.2
      · exact h.2.2
  | adam o =>
    obtain ⟨h1, h2⟩ := ho
    obtain ⟨b1, hb1⟩ := lookup_at h1
    obtain ⟨b2, hb2⟩ := lookup_at h2
    unfold stepPair Adam.updateTensor
    simp only [hf, ofFn_shape, hb1, hb2, adam_loop_ofFn, Except.bind_ok', Except.pure_eq']
    exact ⟨_, _, rfl, if_pos rfl, fun i hi => adamCell_nan _ _ _ _ _ hi, ⟨assign_at _ _ _ _, assign_at _ _ _ _⟩,
      fun k' hk => ⟨if_neg hk, fun es h => ⟨assign_other hk _ h.1, assign_other hk _ h.2⟩⟩⟩

theorem optimizePair_nan {K : Type} [DecidableEq K] {k0 k1 : K} (hk : k0 ≠ k1) (opt : Optimizer K (Ieee R)) {ds es : List Nat}
    (h0 : OptAt opt k0 ds) (h1 : OptAt opt k1 es) (w b gw gb : List Nat → Ieee R) :
    ∃ w' b' opt', Layer.optimizePair k0 k1 opt (ofFn ds w) (ofFn es b) (ofFn ds gw) (ofFn es gb) = (.ok (), ofFn ds w', ofFn es b', opt') ∧
      (∀ i, w i = .nan ∨ gw i = .nan → w' i = .nan) ∧ (∀ i, b i = .nan ∨ gb i = .nan → b' i = .nan) ∧
      OptAt opt' k0 ds ∧ OptAt opt' k1 es ∧ ∀ k', k' ≠ k0 → k' ≠ k1 → ∀ fs, OptAt opt k' fs → OptAt opt' k' fs := by
  let w0 : World K (Ieee R) := ⟨fun k => if k = k0 then ofFn ds w else ofFn es b, opt⟩
  have hb : ∀ k fs, OptAt opt k fs → OptAt (w0.begin (-1)).opt k fs := by
    intro k fs h
    cases opt <;> exact h
  have m0 : (w0.begin (-1)).mem k0 = ofFn ds w := by rw [begin_mem]; exact if_pos rfl
  have m1 : (w0.begin (-1)).mem k1 = ofFn es b := by rw [begin_mem]; exact if_neg hk.symm
  obtain ⟨wa, f', ea, fa, na, oa, ra⟩ := stepPair_nan (-1) (w0.begin (-1)) k0 w gw m0 (hb _ _ h0)
  obtain ⟨wb, b', eb, fb, nb, ob, rb⟩ := stepPair_nan (-1) wa k1 b gb ((ra k1 hk.symm).1.trans m1) ((ra k1 hk.symm).2 _ (hb _ _ h1))
  have hu : (w0.begin (-1)).updateTensors (-1) [(k0, ofFn ds gw), (k1, ofFn es gb)] = .ok wb := by
    rw [updateTensors_eq, List.foldlM_cons, ea, Except.bind_ok', List.foldlM_cons, eb]
    rfl
  have ho : World.optimizeM ⟨[k0, k1], [ofFn ds gw, ofFn es gb], -1⟩ w0 = (.ok (), wb) := by
    unfold World.optimizeM
    rw [if_neg (by simp)]
    simp only [List.zip_cons_cons, List.zip_nil_left]
    rw [hu]
  refine ⟨f', b', wb.opt, ?_, na, nb, (rb k0 hk).2 _ oa, ob, fun k' e0 e1 fs h => (rb k' e1).2 _ ((ra k' e0).2 _ (hb _ _ h))⟩
  show ((World.optimizeM ⟨[k0, k1], [ofFn ds gw, ofFn es gb], -1⟩ w0).1, (World.optimizeM ⟨[k0, k1], [ofFn ds gw, ofFn es gb], -1⟩ w0).2.mem k0,
    (World.optimizeM ⟨[k0, k1], [ofFn ds gw, ofFn es gb], -1⟩ w0).2.mem k1, (World.optimizeM ⟨[k0, k1], [ofFn ds gw, ofFn es gb], -1⟩ w0).2.opt) = _
  rw [ho]
  simp only [fb, (rb k0 hk).1, fa]

end SmartDNN
