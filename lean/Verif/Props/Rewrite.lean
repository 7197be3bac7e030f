import Verif.Proofs.Rewrite
import Verif.Props.Linear
import Verif.Props.Rising

/-!
# C109: rewriting a model without changing its answers
-/

namespace SmartDNN
open Net Spec

/-- Interchangeable layers may be exchanged anywhere in a model: if the layers before them only hand over tensors of the dimensions
concerned, the prediction is the same, exceptions included. -/
theorem C109_replace {ρ T : Type} [Zero T] [One T] [Add T] [Sub T] [Mul T] [Div T] [Neg T] [NatCast T] [IntCast T]
    [LT T] [DecidableLT T] [LE T] [DecidableLE T] [DecidableEq T] [MathFn T] (E : Engine ρ T) {ds : List Nat} {mid mid' pre post : List (Layer T)}
    (h : Interchangeable E ds mid mid') (net : Net ρ T) {x : Tensor T}
    (hx : ∀ y, (Net.predict E x { net with layers := pre }).1 = .ok y → ∃ f, y = ofFn ds f) :
    (Net.predict E x { net with layers := pre ++ mid ++ post }).1 = (Net.predict E x { net with layers := pre ++ mid' ++ post }).1 := by
  have := congrArg Prod.fst (replace_middle E h (post := post) hx)
  exact this

variable {ρ : Type} (E : Engine ρ ℝ)

/-- Two dense layers with no activation between them are one dense layer: its weights are the product of the weights, its biases what
the second layer makes of the biases of the first. -/
theorem C109_dense_dense {r n k m : Nat} (hk : Dims [r, k]) (hm : Dims [r, m]) (hnm : Dims [n, m]) {w1 b1 w2 b2 : List Nat → ℝ}
    {w b : Tensor ℝ} (hw : (ofFn [n, k] w1).matmul (ofFn [k, m] w2) = .ok w)
    (hb : FC.affine (ofFn [k, m] w2) (ofFn [1, m] b2) (ofFn [1, k] b1) = .ok b) :
    Interchangeable E [r, n] [denseLayer (ofFn [n, k] w1) (ofFn [1, k] b1), denseLayer (ofFn [k, m] w2) (ofFn [1, m] b2)] [denseLayer w b] := by
  intro f e
  have h1 : Dims [1, m] := ⟨by simp, by simpa using hnm.pos m (by simp), by
    have := hnm.lt
    have hn : 0 < n := hnm.pos n (by simp)
    simp only [List.prod_cons, List.prod_nil, mul_one, one_mul] at this ⊢
    nlinarith⟩
  rw [C15_product n k m hnm] at hw
  rw [fc_affine_batch h1] at hb
  cases hw
  cases hb
  rw [answer_dense E _ _ (fc_affine_batch hk _ _ _), answer_dense E _ _ (fc_affine_batch hm _ _ _), answer_dense E _ _ (fc_affine_batch hm _ _ _)]
  congr 1
  refine ofFn_congr fun idx hi => ?_
  unfold denseRow
  simp only [dot_eq_sum, List.getD_cons_zero, List.getD_cons_succ]
  simp only [Finset.sum_mul, Finset.mul_sum, add_mul, Finset.sum_add_distrib]
  rw [Finset.sum_comm, add_assoc]
  congr 1
  exact Finset.sum_congr rfl fun _ _ => Finset.sum_congr rfl fun _ _ => by ring

/-- A batch normalisation in evaluation mode after a dense layer can be folded into it. -/
theorem C109_batch_norm {r n m : Nat} (hm : Dims [r, m]) (w b γ β μ v : List Nat → ℝ) (l : BatchNorm ℝ) (hγ : l.gamma = ofFn [1, m] γ)
    (hβ : l.beta = ofFn [1, m] β) (hμ : l.runningMean = ofFn [1, m] μ) (hv : l.runningVariance = ofFn [1, m] v) :
    Interchangeable E [r, n] [denseLayer (ofFn [n, m] w) (ofFn [1, m] b), ⟨.batchNorm l, false⟩]
      [denseLayer (ofFn [n, m] fun i => w i * (γ [0, i.getD 1 0] / Real.sqrt (v [0, i.getD 1 0] + l.epsilon)))
        (ofFn [1, m] fun i => (b i - μ i) * (γ i / Real.sqrt (v i + l.epsilon)) + β i)] := by
  intro f e
  rw [answer_dense E _ _ (fc_affine_batch hm _ _ _), answer_dense E _ _ (fc_affine_batch hm _ _ _)]
  refine (answer_step (l' := ⟨.batchNorm l, false⟩) (r' := e) (y := ofFn [r, m] fun i => (denseRow n w b f i - μ [0, i.getD 1 0]) /
    Real.sqrt (v [0, i.getD 1 0] + l.epsilon) * γ [0, i.getD 1 0] + β [0, i.getD 1 0]) E ?_).trans ?_
  · show ((BatchNorm.forward false (ofFn [r, m] (denseRow n w b f)) l).1, (⟨.batchNorm (BatchNorm.forward false (ofFn [r, m] (denseRow n w b f)) l).2, false⟩ : Layer ℝ), e) = _
    rw [bn_eval_fold (.two r) hm l γ β μ v (denseRow n w b f) hγ hβ hμ hv]
    rfl
  · congr 1
    refine ofFn_congr fun idx hi => ?_
    unfold denseRow
    simp only [dot_eq_sum, List.getD_cons_zero, List.getD_cons_succ]
    rw [show ∀ (a s c d : ℝ), (a + c - d) / s * γ [0, idx.getD 1 0] = a * (γ [0, idx.getD 1 0] / s) + (c - d) * (γ [0, idx.getD 1 0] / s) from fun a s c d => by ring,
      Finset.sum_mul, add_assoc]
    congr 1
    exact Finset.sum_congr rfl fun _ _ => by ring

/-- Hidden units may be rescaled: if the weights into hidden unit `j` and its bias are multiplied by `c j > 0` and the weights out of it
divided by `c j`, a network with ReLU or leaky ReLU between two dense layers answers the same. -/
theorem C109_rescale {r n k m : Nat} (hk : Dims [r, k]) (hm : Dims [r, m]) (w1 b1 w2 b2 : List Nat → ℝ) {c : Nat → ℝ} (hc : ∀ j, 0 < c j)
    {a : Act ℝ} (ha : a = .relu ∨ ∃ α, a = .leakyRelu α) :
    Interchangeable E [r, n] [denseLayer (ofFn [n, k] w1) (ofFn [1, k] b1), actLayer a, denseLayer (ofFn [k, m] w2) (ofFn [1, m] b2)]
      [denseLayer (ofFn [n, k] fun i => w1 i * c (i.getD 1 0)) (ofFn [1, k] fun i => b1 i * c (i.getD 1 0)), actLayer a,
        denseLayer (ofFn [k, m] fun i => w2 i / c (i.getD 0 0)) (ofFn [1, m] b2)] := by
  obtain ⟨φ, hφ, hs⟩ : ∃ φ : ℝ → ℝ, (∀ t, a.forward t = t.map φ) ∧ ∀ z d, 0 < d → φ (z * d) = φ z * d := by
    rcases ha with rfl | ⟨α, rfl⟩
    · refine ⟨fun v => cmax 0 v, fun t => rfl, fun z d hd => ?_⟩
      simp only [cmax, mul_pos_iff_of_pos_right hd]
      split <;> simp
    · refine ⟨fun v => if 0 < v then v else α * v, fun t => rfl, fun z d hd => ?_⟩
      simp only [mul_pos_iff_of_pos_right hd]
      split <;> ring
  intro f e
  have act : ∀ g : List Nat → ℝ, a.forward (ofFn [r, k] g) = .ok (ofFn [r, k] fun i => φ (g i)) := fun g => by rw [hφ, map_ofFn]
  rw [answer_dense E _ _ (fc_affine_batch hk _ _ _), answer_dense E _ _ (fc_affine_batch hk _ _ _), answer_act E _ _ (act _), answer_act E _ _ (act _),
    answer_dense E _ _ (fc_affine_batch hm _ _ _), answer_dense E _ _ (fc_affine_batch hm _ _ _)]
  congr 1
  refine ofFn_congr fun idx hi => ?_
  unfold denseRow
  simp only [dot_eq_sum, List.getD_cons_zero, List.getD_cons_succ]
  congr 1
  refine Finset.sum_congr rfl fun j _ => ?_
  rw [show ∑ x ∈ Finset.range n, f [idx.getD 0 0, x] * (w1 [x, j] * c j) + b1 [0, j] * c j = (∑ x ∈ Finset.range n, f [idx.getD 0 0, x] * w1 [x, j] + b1 [0, j]) * c j by
    rw [add_mul, Finset.sum_mul]; congr 1; exact Finset.sum_congr rfl fun _ _ => by ring, hs _ _ (hc j)]
  have := (hc j).ne'
  field_simp

/-- Dropout in evaluation mode can be left out, whatever it is given, in every arithmetic. -/
theorem C109_dropout {ρ T : Type} [Zero T] [One T] [Add T] [Sub T] [Mul T] [Div T] [Neg T] [NatCast T] [IntCast T]
    [LT T] [DecidableLT T] [LE T] [DecidableLE T] [DecidableEq T] [MathFn T] (E : Engine ρ T) (ds : List Nat) (d : Dropout T) :
    Interchangeable E ds [⟨.dropout d, false⟩] [] := fun _ _ => rfl

/-- ReLU twice is ReLU once. -/
theorem C109_relu_relu (ds : List Nat) : Interchangeable E ds [actLayer .relu, actLayer .relu] [actLayer .relu] := by
  intro f e
  have act : ∀ g : List Nat → ℝ, Act.forward .relu (ofFn ds g) = .ok (ofFn ds fun i => cmax 0 (g i)) := fun g => map_ofFn _ _ _
  rw [answer_act E _ _ (act _), answer_act E _ _ (act _), answer_act E _ _ (act _)]
  congr 1
  refine ofFn_congr fun i _ => ?_
  unfold cmax
  split <;> simp_all

/-- Max pooling and an element-wise activation that never decreases can change places, as long as nothing is below the layer's minus
infinity. -/
theorem C109_pool {n c h w p s : Nat} (hd : Dims [n, c, h, w]) (hp : 0 < p) (hs : 0 < s) (hph : p ≤ h) (hpw : p ≤ w) {a : Act ℝ} (ha : RisingAct a)
    {ninf : ℝ} {f g : List Nat → ℝ} (hf : ∀ i, ninf ≤ f i) (hg : ∀ i, ninf ≤ g i) (hfg : a.forward (ofFn [n, c, h, w] f) = .ok (ofFn [n, c, h, w] g)) (r : ρ) :
    answer E [actLayer a, ⟨.maxPool ⟨p, s, 0, ninf, none⟩, true⟩] (ofFn [n, c, h, w] f) r =
      answer E [⟨.maxPool ⟨p, s, 0, ninf, none⟩, true⟩, actLayer a] (ofFn [n, c, h, w] f) r := by
  obtain ⟨φ, hφ, hm⟩ := rising_fn ha
  obtain ⟨m, e1, h1⟩ := C40_window_max hd hp hs (.inl hph) (.inl hpw) f ninf (fun i _ => hf i) none
  obtain ⟨m', e2, h2⟩ := C40_window_max hd hp hs (.inl hph) (.inl hpw) g ninf (fun i _ => hg i) none
  have hgf : ∀ i, ValidIdx [n, c, h, w] i → g i = φ (f i) := by
    intro i hi
    rw [hφ, map_ofFn] at hfg
    exact ofFn_inj (Except.ok.inj hfg).symm hi
  rw [answer_act E _ _ hfg]
  rw [answer_step (l' := ⟨.maxPool ⟨p, s, 0, ninf, some (ofFn [n, c, h, w] g)⟩, true⟩) (r' := r) (y := _) E (by
      show ((MaxPool.forward (ofFn [n, c, h, w] g) ⟨p, s, 0, ninf, none⟩).1, (⟨.maxPool (MaxPool.forward (ofFn [n, c, h, w] g) ⟨p, s, 0, ninf, none⟩).2, true⟩ : Layer ℝ), r) = _
      rw [e2]),
    answer_step (l' := ⟨.maxPool ⟨p, s, 0, ninf, some (ofFn [n, c, h, w] f)⟩, true⟩) (r' := r) (y := _) E (by
      show ((MaxPool.forward (ofFn [n, c, h, w] f) ⟨p, s, 0, ninf, none⟩).1, (⟨.maxPool (MaxPool.forward (ofFn [n, c, h, w] f) ⟨p, s, 0, ninf, none⟩).2, true⟩ : Layer ℝ), r) = _
      rw [e1]),
    answer_act E _ _ (by rw [hφ, map_ofFn])]
  congr 1
  refine ofFn_congr fun idx hv => ?_
  obtain ⟨i, j, oh, ow, rfl⟩ : ∃ i j oh ow, idx = [i, j, oh, ow] := by
    rcases hv with _ | ⟨_, _ | ⟨_, _ | ⟨_, _ | ⟨_, _ | _⟩⟩⟩⟩
    exact ⟨_, _, _, _, rfl⟩
  obtain ⟨⟨y, x, hw1, ey⟩, u1⟩ := h1 i j oh ow hv
  obtain ⟨⟨y', x', hw2, ey'⟩, u2⟩ := h2 i j oh ow hv
  have inside : ∀ y x, InWindow p s h w oh ow y x → ValidIdx [n, c, h, w] [i, j, y, x] := fun y x hw => by
    rcases hv with _ | ⟨v1, _ | ⟨v2, _⟩⟩
    exact List.Forall₂.cons v1 (List.Forall₂.cons v2 (List.Forall₂.cons hw.2.2.1 (List.Forall₂.cons hw.2.2.2.2.2 .nil)))
  refine le_antisymm ?_ ?_
  · have e := hgf _ (inside _ _ hw2)
    dsimp only at ey'
    rw [← ey', e]
    exact hm _ _ (u1 _ _ hw2)
  · have e := hgf _ (inside _ _ hw1)
    dsimp only at ey
    rw [← ey, ← e]
    exact u2 _ _ hw1

/-- A network without biases, with ReLU and leaky ReLU only: `c` times the input gives `c` times the answer, for every `c ≥ 0`. -/
theorem C109_homogeneous {net : Net ρ ℝ} (h : ∀ l ∈ net.layers, Homogeneous l) {c : ℝ} (hc : 0 ≤ c) {x x' : Tensor ℝ}
    (hx : Twin (fun a b => b = c * a) x x') : SameOutcome (Twin fun a b => b = c * a) (Net.predict E x net).1 (Net.predict E x' net).1 :=
  homogeneous_layers E hc net.layers h hx net.rng net.rng

/-! ### The hypotheses are met -/

/-- Layers 4 → 3 → 2 on batches of five rows: the product of the weights and the new biases exist. -/
example (w1 b1 w2 b2 : List Nat → ℝ) : ∃ w b, (ofFn [4, 3] w1).matmul (ofFn [3, 2] w2) = .ok w ∧
    FC.affine (ofFn [3, 2] w2) (ofFn [1, 2] b2) (ofFn [1, 3] b1) = .ok b ∧ Dims [5, 3] ∧ Dims [5, 2] ∧ Dims [4, 2] :=
  ⟨_, _, C15_product 4 3 2 ⟨by simp, by simp, by norm_num⟩ _ _, fc_affine_batch (b := 1) ⟨by simp, by simp, by norm_num⟩ _ _ _,
    ⟨by simp, by simp, by norm_num⟩, ⟨by simp, by simp, by norm_num⟩, ⟨by simp, by simp, by norm_num⟩⟩

/-- A network without biases: two dense layers, leaky ReLU and ReLU. -/
example (w1 w2 : List Nat → ℝ) : ∀ l ∈ [denseLayer (ofFn [4, 3] w1) (ofFn [1, 3] fun _ => 0), actLayer (.leakyRelu 1),
    denseLayer (ofFn [3, 2] w2) (ofFn [1, 2] fun _ => 0), actLayer .relu], Homogeneous l := by
  have z : ∀ ds, ∀ v ∈ (ofFn ds fun _ => (0 : ℝ)).data, v = 0 := by
    intro ds v hv
    obtain ⟨i, -, rfl⟩ := List.mem_map.1 hv
    rfl
  intro l hl
  simp only [List.mem_cons, List.not_mem_nil, or_false] at hl
  rcases hl with rfl | rfl | rfl | rfl
  · exact z _
  · exact .inr ⟨_, rfl⟩
  · exact z _
  · exact .inl rfl

/-- ReLU and pooling: images above -1 with minus infinity at -10. -/
example (f : List Nat → ℝ) (hf : ∀ i, -1 ≤ f i) : (∀ i, -10 ≤ f i) ∧ (∀ i, -10 ≤ cmax 0 (f i)) ∧ RisingAct (T := ℝ) .relu ∧
    Act.forward .relu (ofFn [1, 1, 4, 4] f) = .ok (ofFn [1, 1, 4, 4] fun i => cmax 0 (f i)) :=
  ⟨fun i => by linarith [hf i], fun i => by unfold cmax; split <;> linarith, C105_activations.1, map_ofFn _ _ _⟩

end SmartDNN
