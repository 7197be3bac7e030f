import Verif.Props.Predict
import Verif.Props.Activations
import Verif.Props.Flatten
import Verif.Props.Conv
import Verif.Proofs.Pooling

/-!
# Backward through the model (C54)
-/

namespace SmartDNN
open Net Spec

section
variable {ρ T : Type} [Zero T] [One T] [Add T] [Sub T] [Mul T] [Div T] [Neg T] [NatCast T] [IntCast T]
  [LT T] [DecidableLT T] [LE T] [DecidableLE T] [DecidableEq T] [MathFn T]

/-- Layer `i`, called on `gs (i + 1)`, returns `gs i` and becomes layer `i` of `ls'`. -/
def Spec.BackStep (ls ls' : List (Layer T)) (gs : Nat → Tensor T) (i : Nat) : Prop :=
  ∃ l l', ls[i]? = some l ∧ ls'[i]? = some l' ∧ Layer.backward (gs (i + 1)) l = (.ok (gs i), l')

/-- A sequence with one more element in front. -/
def consSeq {α : Type} (a : α) (s : Nat → α) : Nat → α
  | 0 => a
  | n + 1 => s n

theorem consSeq_succ {α : Type} (a : α) (s : Nat → α) (n : Nat) : consSeq a s (n + 1) = s n := rfl

theorem backStep_cons {l l' : Layer T} {ls ls' : List (Layer T)} {gs : Nat → Tensor T} {g : Tensor T} {i : Nat}
    (h : BackStep ls ls' gs i) :
    BackStep (l :: ls) (l' :: ls') (consSeq g gs) (i + 1) := by
  obtain ⟨a, a', h1, h2, h3⟩ := h
  exact ⟨a, a', by simpa using h1, by simpa using h2, h3⟩

theorem backStep_tail {l l' : Layer T} {ls ls' : List (Layer T)} {gs : Nat → Tensor T} {i : Nat}
    (h : BackStep (l :: ls) (l' :: ls') gs (i + 1)) : BackStep ls ls' (fun i => gs (i + 1)) i := by
  obtain ⟨a, a', h1, h2, h3⟩ := h
  exact ⟨a, a', by simpa using h1, by simpa using h2, h3⟩

theorem backwardLayers_ok_iff (ls ls' : List (Layer T)) (g h : Tensor T) :
    backwardLayers ls g = (.ok h, ls') ↔
      ls'.length = ls.length ∧ ∃ gs : Nat → Tensor T, gs ls.length = g ∧ gs 0 = h ∧
        ∀ i < ls.length, BackStep ls ls' gs i := by
  induction ls generalizing h ls' with
  | nil =>
    simp only [backwardLayers, Prod.mk.injEq, Except.ok.injEq, List.length_nil]
    constructor
    · rintro ⟨rfl, rfl⟩
      exact ⟨rfl, fun _ => g, rfl, rfl, fun i hi => by omega⟩
    · rintro ⟨h1, gs, rfl, rfl, -⟩
      exact ⟨rfl, (List.length_eq_zero_iff.1 h1).symm⟩
  | cons l ls ih =>
    unfold backwardLayers
    constructor
    · intro hh
      rcases hf : backwardLayers ls g with ⟨res, ls1⟩
      rw [hf] at hh
      cases res with
      | error e => simp at hh
      | ok z =>
        simp only at hh
        rcases hg : Layer.backward z l with ⟨res2, l2⟩
        rw [hg] at hh
        simp only [Prod.mk.injEq] at hh
        obtain ⟨rfl, rfl⟩ := hh
        obtain ⟨hl, gs, h1, h2, h3⟩ := (ih ls1 z).1 hf
        refine ⟨by simp [hl], consSeq h gs, h1, rfl, ?_⟩
        intro i hi
        cases i with
        | zero => exact ⟨l, l2, rfl, rfl, by rw [← h2] at hg; exact hg⟩
        | succ i => exact backStep_cons (h3 i (by simpa using hi))
    · rintro ⟨hl, gs, rfl, rfl, hh⟩
      cases ls' with
      | nil => simp at hl
      | cons l' ls' =>
        rw [(ih ls' (gs 1)).2 ⟨by simpa using hl, fun i => gs (i + 1), rfl, rfl,
          fun i hi => backStep_tail (hh (i + 1) (by simpa using hi))⟩]
        obtain ⟨a, a', h1, h2, h3⟩ := hh 0 (by simp)
        simp only [List.getElem?_cons_zero, Option.some.injEq] at h1 h2
        subst h1 h2
        simp only
        rw [h3]

theorem backwardLayers_error_iff (ls ls' : List (Layer T)) (g : Tensor T) (e : Err) :
    backwardLayers ls g = (.error e, ls') ↔
      ls'.length = ls.length ∧ ∃ (k : Nat) (gs : Nat → Tensor T) (l l' : Layer T), gs ls.length = g ∧
        (∀ i, k < i → i < ls.length → BackStep ls ls' gs i) ∧
        ls[k]? = some l ∧ ls'[k]? = some l' ∧ Layer.backward (gs (k + 1)) l = (.error e, l') ∧
        ∀ i < k, ls'[i]? = ls[i]? := by
  induction ls generalizing ls' with
  | nil =>
    constructor
    · intro h
      simp [backwardLayers] at h
    · rintro ⟨-, k, gs, l, l', -, -, h, -⟩
      simp at h
  | cons l ls ih =>
    unfold backwardLayers
    constructor
    · intro hh
      rcases hf : backwardLayers ls g with ⟨res, ls1⟩
      rw [hf] at hh
      cases res with
      | error e1 =>
        simp only [Prod.mk.injEq, Except.error.injEq] at hh
        obtain ⟨rfl, rfl⟩ := hh
        obtain ⟨hl, k, gs, a, a', h1, h2, h3, h4, h5, h6⟩ := (ih ls1).1 hf
        refine ⟨by simp [hl], k + 1, consSeq g gs, a, a', by rw [List.length_cons, consSeq_succ]; exact h1, ?_, by simpa using h3, by simpa using h4,
          by rw [consSeq_succ]; exact h5, ?_⟩
        · intro i hi hi2
          cases i with
          | zero => omega
          | succ i => exact backStep_cons (h2 i (by omega) (by simpa using hi2))
        · intro i hi
          cases i with
          | zero => rfl
          | succ i => simpa using h6 i (by omega)
      | ok z =>
        simp only at hh
        rcases hg : Layer.backward z l with ⟨res2, l2⟩
        rw [hg] at hh
        simp only [Prod.mk.injEq] at hh
        obtain ⟨rfl, rfl⟩ := hh
        obtain ⟨hl, gs, h1, h2, h3⟩ := (backwardLayers_ok_iff ls ls1 g z).1 hf
        refine ⟨by simp [hl], 0, consSeq g gs, l, l2, by rw [List.length_cons, consSeq_succ]; exact h1, ?_, rfl, rfl,
          by rw [consSeq_succ, h2]; exact hg,
          fun i hi => by omega⟩
        intro i hi hi2
        cases i with
        | zero => omega
        | succ i => exact backStep_cons (h3 i (by simpa using hi2))
    · rintro ⟨hl, k, gs, a, a', rfl, h2, h3, h4, h5, h6⟩
      cases ls' with
      | nil => simp at hl
      | cons l' ls' =>
        cases k with
        | zero =>
          simp only [List.getElem?_cons_zero, Option.some.injEq] at h3 h4
          subst h3 h4
          rw [(backwardLayers_ok_iff ls ls' (gs (l :: ls).length) (gs 1)).2 ⟨by simpa using hl, fun i => gs (i + 1), rfl, rfl,
            fun i hi => backStep_tail (h2 (i + 1) (by omega) (by simpa using hi))⟩]
          simp only
          rw [h5]
        | succ k =>
          have h0 := h6 0 (by omega)
          simp only [List.getElem?_cons_zero, Option.some.injEq] at h0
          rw [h0, (ih ls').2 ⟨by simpa using hl, k, fun i => gs (i + 1), a, a', rfl,
            fun i hi hi2 => backStep_tail (h2 (i + 1) (by omega) (by simpa using hi2)), by simpa using h3, by simpa using h4, h5,
            fun i hi => by simpa using h6 (i + 1) (by omega)⟩]

/-- `backward(g)` finishes exactly when the last layer accepts `g` and every layer accepts the result of the
one behind it, each layer being called once; nothing but the layers' own state changes.  (`h` is the result of
the first layer, which the code drops.) -/
theorem C54_returns (g h : Tensor T) (net net' : Net ρ T) :
    backward g net = (.ok h, net') ↔
      ∃ gs : Nat → Tensor T, gs net.layers.length = g ∧ gs 0 = h ∧
        (∀ i < net.layers.length, BackStep net.layers net'.layers gs i) ∧
        net'.layers.length = net.layers.length ∧
        net'.rng = net.rng ∧ net'.loss = net.loss ∧ net'.optimizer = net.optimizer := by
  unfold backward
  rcases hf : backwardLayers net.layers g with ⟨res, ls'⟩
  simp only [Prod.mk.injEq]
  constructor
  · rintro ⟨rfl, rfl⟩
    obtain ⟨hl, gs, h1, h2, h3⟩ := (backwardLayers_ok_iff _ _ g h).1 hf
    exact ⟨gs, h1, h2, h3, hl, rfl, rfl, rfl⟩
  · rintro ⟨gs, h1, h2, h3, hl, h4, h5, h6⟩
    rw [(backwardLayers_ok_iff _ net'.layers g h).2 ⟨hl, gs, h1, h2, h3⟩] at hf
    simp only [Prod.mk.injEq] at hf
    obtain ⟨rfl, rfl⟩ := hf
    refine ⟨rfl, ?_⟩
    cases net
    cases net'
    simp only at h4 h5 h6 ⊢
    rw [h4, h5, h6]

/-- `backward(g)` throws `e` exactly when some layer `k` throws `e` after all layers behind it returned; the
layers before it are not called and keep their state. -/
theorem C54_throws (g : Tensor T) (e : Err) (net net' : Net ρ T) :
    backward g net = (.error e, net') ↔
      ∃ (k : Nat) (gs : Nat → Tensor T) (l l' : Layer T), gs net.layers.length = g ∧
        (∀ i, k < i → i < net.layers.length → BackStep net.layers net'.layers gs i) ∧
        net.layers[k]? = some l ∧ net'.layers[k]? = some l' ∧ Layer.backward (gs (k + 1)) l = (.error e, l') ∧
        (∀ i < k, net'.layers[i]? = net.layers[i]?) ∧ net'.layers.length = net.layers.length ∧
        net'.rng = net.rng ∧ net'.loss = net.loss ∧ net'.optimizer = net.optimizer := by
  unfold backward
  rcases hf : backwardLayers net.layers g with ⟨res, ls'⟩
  simp only [Prod.mk.injEq]
  constructor
  · rintro ⟨rfl, rfl⟩
    obtain ⟨hl, k, gs, l, l', h1, h2, h3, h4, h5, h6⟩ := (backwardLayers_error_iff _ _ g e).1 hf
    exact ⟨k, gs, l, l', h1, h2, h3, h4, h5, h6, hl, rfl, rfl, rfl⟩
  · rintro ⟨k, gs, l, l', h1, h2, h3, h4, h5, h6, hl, h7, h8, h9⟩
    rw [(backwardLayers_error_iff _ net'.layers g e).2 ⟨hl, k, gs, l, l', h1, h2, h3, h4, h5, h6⟩] at hf
    simp only [Prod.mk.injEq] at hf
    obtain ⟨rfl, rfl⟩ := hf
    refine ⟨rfl, ?_⟩
    cases net
    cases net'
    simp only at h7 h8 h9 ⊢
    rw [h7, h8, h9]

end

/-! ### Back-propagation -/

/-- `LayerAt l ds es F x`: the layer `l` documents the function `F` from arrays of dimensions `ds` to arrays of
dimensions `es`, and `F` is differentiable at `x`.  The dimensions must be small enough for the code's `int`
sizes (`Dims`).  The states of the layers are otherwise arbitrary. -/
inductive Spec.LayerAt : Layer ℝ → List Nat → List Nat → ((List Nat → ℝ) → List Nat → ℝ) → (List Nat → ℝ) → Prop where
  /-- A fully connected layer on a batch of `b` rows. -/
  | dense {b n m : Nat} {w bias x : List Nat → ℝ} {l : FC ℝ} {mode : Bool}
      (hx : Dims [b, n]) (hw : Dims [n, m]) (hg : Dims [b, m])
      (hlw : l.weights = ofFn [n, m] w) (hlb : l.biases = ofFn [1, m] bias) :
      LayerAt ⟨.fc l, mode⟩ [b, n] [b, m] (affine n w bias) x
  /-- A smooth activation layer. -/
  | smooth {ds : List Nat} {x : List Nat → ℝ} {l : ActLayer ℝ} {mode : Bool} {φ : ℝ → ℝ} (hd : Dims ds)
      (ha : smoothFn l.activation = some φ) :
      LayerAt ⟨.activation l, mode⟩ ds ds (fun x i => φ (x i)) x
  /-- A ReLU layer, away from the kink. -/
  | relu {ds : List Nat} {x : List Nat → ℝ} {l : ActLayer ℝ} {mode : Bool} (hd : Dims ds)
      (ha : l.activation = .relu) (hx : ∀ i, ValidIdx ds i → x i ≠ 0) :
      LayerAt ⟨.activation l, mode⟩ ds ds (fun x i => Spec.relu (x i)) x
  /-- A leaky ReLU layer, away from the kink. -/
  | leaky {ds : List Nat} {x : List Nat → ℝ} {l : ActLayer ℝ} {mode : Bool} {alpha : ℝ} (hd : Dims ds)
      (ha : l.activation = .leakyRelu alpha) (hx : ∀ i, ValidIdx ds i → x i ≠ 0) :
      LayerAt ⟨.activation l, mode⟩ ds ds (fun x i => Spec.leaky alpha (x i)) x
  /-- A softmax layer. -/
  | softmax {d : Nat} {ds : List Nat} {x : List Nat → ℝ} {l : ActLayer ℝ} {mode : Bool} (hd : Dims (d :: ds))
      (hne : ds ≠ []) (ha : l.activation = .softmax) :
      LayerAt ⟨.activation l, mode⟩ (d :: ds) (d :: ds) (Spec.softmax ds) x
  /-- A flatten layer on an input of rank 3 or more. -/
  | flatten {d : Nat} {ds : List Nat} {x : List Nat → ℝ} {l : Flatten} {mode : Bool} (hd : Dims (d :: ds))
      (hr : 2 ≤ ds.length) :
      LayerAt ⟨.flatten l, mode⟩ (d :: ds) [d, ds.prod] (fun x j => x (reindex [d, ds.prod] (d :: ds) j)) x
  /-- A convolution layer with one input and one output channel on a single image. -/
  | conv {h w kh kw : Nat} {k b x : List Nat → ℝ} {wg bg inp : Option (Tensor ℝ)} {mode : Bool}
      (hd : Dims [1, 1, h, w]) (hdk : Dims [1, 1, kh, kw]) (hk : kh ≤ h) (hkw : kw ≤ w) :
      LayerAt ⟨.conv ⟨1, 1, kh, kw, 1, 0, 1, ofFn [1, 1, kh, kw] k, ofFn [1, 1] b, inp, wg, bg⟩, mode⟩
        [1, 1, h, w] [1, 1, h - kh + 1, w - kw + 1] (Spec.conv 1 kh kw 1 0 1 h w k b) x
  /-- A max pooling layer without padding, where every window has a single maximum (and all entries are above minus
  infinity). -/
  | pool {n c h w p s : Nat} {ninf : ℝ} {x : List Nat → ℝ} {inp : Option (Tensor ℝ)} {mode : Bool}
      (hd : Dims [n, c, h, w]) (hp : 0 < p) (hs : 0 < s) (hph : p ≤ h) (hpw : p ≤ w)
      (hx : ∀ idx, ValidIdx [n, c, h, w] idx → ninf < x idx)
      (hu : ∀ i j oh ow, ValidIdx [n, c, (h - p) / s + 1, (w - p) / s + 1] [i, j, oh, ow] →
        ∃ y z, IsOnlyMax p s h w (fun y z => x [i, j, y, z]) oh ow y z) :
      LayerAt ⟨.maxPool ⟨p, s, 0, ninf, inp⟩, mode⟩ [n, c, h, w] [n, c, (h - p) / s + 1, (w - p) / s + 1]
        (poolMax p s h w ninf) x

/-- `Stack ls ds es F x`: the layers `ls` in order document the composed function `F`, differentiable at
`x`. -/
inductive Spec.Stack : List (Layer ℝ) → List Nat → List Nat → ((List Nat → ℝ) → List Nat → ℝ) → (List Nat → ℝ) → Prop where
  | nil (ds : List Nat) (x : List Nat → ℝ) : Stack [] ds ds (fun x => x) x
  | cons {l : Layer ℝ} {ls : List (Layer ℝ)} {ds es hs : List Nat} {F G : (List Nat → ℝ) → List Nat → ℝ} {x : List Nat → ℝ}
      (hl : LayerAt l ds es F x) (hls : Stack ls es hs G (F x)) : Stack (l :: ls) ds hs (fun x => G (F x)) x

theorem fc_backprop {b n m : Nat} (hx : Dims [b, n]) (hw : Dims [n, m]) (hg : Dims [b, m])
    (w bias x g : List Nat → ℝ) (l : FC ℝ) (hlw : l.weights = ofFn [n, m] w) (hlb : l.biases = ofFn [1, m] bias) :
    FC.backward (ofFn [b, m] g) { l with input := some (ofFn [b, n] x) } =
      (.ok (ofFn [b, n] (fun idx => ∑ j ∈ Finset.range m, g [idx.getD 0 0, j] * w [idx.getD 1 0, j])),
       { l with input := some (ofFn [b, n] x)
                weightGradients := some (ofFn [n, m] (fun idx =>
                  ∑ i ∈ Finset.range b, x [i, idx.getD 0 0] * g [i, idx.getD 1 0]))
                biasGradients := some (ofFn [1, m] (fun idx => ∑ i ∈ Finset.range b, g [i, idx.getD 1 0])) }) := by
  rw [fc_backward (l := { l with input := some (ofFn [b, n] x) }) hx hw hg (w := w) (bias := bias) (x := x) (g := g) hlw hlb rfl
    (ensure2D_mat _ _ _) (ensure2D_mat _ _ _)]
  simp only [dot_eq_sum, lsum_eq_sum]
  congr 3

theorem layerAt_step {ρ : Type} {l : Layer ℝ} {ds es : List Nat} {F : (List Nat → ℝ) → List Nat → ℝ} {x : List Nat → ℝ}
    (h : LayerAt l ds es F x) :
    ∃ (l' : Layer ℝ) (A : (List Nat → ℝ) → List Nat → ℝ), HasVJP ds es F x A ∧ Extensional ds es F ∧
      (∀ (E : Engine ρ ℝ) (r : ρ), Layer.forward E (ofFn ds x) (l, r) = (.ok (ofFn es (F x)), (l', r))) ∧
      ∀ g, (Layer.backward (ofFn es g) l').1 = .ok (ofFn ds (A g)) := by
  cases h with
  | @dense b n m w bias x l mode hx hw hg hlw hlb =>
    refine ⟨⟨.fc { l with input := some (ofFn [b, n] x) }, mode⟩, _, hasVJP_affine_input b n m w bias x,
      extensional_affine_input b n m w bias, fun E r => ?_, fun g => ?_⟩
    · simp only [Layer.forward, Layer.onKind]
      rw [C37_batch hg w bias x l hlw hlb]
    · simp only [Layer.backward, Layer.onKind]
      rw [fc_backprop hx hw hg w bias x g l hlw hlb]
  | @smooth ds x l mode φ hd ha =>
    obtain ⟨A, h1, h2⟩ := C26_vjp ha hd x
    refine ⟨⟨.activation { l with input := some (ofFn ds x) }, mode⟩, A, h2, extensional_map ds φ, fun E r => ?_, fun g => h1 g⟩
    exact congrArg (fun y => (y, (⟨⟨.activation { l with input := some (ofFn ds x) }, mode⟩, r⟩ : Layer ℝ × ρ)))
      (C26_forward ha ds x)
  | @relu ds x l mode hd ha hx =>
    obtain ⟨D, hD, -, -⟩ := C25_relu_backward hd x x
    refine ⟨⟨.activation { l with input := some (ofFn ds x) }, mode⟩, _,
      hasVJP_map (fun i hi => hD (x i) (hx i hi)), extensional_map ds _, fun E r => ?_, fun g => ?_⟩
    · refine congrArg (fun y => (y, (⟨⟨.activation { l with input := some (ofFn ds x) }, mode⟩, r⟩ : Layer ℝ × ρ))) ?_
      show Act.forward l.activation _ = _
      rw [ha]
      exact C25_relu_forward ds x
    · obtain ⟨D', hD', -, h'⟩ := C25_relu_backward hd x g
      show Act.backward l.activation _ _ = _
      rw [ha, h']
      congr 1
      refine ofFn_congr fun i hi => ?_
      rw [(hD' _ (hx i hi)).unique (hD _ (hx i hi)), mul_comm]
  | @leaky ds x l mode alpha hd ha hx =>
    obtain ⟨D, hD, -, -⟩ := C25_leaky_backward_partial alpha ds x x
    refine ⟨⟨.activation { l with input := some (ofFn ds x) }, mode⟩, _,
      hasVJP_map (fun i hi => hD (x i) (hx i hi)), extensional_map ds _, fun E r => ?_, fun g => ?_⟩
    · refine congrArg (fun y => (y, (⟨⟨.activation { l with input := some (ofFn ds x) }, mode⟩, r⟩ : Layer ℝ × ρ))) ?_
      show Act.forward l.activation _ = _
      rw [ha]
      exact C25_leaky_forward alpha ds x
    · obtain ⟨D', hD', -, h'⟩ := C25_leaky_backward_partial alpha ds x g
      show Act.backward l.activation _ _ = _
      rw [ha, h']
      congr 1
      refine ofFn_congr fun i hi => ?_
      rw [(hD' _ (hx i hi)).unique (hD _ (hx i hi)), mul_comm]
  | @softmax d ds x l mode hd hne ha =>
    obtain ⟨A, h1, h2⟩ := C28_vjp hd hne x
    refine ⟨⟨.activation { l with input := some (ofFn (d :: ds) x) }, mode⟩, A, h2, extensional_softmax d ds, fun E r => ?_,
      fun g => ?_⟩
    · refine congrArg (fun y => (y, (⟨⟨.activation { l with input := some (ofFn (d :: ds) x) }, mode⟩, r⟩ : Layer ℝ × ρ))) ?_
      show Act.forward l.activation _ = _
      rw [ha]
      exact C27_forward hd hne x
    · show Act.backward l.activation _ _ = _
      rw [ha, h1]
  | @flatten d ds x l mode hd hr =>
    have hp : [d, ds.prod].prod = (d :: ds).prod := by simp
    refine ⟨⟨.flatten { l with originalShape := some (shapeOf (d :: ds)) }, mode⟩, _, hasVJP_reindex hp x, ?_, fun E r => ?_,
      fun g => ?_⟩
    · intro x y hxy j hj
      exact hxy _ (reindex_valid hp hj).1
    · simp only [Layer.forward, Layer.onKind]
      rw [flatten_forward hd hr, reinterpret_ofFn hp]
    · show (Tensor.reshape _ _) = _
      rw [shapeOf_dims, reshape_back hd hp.symm]
  | @conv h w kh kw k b x wg bg inp mode hd hdk hk hkw =>
    have hkp := hdk.pos kh (by simp)
    have hkwp := hdk.pos kw (by simp)
    have ho : 1 * 1 * h * w < 2 ^ 31 := by
      have := hd.lt
      simp only [List.prod_cons, List.prod_nil, one_mul, mul_one] at this
      rw [one_mul, one_mul]
      exact this
    have hdb : Dims [1, 1] := ⟨by simp, by simp, by simp⟩
    have hdo : Dims [1, 1, h - kh + 1, w - kw + 1] := dims_conv hd hk hkw ho Nat.one_pos hkp hkwp
    have ht : ∀ x : ℝ, MathFn.toFloat x = x := fun _ => rfl
    refine ⟨⟨.conv ⟨1, 1, kh, kw, 1, 0, 1, ofFn [1, 1, kh, kw] k, ofFn [1, 1] b, some (ofFn [1, 1, h, w] x), wg, bg⟩, mode⟩, _,
      hasVJP_conv_single 1 _ _ kh kw h w Nat.one_pos (by omega) (by omega) k b x,
      extensional_conv_single 1 _ _ kh kw h w Nat.one_pos (by omega) (by omega) k b, fun E r => ?_, fun g => ?_⟩
    · simp only [Layer.forward, Layer.onKind]
      rw [conv_forward (n := 1) (oc := 1) ht hd hdk hdb hk hkw ho k b x _ rfl rfl rfl rfl rfl rfl]
    · simp only [Layer.backward, Layer.onKind]
      rw [conv_backward ht hd hdk hdo (by omega) (by omega) x g k b _ rfl rfl rfl rfl rfl]
  | @pool n c h w p s ninf x inp mode hd hp hs hph hpw hx hu =>
    have e1 : poolOut p s h = (h - p) / s + 1 := if_pos hph
    have e2 : poolOut p s w = (w - p) / s + 1 := if_pos hpw
    rw [← e1, ← e2] at hu ⊢
    obtain ⟨A, h1, h2⟩ := pool_vjp hd hp hs x ninf hx hu
    refine ⟨⟨.maxPool ⟨p, s, 0, ninf, some (ofFn [n, c, h, w] x)⟩, mode⟩, A, h1, extensional_pool _ _ _ _ _ _ _ _ _, fun E r => ?_,
      fun g => ?_⟩
    · simp only [Layer.forward, Layer.onKind]
      rw [pool_forward hd hp hs (Or.inl hph) (Or.inl hpw)]
    · simp only [Layer.backward, Layer.onKind]
      rw [h2 g]

theorem stack_forward {ρ : Type} {ls : List (Layer ℝ)} {ds es : List Nat} {F : (List Nat → ℝ) → List Nat → ℝ} {x : List Nat → ℝ}
    (h : Stack ls ds es F x) :
    ∃ (ls' : List (Layer ℝ)) (A : (List Nat → ℝ) → List Nat → ℝ), ls'.length = ls.length ∧
      HasVJP ds es F x A ∧ Extensional ds es F ∧
      (∀ (E : Engine ρ ℝ) (r : ρ), forwardLayers E ls (ofFn ds x) r = (.ok (ofFn es (F x)), ls', r)) ∧
      ∀ g, (backwardLayers ls' (ofFn es g)).1 = .ok (ofFn ds (A g)) := by
  induction h with
  | nil ds x =>
    refine ⟨[], fun g => g, rfl, ?_, fun _ _ h => h, fun _ _ => rfl, fun _ => rfl⟩
    exact hasVJP_id ds x
  | @cons l ls ds es hs F G x hl _ ih =>
    obtain ⟨l', A, h1, h2, h3, h4⟩ := layerAt_step (ρ := ρ) hl
    obtain ⟨ls', B, k0, k1, k2, k3, k4⟩ := ih
    refine ⟨l' :: ls', fun g => A (B g), by simp [k0], k1.comp h1 h2, fun x y hxy => k2 _ _ (h2 x y hxy), fun E r => ?_, fun g => ?_⟩
    · unfold forwardLayers
      rw [h3 E r]
      simp only
      rw [k3 E r]
    · unfold backwardLayers
      have k := k4 g
      rcases hb : backwardLayers ls' (ofFn hs g) with ⟨res, ls''⟩
      rw [hb] at k
      simp only at k
      subst k
      exact h4 (B g)

/-- **Back-propagation.**  For every stack of dense, activation, softmax, flatten, max pooling and single-image
convolution layers, in whatever state earlier calls left them: `predict` returns the composed function's value, and a
following `backward(g)` delivers to the input the exact adjoint: the gradient of `∑ g · F` at `x`. -/
theorem C54_adjoint {ρ : Type} {ds es : List Nat} {F : (List Nat → ℝ) → List Nat → ℝ} {x : List Nat → ℝ}
    (E : Engine ρ ℝ) (net : Net ρ ℝ) (h : Stack net.layers ds es F x) :
    ∃ (net' : Net ρ ℝ) (A : (List Nat → ℝ) → List Nat → ℝ),
      predict E (ofFn ds x) net = (.ok (ofFn es (F x)), net') ∧ HasVJP ds es F x A ∧
      ∀ g, (backward (ofFn es g) net').1 = .ok (ofFn ds (A g)) := by
  obtain ⟨ls', A, -, h1, h2, h3, h4⟩ := stack_forward (ρ := ρ) h
  refine ⟨{ net with layers := ls', rng := net.rng }, A, ?_, h1, h4⟩
  unfold predict
  rw [h3 E net.rng]

/-- The same for a loss: if `g` is the gradient of a function `L` of the output, the first layer's result is the
gradient of `L ∘ F` at the input. -/
theorem C54_gradient {ρ : Type} {ds es : List Nat} {F : (List Nat → ℝ) → List Nat → ℝ} {x : List Nat → ℝ}
    (E : Engine ρ ℝ) (net : Net ρ ℝ) (h : Stack net.layers ds es F x) (L : (List Nat → ℝ) → ℝ) (g : List Nat → ℝ)
    (hg : HasGradient es L (F x) g) :
    ∃ (net' : Net ρ ℝ) (r : List Nat → ℝ),
      predict E (ofFn ds x) net = (.ok (ofFn es (F x)), net') ∧
      (backward (ofFn es g) net').1 = .ok (ofFn ds r) ∧ HasGradient ds (fun x => L (F x)) x r := by
  obtain ⟨ls', A, -, h1, h2, h3, h4⟩ := stack_forward (ρ := ρ) h
  refine ⟨{ net with layers := ls', rng := net.rng }, A g, ?_, h4 g, hg.comp h1 h2⟩
  unfold predict
  rw [h3 E net.rng]

theorem forwardLayers_cons {ρ : Type} (E : Engine ρ ℝ) (l : Layer ℝ) (ls : List (Layer ℝ)) (x : Tensor ℝ) (r : ρ) :
    forwardLayers E (l :: ls) x r =
      match Layer.forward E x (l, r) with
      | (.error e, l', r') => (.error e, l' :: ls, r')
      | (.ok y, l', r') =>
        match forwardLayers E ls y r' with
        | (res, ls', r'') => (res, l' :: ls', r'') := by
  conv_lhs => unfold forwardLayers
  rcases Layer.forward E x (l, r) with ⟨_ | _, _, _⟩ <;> rfl

theorem forwardLayers_append {ρ : Type} (E : Engine ρ ℝ) {pre post pre' : List (Layer ℝ)} {x y : Tensor ℝ} {r r' : ρ}
    (h : forwardLayers E pre x r = (.ok y, pre', r')) :
    forwardLayers E (pre ++ post) x r = ((forwardLayers E post y r').1, pre' ++ (forwardLayers E post y r').2.1,
      (forwardLayers E post y r').2.2) := by
  induction pre generalizing x r pre' with
  | nil =>
    simp only [forwardLayers, Prod.mk.injEq, Except.ok.injEq] at h
    obtain ⟨rfl, rfl, rfl⟩ := h
    rfl
  | cons l ls ih =>
    rw [List.cons_append, forwardLayers_cons]
    rw [forwardLayers_cons] at h
    rcases hf : Layer.forward E x (l, r) with ⟨res, l1, r1⟩
    rw [hf] at h
    cases res with
    | error e => simp at h
    | ok z =>
      simp only at h ⊢
      rcases hg : forwardLayers E ls z r1 with ⟨res2, ls2, r2⟩
      rw [hg] at h
      simp only [Prod.mk.injEq] at h
      obtain ⟨rfl, rfl, rfl⟩ := h
      rw [ih hg]
      rfl

theorem backwardLayers_append {pre post post' : List (Layer ℝ)} {g h : Tensor ℝ}
    (hp : backwardLayers post g = (.ok h, post')) :
    backwardLayers (pre ++ post) g = ((backwardLayers pre h).1, (backwardLayers pre h).2 ++ post') := by
  induction pre with
  | nil => rw [List.nil_append, hp]; rfl
  | cons l ls ih =>
    rw [List.cons_append]
    unfold backwardLayers
    rw [ih]
    rcases backwardLayers ls h with ⟨res, ls1⟩
    cases res with
    | error e => rfl
    | ok z => rfl

/-- **The stored gradients are gradients of the loss.**  Take any stack with a dense layer anywhere in it and let
`g` be the gradient of a function `L` of the model's output.  After `predict(x)` and `backward(g)`, that layer
has kept its parameters and has stored the gradients of `L` of the model's output with respect to its weights
and to its biases. -/
theorem C54_dense_gradients {ρ : Type} {ds es : List Nat} {b n m : Nat} {P G : (List Nat → ℝ) → List Nat → ℝ}
    {x w bias : List Nat → ℝ} (E : Engine ρ ℝ) (net : Net ρ ℝ) (pre post : List (Layer ℝ)) (l : FC ℝ) (mode : Bool)
    (hnet : net.layers = pre ++ ⟨.fc l, mode⟩ :: post)
    (hlw : l.weights = ofFn [n, m] w) (hlb : l.biases = ofFn [1, m] bias)
    (hx : Dims [b, n]) (hw : Dims [n, m]) (hd : Dims [b, m])
    (hpre : Stack pre ds [b, n] P x) (hpost : Stack post [b, m] es G (affine n w bias (P x)))
    (L : (List Nat → ℝ) → ℝ) (g : List Nat → ℝ) (hg : HasGradient es L (G (affine n w bias (P x))) g) :
    ∃ (net1 net2 : Net ρ ℝ) (r gw gb : List Nat → ℝ),
      predict E (ofFn ds x) net = (.ok (ofFn es (G (affine n w bias (P x)))), net1) ∧
      backward (ofFn es g) net1 = (.ok (ofFn ds r), net2) ∧
      net2.layers[pre.length]? = some ⟨.fc ⟨ofFn [n, m] w, ofFn [1, m] bias, some (ofFn [b, n] (P x)),
        some (ofFn [n, m] gw), some (ofFn [1, m] gb)⟩, mode⟩ ∧
      HasGradient [n, m] (fun w => L (G (affine n w bias (P x)))) w gw ∧
      HasGradient [1, m] (fun bias => L (G (affine n w bias (P x)))) bias gb ∧
      HasGradient ds (fun x => L (G (affine n w bias (P x)))) x r := by
  obtain ⟨pre', A, a0, a1, a2, a3, a4⟩ := stack_forward (ρ := ρ) hpre
  obtain ⟨post', B, b0, b1, b2, b3, b4⟩ := stack_forward (ρ := ρ) hpost
  have hw1 : HasVJP [n, m] [b, m] (fun w => affine n w bias (P x)) w (fun g idx =>
      ∑ i ∈ Finset.range b, P x [i, idx.getD 0 0] * g [i, idx.getD 1 0]) :=
    fun g => hasGradient_affine_weights b n m w bias (P x) g
  have hb1 : HasVJP [1, m] [b, m] (fun bias => affine n w bias (P x)) bias (fun g idx =>
      ∑ i ∈ Finset.range b, g [i, idx.getD 1 0]) :=
    fun g => hasGradient_affine_bias b n m w bias (P x) g
  have hL : HasGradient [b, m] (fun y => L (G y)) (affine n w bias (P x)) (B g) := hg.comp b1 b2
  have hbk := fc_backprop hx hw hd w bias (P x) (B g) l hlw hlb
  rcases hpb : backwardLayers post' (ofFn es g) with ⟨res, post2⟩
  have := b4 g
  rw [hpb] at this
  simp only at this
  subst this
  have hmid : backwardLayers (⟨.fc { l with input := some (ofFn [b, n] (P x)) }, mode⟩ :: post') (ofFn es g) =
      (.ok (ofFn [b, n] (fun idx => ∑ j ∈ Finset.range m, B g [idx.getD 0 0, j] * w [idx.getD 1 0, j])),
        ⟨.fc { l with input := some (ofFn [b, n] (P x))
                      weightGradients := some (ofFn [n, m] (fun idx =>
                        ∑ i ∈ Finset.range b, P x [i, idx.getD 0 0] * B g [i, idx.getD 1 0]))
                      biasGradients := some (ofFn [1, m] (fun idx => ∑ i ∈ Finset.range b, B g [i, idx.getD 1 0])) }, mode⟩
          :: post2) := by
    unfold backwardLayers
    rw [hpb]
    simp only [Layer.backward, Layer.onKind]
    rw [hbk]
  have hall := backwardLayers_append (pre := pre') hmid
  rw [a4] at hall
  obtain ⟨pre2, hpre2⟩ : ∃ q, q = (backwardLayers pre' (ofFn [b, n] (fun idx =>
    ∑ j ∈ Finset.range m, B g [idx.getD 0 0, j] * w [idx.getD 1 0, j]))).2 := ⟨_, rfl⟩
  rw [← hpre2] at hall
  have hfw : forwardLayers E net.layers (ofFn ds x) net.rng =
      (.ok (ofFn es (G (affine n w bias (P x)))), pre' ++ ⟨.fc { l with input := some (ofFn [b, n] (P x)) }, mode⟩ :: post', net.rng) := by
    rw [hnet, forwardLayers_append E (a3 E net.rng)]
    have : forwardLayers E (⟨.fc l, mode⟩ :: post) (ofFn [b, n] (P x)) net.rng =
        (.ok (ofFn es (G (affine n w bias (P x)))), ⟨.fc { l with input := some (ofFn [b, n] (P x)) }, mode⟩ :: post', net.rng) := by
      unfold forwardLayers
      simp only [Layer.forward, Layer.onKind]
      rw [C37_batch hd w bias (P x) l hlw hlb]
      simp only
      rw [b3 E net.rng]
    rw [this]
  refine ⟨{ net with layers := pre' ++ ⟨.fc { l with input := some (ofFn [b, n] (P x)) }, mode⟩ :: post', rng := net.rng },
    { net with
      layers := pre2 ++ ⟨.fc { l with
        input := some (ofFn [b, n] (P x))
        weightGradients := some (ofFn [n, m] (fun idx => ∑ i ∈ Finset.range b, P x [i, idx.getD 0 0] * B g [i, idx.getD 1 0]))
        biasGradients := some (ofFn [1, m] (fun idx => ∑ i ∈ Finset.range b, B g [i, idx.getD 1 0])) }, mode⟩ :: post2
      rng := net.rng },
    A (fun idx => ∑ j ∈ Finset.range m, B g [idx.getD 0 0, j] * w [idx.getD 1 0, j]),
    fun idx => ∑ i ∈ Finset.range b, P x [i, idx.getD 0 0] * B g [i, idx.getD 1 0],
    fun idx => ∑ i ∈ Finset.range b, B g [i, idx.getD 1 0], ?_, ?_, ?_, ?_, ?_, ?_⟩
  · unfold predict
    rw [hfw]
  · unfold backward
    simp only
    rw [hall]
  · have hl2 : pre2.length = pre.length := by
      rcases hq : backwardLayers pre' (ofFn [b, n] (fun idx => ∑ j ∈ Finset.range m, B g [idx.getD 0 0, j] * w [idx.getD 1 0, j]))
        with ⟨res, pre3⟩
      have := a4 (fun idx => ∑ j ∈ Finset.range m, B g [idx.getD 0 0, j] * w [idx.getD 1 0, j])
      rw [hq] at this hpre2
      simp only at this hpre2
      subst this hpre2
      rw [((backwardLayers_ok_iff _ _ _ _).1 hq).1, a0]
    simp only
    rw [List.getElem?_append_right (by omega), hl2, Nat.sub_self, List.getElem?_cons_zero, ← hlw, ← hlb]
  · exact HasGradient.comp (F := fun w => affine n w bias (P x)) hL hw1 (extensional_affine_weights b n m bias (P x))
  · exact HasGradient.comp (F := fun bias => affine n w bias (P x)) hL hb1 (extensional_affine_bias b n m w (P x))
  · exact (hL.comp (hasVJP_affine_input b n m w bias (P x)) (extensional_affine_input b n m w bias)).comp a1 a2

/-- A two-layer classifier on a batch of four samples: dense 3→5, sigmoid, dense 5→2, softmax. -/
example (w1 b1 w2 b2 x : List Nat → ℝ) : ∃ F, Stack
    [⟨.fc { weights := ofFn [3, 5] w1, biases := ofFn [1, 5] b1 }, true⟩, ⟨.activation ⟨.sigmoid, none⟩, true⟩,
     ⟨.fc { weights := ofFn [5, 2] w2, biases := ofFn [1, 2] b2 }, true⟩, ⟨.activation ⟨.softmax, none⟩, true⟩]
    [4, 3] [4, 2] F x :=
  ⟨_, .cons (.dense (by constructor <;> simp) (by constructor <;> simp) (by constructor <;> simp) rfl rfl)
    (.cons (.smooth (by constructor <;> simp) rfl)
      (.cons (.dense (by constructor <;> simp) (by constructor <;> simp) (by constructor <;> simp) rfl rfl)
        (.cons (.softmax (by constructor <;> simp) (by simp) rfl) (.nil _ _))))⟩

/-- A convolutional stack: 3x3 convolution of one 6x6 image, tanh, flatten, dense 16→3. -/
example (k b w c x : List Nat → ℝ) : ∃ F, Stack
    [⟨.conv ⟨1, 1, 3, 3, 1, 0, 1, ofFn [1, 1, 3, 3] k, ofFn [1, 1] b, none, none, none⟩, true⟩,
     ⟨.activation ⟨.tanh, none⟩, true⟩, ⟨.flatten {}, true⟩,
     ⟨.fc { weights := ofFn [16, 3] w, biases := ofFn [1, 3] c }, true⟩] [1, 1, 6, 6] [1, 3] F x :=
  ⟨_, .cons (.conv (h := 6) (w := 6) (kh := 3) (kw := 3) (by constructor <;> simp) (by constructor <;> simp) (by omega) (by omega))
    (.cons (.smooth (by constructor <;> simp) rfl)
      (.cons (.flatten (by constructor <;> simp) (by simp))
        (.cons (.dense (by constructor <;> simp) (by constructor <;> simp) (by constructor <;> simp) rfl rfl) (.nil _ _))))⟩

/-- The same with 2x2 max pooling of one 4x4 image in front of a dense layer; the image has a single maximum in every window. -/
example (w c : List Nat → ℝ) : ∃ F, Stack
    [⟨.maxPool ⟨(2 : Nat), (2 : Nat), 0, -1, none⟩, true⟩, ⟨.flatten {}, true⟩,
     ⟨.fc { weights := ofFn [4, 3] w, biases := ofFn [1, 3] c }, true⟩] [1, 1, 4, 4] [1, 3] F
    (fun i => (4 * i.getD 2 0 + i.getD 3 0 : ℝ)) := by
  refine ⟨_, .cons (.pool (h := 4) (w := 4) (p := 2) (s := 2) (by constructor <;> simp) (by omega) (by omega) (by omega) (by omega) ?_ ?_)
    (.cons (.flatten (by constructor <;> simp) (by simp))
      (.cons (.dense (by constructor <;> simp) (by constructor <;> simp) (by constructor <;> simp) rfl rfl) (.nil _ _)))⟩
  · intro idx _
    have : (0 : ℝ) ≤ 4 * (idx.getD 2 0 : ℝ) + (idx.getD 3 0 : ℝ) := by positivity
    linarith
  · intro i j oh ow hv
    obtain ⟨_, _, _, _, he, _, _, h3, h4⟩ := valid4_iff.1 hv
    simp only [List.cons.injEq, and_true] at he
    obtain ⟨rfl, rfl, rfl, rfl⟩ := he
    refine ⟨oh * 2 + 1, ow * 2 + 1, ⟨by omega, by omega, by omega, by omega, by omega, by omega⟩, ?_⟩
    rintro y' z' ⟨q1, q2, q3, q4, q5, q6⟩ hne
    have : 4 * y' + z' < 4 * (oh * 2 + 1) + (ow * 2 + 1) := by
      rcases Nat.lt_or_ge y' (oh * 2 + 1) with h | h
      · omega
      · have : y' = oh * 2 + 1 := by omega
        subst this
        have : z' ≠ ow * 2 + 1 := fun h => hne (by rw [h])
        omega
    simp only [List.getD_cons_zero, List.getD_cons_succ]
    exact_mod_cast this

end SmartDNN
