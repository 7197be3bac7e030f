import Verif.Props.Rounding
import Verif.Props.Backprop
import Verif.Props.Typed
import Mathlib.Analysis.Calculus.MeanValue

/-!
# Predictions in floating point are close to the exact ones (C96)

C77 bounds the error of one operation.  Here the errors are followed through all layers of a model: the
prediction of the model in floating point against the prediction of the model of exact real numbers with the same
parameters.
-/

namespace SmartDNN
open Net Spec

variable {F : Type} [Zero F] [One F] [Add F] [Sub F] [Mul F] [Div F] [Neg F] [NatCast F] [IntCast F]
  [LT F] [DecidableLT F] [LE F] [DecidableLE F] [DecidableEq F] [MathFn F] {u η : ℝ}

/-! ### Specification -/

/-- Bounds for an array: `size` for the absolute values of the exact numbers, `err` for how far the floating-point
numbers are from them. -/
structure Spec.Bounds where
  size : List Nat → ℝ
  err : List Nat → ℝ

/-- The array `x'` of floating-point numbers stands for the array `x` of exact numbers within the bounds. -/
def Spec.Within (M : FloatModel F u η) (ds : List Nat) (x' : List Nat → F) (x : List Nat → ℝ) (B : Bounds) : Prop :=
  ∀ i, ValidIdx ds i → |x i| ≤ B.size i ∧ |M.val (x' i) - x i| ≤ B.err i

/-- Bound for the error of a sum of `n` products plus a number: `e` is the sum of the errors of the factors times the
weights, `a` the sum of the absolute values of the terms. -/
def Spec.sumErr (u η : ℝ) (n : Nat) (e a : ℝ) : ℝ := e + ((1 + u) ^ (n + 2) - 1) * a + n * ((1 + u) ^ (n + 1) * η)

/-- Fully connected layer with `n` inputs: the errors of the inputs, weighted, and the rounding of `n` products and
`n + 1` additions. -/
def Spec.denseBounds (u η : ℝ) (n : Nat) (w b : List Nat → ℝ) (B : Bounds) : Bounds where
  size idx := ((List.range n).map fun p => B.size [idx.getD 0 0, p] * |w [p, idx.getD 1 0]|).sum + |b [0, idx.getD 1 0]|
  err idx := sumErr u η n ((List.range n).map fun p => B.err [idx.getD 0 0, p] * |w [p, idx.getD 1 0]|).sum
    (((List.range n).map fun p => (B.size [idx.getD 0 0, p] + B.err [idx.getD 0 0, p]) * |w [p, idx.getD 1 0]|).sum +
      |b [0, idx.getD 1 0]|)

/-- Convolution layer (as computed, see C43): the same for the kernel window. -/
def Spec.convBounds (u η : ℝ) (kh kw : Nat) (k b : List Nat → ℝ) (B : Bounds) : Bounds where
  size idx := ((indices [kh, kw]).map fun a =>
      B.size [idx.getD 0 0, 0, idx.getD 2 0 + a.getD 0 0, idx.getD 3 0 + a.getD 1 0] *
        |k [idx.getD 1 0, 0, a.getD 0 0, a.getD 1 0]|).sum + |b [idx.getD 1 0, 0]|
  err idx := sumErr u η (kh * kw) ((indices [kh, kw]).map fun a =>
      B.err [idx.getD 0 0, 0, idx.getD 2 0 + a.getD 0 0, idx.getD 3 0 + a.getD 1 0] *
        |k [idx.getD 1 0, 0, a.getD 0 0, a.getD 1 0]|).sum
    (((indices [kh, kw]).map fun a =>
      (B.size [idx.getD 0 0, 0, idx.getD 2 0 + a.getD 0 0, idx.getD 3 0 + a.getD 1 0] +
        B.err [idx.getD 0 0, 0, idx.getD 2 0 + a.getD 0 0, idx.getD 3 0 + a.getD 1 0]) *
        |k [idx.getD 1 0, 0, a.getD 0 0, a.getD 1 0]|).sum + |b [idx.getD 1 0, 0]|)

/-- Activation whose exact function has Lipschitz constant `L` and value `c` at 0 and is computed with error `ε`. -/
def Spec.actBounds (c L ε : ℝ) (B : Bounds) : Bounds := ⟨fun i => |c| + L * B.size i, fun i => L * B.err i + ε⟩

/-- LeakyReLU with slope `α`: one product on the negative side. -/
def Spec.leakyBounds (u η α : ℝ) (B : Bounds) : Bounds :=
  ⟨fun i => max 1 |α| * B.size i, fun i => max 1 |α| * B.err i + (u * (|α| * (B.size i + B.err i)) + η)⟩

/-- The activation `a` on floating-point numbers is, element by element, the function `ψ` of real numbers with an error of at
most `ε`, and `ψ` has Lipschitz constant `L`. -/
structure Spec.Accurate (M : FloatModel F u η) (a : Act F) (a' : Act ℝ) (ψ : ℝ → ℝ) (L ε : ℝ) : Prop where
  float : ∃ φ : F → F, (∀ t : Tensor F, a.forward t = t.apply φ) ∧
    ∀ t, M.fin t → M.fin (φ t) → |M.val (φ t) - ψ (M.val t)| ≤ ε
  exact : ∀ t : Tensor ℝ, a'.forward t = t.apply ψ
  lipschitz : ∀ s t, |ψ s - ψ t| ≤ L * |s - t|
  nonneg : 0 ≤ L

/-- `Counterpart M l l' ds es β`: the layer `l` on floating-point numbers and the layer `l'` on real numbers have the same
configuration and the same parameters and map arrays of dimensions `ds` to arrays of dimensions `es`; `β` says how
bounds pass through. -/
inductive Spec.Counterpart (M : FloatModel F u η) : Layer F → Layer ℝ → List Nat → List Nat → (Bounds → Bounds) → Prop where
  | dense {b n m : Nat} {w bias : List Nat → F} {l : FC F} {l' : FC ℝ} {mode mode' : Bool} (hd : Dims [b, m])
      (hw : l.weights = ofFn [n, m] w) (hb : l.biases = ofFn [1, m] bias)
      (hw' : l'.weights = ofFn [n, m] fun i => M.val (w i)) (hb' : l'.biases = ofFn [1, m] fun i => M.val (bias i)) :
      Counterpart M ⟨.fc l, mode⟩ ⟨.fc l', mode'⟩ [b, n] [b, m]
        (denseBounds u η n (fun i => M.val (w i)) fun i => M.val (bias i))
  | activation {ds : List Nat} {l : ActLayer F} {l' : ActLayer ℝ} {mode mode' : Bool} {ψ : ℝ → ℝ} {L ε : ℝ}
      (h : Accurate M l.activation l'.activation ψ L ε) :
      Counterpart M ⟨.activation l, mode⟩ ⟨.activation l', mode'⟩ ds ds (actBounds (ψ 0) L ε)
  | leaky {ds : List Nat} {α : F} {l : ActLayer F} {l' : ActLayer ℝ} {mode mode' : Bool} (h : l.activation = .leakyRelu α)
      (h' : l'.activation = .leakyRelu (M.val α)) (hlt : ∀ a : F, M.fin a → (0 < a ↔ 0 < M.val a)) :
      Counterpart M ⟨.activation l, mode⟩ ⟨.activation l', mode'⟩ ds ds (leakyBounds u η (M.val α))
  | flatten {d : Nat} {ds : List Nat} {l l' : Flatten} {mode mode' : Bool} (hd : Dims (d :: ds)) (hr : 2 ≤ ds.length) :
      Counterpart M ⟨.flatten l, mode⟩ ⟨.flatten l', mode'⟩ (d :: ds) [d, ds.prod]
        fun B => ⟨fun i => B.size (reindex [d, ds.prod] (d :: ds) i), fun i => B.err (reindex [d, ds.prod] (d :: ds) i)⟩
  | conv {n ic oc h w kh kw : Nat} {k b : List Nat → F} {l : Conv F} {l' : Conv ℝ} {mode mode' : Bool}
      (ht : ∀ x : F, MathFn.toFloat x = x)
      (hd : Dims [n, ic, h, w]) (hdk : Dims [oc, ic, kh, kw]) (hdb : Dims [oc, 1]) (hk : kh ≤ h) (hkw : kw ≤ w)
      (ho : n * oc * h * w < 2 ^ 31) (h0 : l.inputChannels = ic) (h1 : l.outputChannels = oc)
      (h2 : l.kernelHeight = kh) (h3 : l.kernelWidth = kw)
      (h4 : l.weights = ofFn [oc, ic, kh, kw] k) (h5 : l.biases = ofFn [oc, 1] b)
      (h0' : l'.inputChannels = ic) (h1' : l'.outputChannels = oc) (h2' : l'.kernelHeight = kh) (h3' : l'.kernelWidth = kw)
      (h4' : l'.weights = ofFn [oc, ic, kh, kw] fun i => M.val (k i)) (h5' : l'.biases = ofFn [oc, 1] fun i => M.val (b i)) :
      Counterpart M ⟨.conv l, mode⟩ ⟨.conv l', mode'⟩ [n, ic, h, w] [n, oc, h - kh + 1, w - kw + 1]
        (convBounds u η kh kw (fun i => M.val (k i)) fun i => M.val (b i))

/-- The same for the layers of a model, one after the other. -/
inductive Spec.Counterparts (M : FloatModel F u η) :
    List (Layer F) → List (Layer ℝ) → List Nat → List Nat → (Bounds → Bounds) → Prop where
  | nil (ds : List Nat) : Counterparts M [] [] ds ds id
  | cons {l : Layer F} {l' : Layer ℝ} {ls : List (Layer F)} {ls' : List (Layer ℝ)} {ds es hs : List Nat} {β γ : Bounds → Bounds}
      (h : Counterpart M l l' ds es β) (hl : Counterparts M ls ls' es hs γ) :
      Counterparts M (l :: ls) (l' :: ls') ds hs fun B => γ (β B)

/-- Nothing overflows and no NaN appears: everything the first layers return, for any number of layers, is finite. -/
def Spec.StaysFinite {ρ : Type} (M : FloatModel F u η) (E : Engine ρ F) (net : Net ρ F) (x : Tensor F) : Prop :=
  ∀ k t, (predict E x { net with layers := net.layers.take k }).1 = .ok t → ∀ a ∈ t.data, M.fin a

/-- `Ω` is a threshold below which nothing overflows: sums and products of finite numbers with an exact value of at most `Ω`
are finite. -/
structure Spec.Threshold (M : FloatModel F u η) (Ω : ℝ) : Prop where
  add : ∀ a b, M.fin a → M.fin b → |M.val a + M.val b| ≤ Ω → M.fin (a + b)
  mul : ∀ a b, M.fin a → M.fin b → |M.val a * M.val b| ≤ Ω → M.fin (a * b)

/-- The largest number that appears in a sum of `n` products plus a number is at most this, `a` the sum of the absolute values of
the terms. -/
def Spec.peak (u η : ℝ) (n : Nat) (a : ℝ) : ℝ := (1 + u) ^ (n + 2) * a + n * ((1 + u) ^ (n + 1) * η)

/-- The layer does not overflow on inputs within the bounds: its parameters are finite and the peak of each of its sums stays
below the threshold. -/
inductive Spec.NoOverflow (M : FloatModel F u η) (Ω : ℝ) (B : Bounds) : Layer F → List Nat → Prop where
  | dense {b n m : Nat} {w bias : List Nat → F} {l : FC F} {mode : Bool} (hd : Dims [b, m])
      (hw : l.weights = ofFn [n, m] w) (hb : l.biases = ofFn [1, m] bias)
      (fw : ∀ p < n, ∀ j < m, M.fin (w [p, j])) (fb : ∀ j < m, M.fin (bias [0, j]))
      (h : ∀ i < b, ∀ j < m, peak u η n (((List.range n).map fun p => (B.size [i, p] + B.err [i, p]) * |M.val (w [p, j])|).sum +
        |M.val (bias [0, j])|) ≤ Ω) : NoOverflow M Ω B ⟨.fc l, mode⟩ [b, n]
  | activation {ds : List Nat} {l : ActLayer F} {mode : Bool} {φ : F → F} (h : ∀ t : Tensor F, l.activation.forward t = t.apply φ)
      (hφ : ∀ t, M.fin t → M.fin (φ t)) : NoOverflow M Ω B ⟨.activation l, mode⟩ ds
  | leaky {ds : List Nat} {α : F} {l : ActLayer F} {mode : Bool} (h : l.activation = .leakyRelu α) (hα : M.fin α)
      (hΩ : ∀ i, ValidIdx ds i → |M.val α| * (B.size i + B.err i) ≤ Ω) : NoOverflow M Ω B ⟨.activation l, mode⟩ ds
  | flatten {d : Nat} {ds : List Nat} {l : Flatten} {mode : Bool} (hd : Dims (d :: ds)) (hr : 2 ≤ ds.length) :
      NoOverflow M Ω B ⟨.flatten l, mode⟩ (d :: ds)
  | conv {n ic oc h w kh kw : Nat} {k b : List Nat → F} {l : Conv F} {mode : Bool} (ht : ∀ x : F, MathFn.toFloat x = x)
      (hd : Dims [n, ic, h, w]) (hdk : Dims [oc, ic, kh, kw]) (hdb : Dims [oc, 1]) (hk : kh ≤ h) (hkw : kw ≤ w)
      (ho : n * oc * h * w < 2 ^ 31) (h0 : l.inputChannels = ic) (h1 : l.outputChannels = oc)
      (h2 : l.kernelHeight = kh) (h3 : l.kernelWidth = kw)
      (h4 : l.weights = ofFn [oc, ic, kh, kw] k) (h5 : l.biases = ofFn [oc, 1] b)
      (fk : ∀ j < oc, ∀ y < kh, ∀ z < kw, M.fin (k [j, 0, y, z])) (fb : ∀ j < oc, M.fin (b [j, 0]))
      (hp : ∀ i < n, ∀ j < oc, ∀ r < h - kh + 1, ∀ c < w - kw + 1, peak u η (kh * kw) (((indices [kh, kw]).map fun a =>
        (B.size [i, 0, r + a.getD 0 0, c + a.getD 1 0] + B.err [i, 0, r + a.getD 0 0, c + a.getD 1 0]) *
          |M.val (k [j, 0, a.getD 0 0, a.getD 1 0])|).sum + |M.val (b [j, 0])|) ≤ Ω) :
      NoOverflow M Ω B ⟨.conv l, mode⟩ [n, ic, h, w]

/-- No layer of the model overflows: the bounds are followed from layer to layer. -/
inductive Spec.NoOverflows (M : FloatModel F u η) (Ω : ℝ) :
    List (Layer F) → List (Layer ℝ) → List Nat → List Nat → Bounds → Prop where
  | nil (ds : List Nat) (B : Bounds) : NoOverflows M Ω [] [] ds ds B
  | cons {l : Layer F} {l' : Layer ℝ} {ls : List (Layer F)} {ls' : List (Layer ℝ)} {ds es hs : List Nat} {β : Bounds → Bounds}
      {B : Bounds} (h : Counterpart M l l' ds es β) (hn : NoOverflow M Ω B l ds) (hl : NoOverflows M Ω ls ls' es hs (β B)) :
      NoOverflows M Ω (l :: ls) (l' :: ls') ds hs B

/-- What underflow adds in a fully connected layer with `n` inputs. -/
def Spec.denseUnderflow (u η : ℝ) (n : Nat) (w : List Nat → ℝ) (e : List Nat → ℝ) (idx : List Nat) : ℝ :=
  (1 + u) ^ (n + 2) * ((List.range n).map fun p => e [idx.getD 0 0, p] * |w [p, idx.getD 1 0]|).sum + n * ((1 + u) ^ (n + 1) * η)

/-- Models of fully connected layers and ReLU.  `K` counts two more than the number of inputs for each fully connected layer; `υ`
is the contribution of underflow. -/
inductive Spec.Rectified (M : FloatModel F u η) : List (Layer F) → List (Layer ℝ) → List Nat → List Nat → (Bounds → Bounds) →
    Nat → ((List Nat → ℝ) → List Nat → ℝ) → Prop where
  | nil (ds : List Nat) : Rectified M [] [] ds ds id 0 id
  | dense {b n m : Nat} {w bias : List Nat → F} {l : FC F} {l' : FC ℝ} {mode mode' : Bool} {ls : List (Layer F)}
      {ls' : List (Layer ℝ)} {es : List Nat} {β : Bounds → Bounds} {K : Nat} {υ : (List Nat → ℝ) → List Nat → ℝ} (hd : Dims [b, m])
      (hw : l.weights = ofFn [n, m] w) (hb : l.biases = ofFn [1, m] bias)
      (hw' : l'.weights = ofFn [n, m] fun i => M.val (w i)) (hb' : l'.biases = ofFn [1, m] fun i => M.val (bias i))
      (hl : Rectified M ls ls' [b, m] es β K υ) :
      Rectified M (⟨.fc l, mode⟩ :: ls) (⟨.fc l', mode'⟩ :: ls') [b, n] es
        (fun B => β (denseBounds u η n (fun i => M.val (w i)) (fun i => M.val (bias i)) B)) (n + 2 + K)
        fun e => υ (denseUnderflow u η n (fun i => M.val (w i)) e)
  | relu {l : ActLayer F} {l' : ActLayer ℝ} {mode mode' : Bool} {ls : List (Layer F)} {ls' : List (Layer ℝ)} {ds es : List Nat}
      {β : Bounds → Bounds} {K : Nat} {υ : (List Nat → ℝ) → List Nat → ℝ} (ha : l.activation = .relu)
      (ha' : l'.activation = .relu) (hl : Rectified M ls ls' ds es β K υ) :
      Rectified M (⟨.activation l, mode⟩ :: ls) (⟨.activation l', mode'⟩ :: ls') ds es β K υ

/-! ### Sums of products -/

omit [Neg F] [IntCast F] [LT F] [DecidableLT F] [LE F] [DecidableLE F] [DecidableEq F] [MathFn F] in
theorem affine_error (M : FloatModel F u η) {ι : Type} (L : List ι) (x' k : ι → F) (b : F) (x size err : ι → ℝ)
    (hs : ∀ a ∈ L, |x a| ≤ size a) (he : ∀ a ∈ L, |M.val (x' a) - x a| ≤ err a)
    (hf : M.fin (lsum (L.map fun a => x' a * k a) + b)) :
    |(L.map fun a => x a * M.val (k a)).sum + M.val b| ≤ (L.map fun a => size a * |M.val (k a)|).sum + |M.val b| ∧
    |M.val (lsum (L.map fun a => x' a * k a) + b) - ((L.map fun a => x a * M.val (k a)).sum + M.val b)| ≤
      sumErr u η L.length (L.map fun a => err a * |M.val (k a)|).sum
        ((L.map fun a => (size a + err a) * |M.val (k a)|).sum + |M.val b|) := by
  constructor
  · refine (abs_add_le _ _).trans (add_le_add_left ((abs_sum_map_le _ _).trans (sum_map_le _ _ _ fun a ha => ?_)) _)
    rw [abs_mul]
    exact mul_le_mul_of_nonneg_right (hs a ha) (abs_nonneg _)
  · have key : _ ≤ ((1 + u) ^ (L.length + 1) * (1 + u) - 1) * ((L.map fun a => |M.val (x' a) * M.val (k a)|).sum + |M.val b|) +
        (1 + u) * (L.length * ((1 + u) ^ L.length * η)) :=
      add_error M _ _ (L.map fun a => M.val (x' a) * M.val (k a)).sum _ _ hf (one_le_growth M (L.length + 1))
        (abs_sum_map_le L _)
        (fun hd => by
          have := lsum_approx M L (fun a => x' a * k a) (fun a => M.val (x' a) * M.val (k a))
            (fun a => |M.val (x' a) * M.val (k a)|) (fun _ _ => le_refl _) (fun a _ hf => (M.mul _ _ hf).2.2) hd
          rw [pow_succ]
          exact this) (le_refl _)
    have h1 : (L.map fun a => |M.val (x' a) * M.val (k a)|).sum ≤ (L.map fun a => (size a + err a) * |M.val (k a)|).sum := by
      refine sum_map_le _ _ _ fun a ha => ?_
      rw [abs_mul]
      refine mul_le_mul_of_nonneg_right ?_ (abs_nonneg _)
      have := abs_add_le (M.val (x' a) - x a) (x a)
      rw [sub_add_cancel] at this
      linarith [hs a ha, he a ha]
    have h2 : |(L.map fun a => M.val (x' a) * M.val (k a)).sum - (L.map fun a => x a * M.val (k a)).sum| ≤
        (L.map fun a => err a * |M.val (k a)|).sum := by
      have : (L.map fun a => M.val (x' a) * M.val (k a)).sum - (L.map fun a => x a * M.val (k a)).sum =
          (L.map fun a => (M.val (x' a) - x a) * M.val (k a)).sum := by
        clear key hf hs he h1
        induction L with
        | nil => simp
        | cons a L ih =>
          simp only [List.map_cons, List.sum_cons, ← ih]
          ring
      rw [this]
      refine (abs_sum_map_le _ _).trans (sum_map_le _ _ _ fun a ha => ?_)
      rw [abs_mul]
      exact mul_le_mul_of_nonneg_right (he a ha) (abs_nonneg _)
    have h3 := abs_add_le (M.val (lsum (L.map fun a => x' a * k a) + b) -
        ((L.map fun a => M.val (x' a) * M.val (k a)).sum + M.val b))
      ((L.map fun a => M.val (x' a) * M.val (k a)).sum - (L.map fun a => x a * M.val (k a)).sum)
    rw [show ∀ p q r s : ℝ, p - (q + r) + (q - s) = p - (s + r) by intros; ring] at h3
    have hG := one_le_growth M (L.length + 2)
    have e1 : (1 + u) ^ (L.length + 1) * (1 + u) = (1 + u) ^ (L.length + 2) := by ring
    rw [e1] at key
    have h4 : ((1 + u) ^ (L.length + 2) - 1) * ((L.map fun a => |M.val (x' a) * M.val (k a)|).sum + |M.val b|) ≤
        ((1 + u) ^ (L.length + 2) - 1) * ((L.map fun a => (size a + err a) * |M.val (k a)|).sum + |M.val b|) :=
      mul_le_mul_of_nonneg_left (by linarith) (by linarith)
    have e2 : (1 + u) * (L.length * ((1 + u) ^ L.length * η)) = L.length * ((1 + u) ^ (L.length + 1) * η) := by ring
    rw [e2] at key
    unfold sumErr
    linarith

omit [Neg F] [IntCast F] [LT F] [DecidableLT F] [LE F] [DecidableLE F] [DecidableEq F] [MathFn F] in
theorem lsum_finite (M : FloatModel F u η) {Ω : ℝ} (hΩ : Threshold M Ω) {ι : Type} (L : List ι) (x k : ι → F) (s : ι → ℝ)
    (hx : ∀ a ∈ L, M.fin (x a) ∧ |M.val (x a)| ≤ s a) (hk : ∀ a ∈ L, M.fin (k a))
    (hp : (1 + u) ^ L.length * ((1 + u) * (L.map fun a => s a * |M.val (k a)|).sum + L.length * η) ≤ Ω) :
    M.fin (lsum (L.map fun a => x a * k a)) ∧
      |M.val (lsum (L.map fun a => x a * k a))| ≤ (1 + u) ^ L.length * ((1 + u) * (L.map fun a => s a * |M.val (k a)|).sum + L.length * η) := by
  have hu := M.u_nonneg
  have hη := M.η_nonneg
  induction L using List.reverseRecOn with
  | nil => exact ⟨M.zero_fin, by show |M.val (0 : F)| ≤ _; rw [M.val_zero]; simp⟩
  | append_singleton L a ih =>
    simp only [List.map_append, List.map_cons, List.map_nil, List.sum_append, List.sum_cons, List.sum_nil, add_zero,
      List.length_append, List.length_cons, List.length_nil, zero_add] at hp ⊢
    rw [lsum_append_one]
    have hS : 0 ≤ (L.map fun a => s a * |M.val (k a)|).sum := by
      refine List.sum_nonneg fun v hv => ?_
      obtain ⟨c, hc, rfl⟩ := List.mem_map.1 hv
      exact mul_nonneg ((abs_nonneg _).trans (hx c (List.mem_append_left _ hc)).2) (abs_nonneg _)
    obtain ⟨hxf, hxs⟩ := hx a (by simp)
    have hkf := hk a (by simp)
    have ht : |M.val (x a) * M.val (k a)| ≤ s a * |M.val (k a)| := by
      rw [abs_mul]
      exact mul_le_mul_of_nonneg_right hxs (abs_nonneg _)
    have ht0 : 0 ≤ s a * |M.val (k a)| := (abs_nonneg _).trans ht
    have hG := one_le_growth M L.length
    push_cast at hp ⊢
    rw [pow_succ] at hp ⊢
    generalize (L.map fun a => s a * |M.val (k a)|).sum = S at *
    generalize s a * |M.val (k a)| = t at *
    generalize hGd : (1 + u) ^ L.length = G at *
    have hn : (0 : ℝ) ≤ L.length := Nat.cast_nonneg _
    generalize (L.length : ℝ) = n at *
    have hnη : 0 ≤ n * η := mul_nonneg hn hη
    set R := G * ((1 + u) * (S + t) + (n + 1) * η) with hR
    have hq : 0 ≤ (1 + u) * (S + t) + (n + 1) * η := by nlinarith
    have hRQ : R ≤ G * (1 + u) * ((1 + u) * (S + t) + (n + 1) * η) := by
      rw [hR]
      refine mul_le_mul_of_nonneg_right ?_ hq
      nlinarith
    have hRΩ : R ≤ Ω := hRQ.trans hp
    have hprev : G * ((1 + u) * S + n * η) ≤ R := by
      rw [hR]
      refine mul_le_mul_of_nonneg_left ?_ (by linarith)
      nlinarith
    obtain ⟨i1, i2⟩ := ih (fun c hc => hx c (List.mem_append_left _ hc)) (fun c hc => hk c (List.mem_append_left _ hc))
      (hprev.trans hRΩ)
    have hadd : G * ((1 + u) * S + n * η) + ((1 + u) * t + η) ≤ R := by
      have e : R = G * ((1 + u) * S + n * η) + G * ((1 + u) * t + η) := by rw [hR]; ring
      rw [e]
      have : 0 ≤ (1 + u) * t + η := by nlinarith
      nlinarith
    have h0 : 0 ≤ G * ((1 + u) * S + n * η) := (abs_nonneg _).trans i2
    have hmf : M.fin (x a * k a) := hΩ.mul _ _ hxf hkf (by nlinarith)
    have hm := (M.mul _ _ hmf).2.2
    have hmv : |M.val (x a * k a)| ≤ (1 + u) * t + η := by
      have := abs_add_le (M.val (x a * k a) - M.val (x a) * M.val (k a)) (M.val (x a) * M.val (k a))
      rw [sub_add_cancel] at this
      nlinarith
    have hsum : |M.val (lsum (L.map fun a => x a * k a)) + M.val (x a * k a)| ≤ R :=
      (abs_add_le _ _).trans (by linarith)
    have hsf := hΩ.add _ _ i1 hmf (hsum.trans hRΩ)
    refine ⟨hsf, ?_⟩
    have h3 := (M.add _ _ hsf).2.2
    have := abs_add_le (M.val (lsum (L.map fun a => x a * k a) + x a * k a) -
      (M.val (lsum (L.map fun a => x a * k a)) + M.val (x a * k a)))
      (M.val (lsum (L.map fun a => x a * k a)) + M.val (x a * k a))
    rw [sub_add_cancel] at this
    have e : G * (1 + u) * ((1 + u) * (S + t) + (n + 1) * η) = R + u * R := by rw [hR]; ring
    rw [e]
    nlinarith

omit [Neg F] [IntCast F] [LT F] [DecidableLT F] [LE F] [DecidableLE F] [DecidableEq F] [MathFn F] in
theorem affine_finite (M : FloatModel F u η) {Ω : ℝ} (hΩ : Threshold M Ω) {ι : Type} (L : List ι) (x k : ι → F) (b : F) (s : ι → ℝ)
    (hx : ∀ a ∈ L, M.fin (x a) ∧ |M.val (x a)| ≤ s a) (hk : ∀ a ∈ L, M.fin (k a)) (hb : M.fin b)
    (hp : peak u η L.length ((L.map fun a => s a * |M.val (k a)|).sum + |M.val b|) ≤ Ω) :
    M.fin (lsum (L.map fun a => x a * k a) + b) := by
  have hu := M.u_nonneg
  have hη := M.η_nonneg
  have hS : 0 ≤ (L.map fun a => s a * |M.val (k a)|).sum := by
    refine List.sum_nonneg fun v hv => ?_
    obtain ⟨c, hc, rfl⟩ := List.mem_map.1 hv
    exact mul_nonneg ((abs_nonneg _).trans (hx c hc).2) (abs_nonneg _)
  have hG := one_le_growth M L.length
  have hbn := abs_nonneg (M.val b)
  have hn : (0 : ℝ) ≤ L.length := Nat.cast_nonneg _
  unfold peak at hp
  have key : (1 + u) ^ L.length * ((1 + u) * (L.map fun a => s a * |M.val (k a)|).sum + L.length * η) + |M.val b| ≤ Ω := by
    refine le_trans ?_ hp
    rw [pow_add, pow_add]
    generalize (L.map fun a => s a * |M.val (k a)|).sum = S at *
    generalize (1 + u) ^ L.length = G at *
    generalize (L.length : ℝ) = n at *
    have e1 : 0 ≤ G * (1 + u) * u * S := by positivity
    have e2 : 0 ≤ n * (G * u * η) := by positivity
    have e3 : |M.val b| ≤ G * (1 + u) ^ 2 * |M.val b| := by
      refine le_mul_of_one_le_left hbn ?_
      nlinarith
    nlinarith
  obtain ⟨h1, h2⟩ := lsum_finite M hΩ L x k s hx hk (by linarith)
  exact hΩ.add _ _ h1 hb ((abs_add_le _ _).trans (by linarith))

/-! ### One layer -/

theorem leaky_lipschitz (α s t : ℝ) : |leaky α s - leaky α t| ≤ max 1 |α| * |s - t| := by
  have h1 := le_max_left 1 |α|
  have h2 := le_max_right 1 |α|
  have ha1 := le_abs_self α
  have ha2 := neg_abs_le α
  generalize max 1 |α| = L at *
  unfold leaky
  split <;> split
  · nlinarith [abs_nonneg (s - t)]
  · rw [abs_of_pos (a := s - t) (by linarith)]
    rw [abs_le]
    constructor <;> nlinarith
  · rw [abs_of_neg (a := s - t) (by linarith)]
    rw [abs_le]
    constructor <;> nlinarith
  · rw [← mul_sub, abs_mul]
    exact mul_le_mul_of_nonneg_right h2 (abs_nonneg _)

theorem leaky_size (α t : ℝ) : |leaky α t| ≤ max 1 |α| * |t| := by
  have := leaky_lipschitz α t 0
  simpa [leaky] using this

def convRaw {T : Type} [Zero T] [Add T] [Mul T] (kh kw : Nat) (k b x : List Nat → T) (idx : List Nat) : T :=
  lsum ((indices [kh, kw]).map (fun a => x [idx.getD 0 0, 0, idx.getD 2 0 + a.getD 0 0, idx.getD 3 0 + a.getD 1 0] *
    k [idx.getD 1 0, 0, a.getD 0 0, a.getD 1 0])) + b [idx.getD 1 0, 0]

theorem conv_forward_raw {T : Type} [Zero T] [Add T] [Mul T] [MathFn T] {n oc ic h w kh kw : Nat} (ht : ∀ x : T, MathFn.toFloat x = x)
    (hd : Dims [n, ic, h, w]) (hdk : Dims [oc, ic, kh, kw]) (hdb : Dims [oc, 1])
    (hk : kh ≤ h) (hkw : kw ≤ w) (ho : n * oc * h * w < 2 ^ 31) (k b x : List Nat → T) (l : Conv T)
    (h0 : l.inputChannels = ic) (h1 : l.outputChannels = oc) (h2 : l.kernelHeight = kh) (h3 : l.kernelWidth = kw)
    (h4 : l.weights = ofFn [oc, ic, kh, kw] k) (h5 : l.biases = ofFn [oc, 1] b) :
    (Conv.forward (ofFn [n, ic, h, w] x) l).1 = .ok (ofFn [n, oc, h - kh + 1, w - kw + 1] (convRaw kh kw k b x)) := by
  unfold Conv.forward
  simp only [Mut.get_bind]
  rw [if_neg (by simp)]
  rw [show (ofFn [n, ic, h, w] x).shape.get 1 = .ok (ic : Int) from rfl]
  simp only [Mut.lift_ok_bind]
  rw [if_neg (by simp [h0])]
  simp only [Mut.modify_bind, Mut.lift_apply]
  exact conv_correlate_raw ht hd hdk hdb hk hkw ho k b x _ h1 h2 h3 h4 h5

theorem counterpart_step {ρ ρ' : Type} (M : FloatModel F u η) (E : Engine ρ F) (E' : Engine ρ' ℝ) {l : Layer F} {l' : Layer ℝ}
    {ds es : List Nat} {β : Bounds → Bounds} (h : Counterpart M l l' ds es β) (r : ρ) (r' : ρ') (x' : List Nat → F)
    (x : List Nat → ℝ) :
    ∃ y' y, (Layer.forward E (ofFn ds x') (l, r)).1 = .ok (ofFn es y') ∧ (Layer.forward E' (ofFn ds x) (l', r')).1 = .ok (ofFn es y) ∧
      ∀ B, Within M ds x' x B → (∀ i, ValidIdx ds i → M.fin (x' i)) → (∀ i, ValidIdx es i → M.fin (y' i)) →
        Within M es y' y (β B) := by
  cases h with
  | @dense b n m w bias l l' mode mode' hd hw hb hw' hb' =>
    refine ⟨denseRow n w bias x', denseRow n (fun i => M.val (w i)) (fun i => M.val (bias i)) x, ?_, ?_, ?_⟩
    · show FC.affine l.weights l.biases _ = _
      rw [hw, hb, fc_affine_batch hd]
    · show FC.affine l'.weights l'.biases _ = _
      rw [hw', hb', fc_affine_batch hd]
    · intro B hB _ hf idx hv
      obtain ⟨i, j, rfl, hi, hj⟩ := valid2_iff.1 hv
      have hv' : ∀ p ∈ List.range n, ValidIdx [b, n] [i, p] := fun p hp =>
        valid2_iff.2 ⟨i, p, rfl, hi, List.mem_range.1 hp⟩
      have key := affine_error M (List.range n) (fun p => x' [i, p]) (fun p => w [p, j]) (bias [0, j]) (fun p => x [i, p])
        (fun p => B.size [i, p]) (fun p => B.err [i, p]) (fun p hp => (hB _ (hv' p hp)).1) (fun p hp => (hB _ (hv' p hp)).2)
        (hf _ hv)
      rw [List.length_range] at key
      have e : denseRow n (fun i => M.val (w i)) (fun i => M.val (bias i)) x [i, j] =
          ((List.range n).map fun p => x [i, p] * M.val (w [p, j])).sum + M.val (bias [0, j]) := by
        show lsum _ + _ = _
        rw [lsum_eq_sum]
        rfl
      rw [e]
      exact key
  | @activation ds l l' mode mode' ψ L ε h =>
    obtain ⟨⟨φ, hφ, hε⟩, h2, h3, h4⟩ := h
    refine ⟨fun i => φ (x' i), fun i => ψ (x i), ?_, ?_, ?_⟩
    · show Act.forward l.activation _ = _
      rw [hφ]
      simp only [Tensor.apply, map_ofFn]
    · show Act.forward l'.activation _ = _
      rw [h2]
      simp only [Tensor.apply, map_ofFn]
    · intro B hB hf hf' i hv
      obtain ⟨b1, b2⟩ := hB i hv
      simp only [actBounds]
      constructor
      · have := h3 (x i) 0
        have k := abs_add_le (ψ (x i) - ψ 0) (ψ 0)
        rw [sub_add_cancel] at k
        rw [sub_zero] at this
        have := mul_le_mul_of_nonneg_left b1 h4
        linarith
      · have k1 := hε (x' i) (hf i hv) (hf' i hv)
        have k2 := h3 (M.val (x' i)) (x i)
        have k3 := mul_le_mul_of_nonneg_left b2 h4
        have k4 := abs_add_le (M.val (φ (x' i)) - ψ (M.val (x' i))) (ψ (M.val (x' i)) - ψ (x i))
        rw [sub_add_sub_cancel] at k4
        linarith
  | @leaky ds α l l' mode mode' h h' hlt =>
    refine ⟨fun i => if 0 < x' i then x' i else α * x' i, fun i => leaky (M.val α) (x i), ?_, ?_, ?_⟩
    · show Act.forward l.activation _ = _
      rw [h]
      simp only [Act.forward, Tensor.apply, map_ofFn]
    · show Act.forward l'.activation _ = _
      rw [h']
      simp only [Act.forward, Tensor.apply, map_ofFn]
      rfl
    · intro B hB hf hf' i hv
      obtain ⟨b1, b2⟩ := hB i hv
      have hL := le_max_left 1 |M.val α|
      have hu := M.u_nonneg
      have hη := M.η_nonneg
      have hsz : |M.val (x' i)| ≤ B.size i + B.err i := by
        have := abs_add_le (M.val (x' i) - x i) (x i)
        rw [sub_add_cancel] at this
        linarith
      have h0 := abs_nonneg (M.val (x' i))
      simp only [leakyBounds]
      constructor
      · exact (leaky_size _ _).trans (mul_le_mul_of_nonneg_left b1 (by linarith))
      · have k1 : |M.val (if 0 < x' i then x' i else α * x' i) - leaky (M.val α) (M.val (x' i))| ≤
            u * (|M.val α| * (B.size i + B.err i)) + η := by
          have hnn : 0 ≤ u * (|M.val α| * (B.size i + B.err i)) :=
            mul_nonneg hu (mul_nonneg (abs_nonneg _) (by linarith))
          have hfi := hf' i hv
          unfold leaky
          by_cases hc : 0 < x' i
          · rw [if_pos hc, if_pos ((hlt _ (hf i hv)).1 hc), sub_self, abs_zero]
            linarith
          · simp only [if_neg hc] at hfi
            rw [if_neg hc, if_neg (fun hp => hc ((hlt _ (hf i hv)).2 hp))]
            refine (M.mul _ _ hfi).2.2.trans ?_
            rw [abs_mul]
            have := mul_le_mul_of_nonneg_left (mul_le_mul_of_nonneg_left hsz (abs_nonneg (M.val α))) hu
            linarith
        have k2 := leaky_lipschitz (M.val α) (M.val (x' i)) (x i)
        have k3 := mul_le_mul_of_nonneg_left b2 (by linarith : 0 ≤ max 1 |M.val α|)
        have k4 := abs_add_le (M.val (if 0 < x' i then x' i else α * x' i) - leaky (M.val α) (M.val (x' i)))
          (leaky (M.val α) (M.val (x' i)) - leaky (M.val α) (x i))
        rw [sub_add_sub_cancel] at k4
        linarith
  | @flatten d ds l l' mode mode' hd hr =>
    have hp : [d, ds.prod].prod = (d :: ds).prod := by simp
    refine ⟨fun j => x' (reindex [d, ds.prod] (d :: ds) j), fun j => x (reindex [d, ds.prod] (d :: ds) j), ?_, ?_, ?_⟩
    · simp only [Layer.forward, Layer.onKind]
      rw [flatten_forward hd hr, reinterpret_ofFn hp]
    · simp only [Layer.forward, Layer.onKind]
      rw [flatten_forward hd hr, reinterpret_ofFn hp]
    · intro B hB _ _ i hv
      exact hB _ (reindex_valid hp hv).1
  | @conv n ic oc h w kh kw k b l l' mode mode' ht hd hdk hdb hk hkw ho h0 h1 h2 h3 h4 h5 h0' h1' h2' h3' h4' h5' =>
    refine ⟨convRaw kh kw k b x', convRaw kh kw (fun i => M.val (k i)) (fun i => M.val (b i)) x, ?_, ?_, ?_⟩
    · simp only [Layer.forward, Layer.onKind]
      exact conv_forward_raw ht hd hdk hdb hk hkw ho k b x' l h0 h1 h2 h3 h4 h5
    · simp only [Layer.forward, Layer.onKind]
      exact conv_forward_raw (fun _ => rfl) hd hdk hdb hk hkw ho _ _ x l' h0' h1' h2' h3' h4' h5'
    · intro B hB _ hf idx hv
      have hf1 := hf _ hv
      obtain ⟨i, j, y, z, rfl, hi, hj, hy, hz⟩ := valid4_iff.1 hv
      have hicp := hd.pos ic (by simp)
      have hv' : ∀ a ∈ indices [kh, kw], ValidIdx [n, ic, h, w] [i, 0, y + a.getD 0 0, z + a.getD 1 0] := by
        intro a ha
        obtain ⟨a1, a2, rfl, g1, g2⟩ := valid2_iff.1 (mem_indices.1 ha)
        simp only [List.getD_cons_zero, List.getD_cons_succ]
        exact valid4_iff.2 ⟨_, _, _, _, rfl, hi, hicp, by omega, by omega⟩
      simp only [convRaw, List.getD_cons_zero, List.getD_cons_succ] at hf1
      have key := affine_error M (indices [kh, kw]) (fun a => x' [i, 0, y + a.getD 0 0, z + a.getD 1 0])
        (fun a => k [j, 0, a.getD 0 0, a.getD 1 0]) (b [j, 0]) (fun a => x [i, 0, y + a.getD 0 0, z + a.getD 1 0])
        (fun a => B.size [i, 0, y + a.getD 0 0, z + a.getD 1 0]) (fun a => B.err [i, 0, y + a.getD 0 0, z + a.getD 1 0])
        (fun a ha => (hB _ (hv' a ha)).1) (fun a ha => (hB _ (hv' a ha)).2) hf1
      rw [show (indices [kh, kw]).length = kh * kw by simp] at key
      simp only [List.getD_cons_zero, List.getD_cons_succ, convBounds, convRaw]
      rw [lsum_eq_sum]
      exact key

theorem noOverflow_step {ρ : Type} (M : FloatModel F u η) {Ω : ℝ} (hΩ : Threshold M Ω) (E : Engine ρ F) {l : Layer F}
    {ds : List Nat} {B : Bounds} (h : NoOverflow M Ω B l ds) (r : ρ) (x : List Nat → F)
    (hx : ∀ i, ValidIdx ds i → M.fin (x i) ∧ |M.val (x i)| ≤ B.size i + B.err i) (t : Tensor F)
    (ht : (Layer.forward E (ofFn ds x) (l, r)).1 = .ok t) : ∀ a ∈ t.data, M.fin a := by
  have data : ∀ {es : List Nat} {y : List Nat → F}, (Except.ok (ofFn es y) : Res (Tensor F)) = .ok t →
      (∀ i, ValidIdx es i → M.fin (y i)) → ∀ a ∈ t.data, M.fin a := by
    intro es y he hy a ha
    cases he
    rw [ofFn_data] at ha
    obtain ⟨i, hi, rfl⟩ := List.mem_map.1 ha
    exact hy i (mem_indices.1 hi)
  cases h with
  | @dense b n m w bias l mode hd hw hb fw fb h =>
    have e : FC.affine l.weights l.biases (ofFn [b, n] x) = .ok t := ht
    rw [hw, hb, fc_affine_batch hd] at e
    refine data e fun idx hv => ?_
    obtain ⟨i, j, rfl, hi, hj⟩ := valid2_iff.1 hv
    have hv' : ∀ p ∈ List.range n, ValidIdx [b, n] [i, p] := fun p hp =>
      valid2_iff.2 ⟨i, p, rfl, hi, List.mem_range.1 hp⟩
    exact affine_finite M hΩ (List.range n) (fun p => x [i, p]) (fun p => w [p, j]) (bias [0, j])
      (fun p => B.size [i, p] + B.err [i, p]) (fun p hp => hx _ (hv' p hp)) (fun p hp => fw p (List.mem_range.1 hp) j hj) (fb j hj)
      (by rw [List.length_range]; exact h i hi j hj)
  | @activation _ l mode φ h hφ =>
    have e : Act.forward l.activation (ofFn ds x) = .ok t := ht
    rw [h] at e
    simp only [Tensor.apply, map_ofFn] at e
    exact data e fun i hv => hφ _ (hx i hv).1
  | @leaky _ α l mode h hα hp =>
    have e : Act.forward l.activation (ofFn ds x) = .ok t := ht
    rw [h] at e
    simp only [Act.forward, Tensor.apply, map_ofFn] at e
    refine data e fun i hv => ?_
    obtain ⟨h1, h2⟩ := hx i hv
    split
    · exact h1
    · refine hΩ.mul _ _ hα h1 ?_
      rw [abs_mul]
      exact (mul_le_mul_of_nonneg_left h2 (abs_nonneg _)).trans (hp i hv)
  | @flatten d ds l mode hd hr =>
    have hp : [d, ds.prod].prod = (d :: ds).prod := by simp
    simp only [Layer.forward, Layer.onKind] at ht
    rw [flatten_forward hd hr, reinterpret_ofFn hp] at ht
    exact data ht fun i hv => (hx _ (reindex_valid hp hv).1).1
  | @conv n ic oc h w kh kw k b l mode hto hd hdk hdb hk hkw ho h0 h1 h2 h3 h4 h5 fk fb hp =>
    simp only [Layer.forward, Layer.onKind] at ht
    have e : (Conv.forward (ofFn [n, ic, h, w] x) l).1 = .ok t := ht
    rw [conv_forward_raw hto hd hdk hdb hk hkw ho k b x l h0 h1 h2 h3 h4 h5] at e
    refine data e fun idx hv => ?_
    obtain ⟨i, j, y, z, rfl, hi, hj, hy, hz⟩ := valid4_iff.1 hv
    have hicp := hd.pos ic (by simp)
    have hv' : ∀ a ∈ indices [kh, kw], ValidIdx [n, ic, h, w] [i, 0, y + a.getD 0 0, z + a.getD 1 0] ∧
        M.fin (k [j, 0, a.getD 0 0, a.getD 1 0]) := by
      intro a ha
      obtain ⟨a1, a2, rfl, g1, g2⟩ := valid2_iff.1 (mem_indices.1 ha)
      simp only [List.getD_cons_zero, List.getD_cons_succ]
      exact ⟨valid4_iff.2 ⟨_, _, _, _, rfl, hi, hicp, by omega, by omega⟩, fk j hj a1 g1 a2 g2⟩
    simp only [convRaw, List.getD_cons_zero, List.getD_cons_succ]
    exact affine_finite M hΩ (indices [kh, kw]) (fun a => x [i, 0, y + a.getD 0 0, z + a.getD 1 0])
      (fun a => k [j, 0, a.getD 0 0, a.getD 1 0]) (b [j, 0])
      (fun a => B.size [i, 0, y + a.getD 0 0, z + a.getD 1 0] + B.err [i, 0, y + a.getD 0 0, z + a.getD 1 0])
      (fun a ha => hx _ (hv' a ha).1) (fun a ha => (hv' a ha).2) (fb j hj)
      (by rw [show (indices [kh, kw]).length = kh * kw by simp]; exact hp i hi j hj y hy z hz)

/-! ### All layers -/

theorem forwardLayers_split {ρ : Type} {T : Type} [Zero T] [One T] [Add T] [Sub T] [Mul T] [Div T] [Neg T] [NatCast T] [IntCast T]
    [LT T] [DecidableLT T] [LE T] [DecidableLE T] [DecidableEq T] [MathFn T] (E : Engine ρ T) (l : Layer T) (ls : List (Layer T))
    (x y : Tensor T) (r : ρ) (h : (Layer.forward E x (l, r)).1 = .ok y) :
    ∃ r', ∀ ks, (forwardLayers E (l :: ks) x r).1 = (forwardLayers E ks y r').1 := by
  rcases hf : Layer.forward E x (l, r) with ⟨res, l', r'⟩
  rw [hf] at h
  simp only at h
  subst h
  refine ⟨r', fun ks => ?_⟩
  conv_lhs => unfold forwardLayers
  rw [hf]

theorem counterparts_run {ρ ρ' : Type} (M : FloatModel F u η) (E : Engine ρ F) (E' : Engine ρ' ℝ) {ls : List (Layer F)}
    {ls' : List (Layer ℝ)} {ds es : List Nat} {β : Bounds → Bounds} (h : Counterparts M ls ls' ds es β) :
    ∀ (r : ρ) (r' : ρ') (x' : List Nat → F) (x : List Nat → ℝ),
    ∃ y' y, (forwardLayers E ls (ofFn ds x') r).1 = .ok (ofFn es y') ∧ (forwardLayers E' ls' (ofFn ds x) r').1 = .ok (ofFn es y) ∧
      ∀ B, Within M ds x' x B →
        (∀ k t, (forwardLayers E (ls.take k) (ofFn ds x') r).1 = .ok t → ∀ a ∈ t.data, M.fin a) → Within M es y' y (β B) := by
  have data : ∀ {ds : List Nat} {f : List Nat → F}, (∀ a ∈ (ofFn ds f).data, M.fin a) → ∀ i, ValidIdx ds i → M.fin (f i) := by
    intro ds f h i hi
    exact h _ (by rw [ofFn_data]; exact List.mem_map_of_mem (mem_indices.2 hi))
  induction h with
  | nil ds => exact fun r r' x' x => ⟨x', x, rfl, rfl, fun B hB _ => hB⟩
  | @cons l l' ls ls' ds es hs β γ h hl ih =>
    intro r r' x' x
    obtain ⟨y', y, f1, f2, f3⟩ := counterpart_step M E E' h r r' x' x
    obtain ⟨r1, g1⟩ := forwardLayers_split E l ls _ _ r f1
    obtain ⟨r2, g2⟩ := forwardLayers_split E' l' ls' _ _ r' f2
    obtain ⟨z', z, k1, k2, k3⟩ := ih r1 r2 y' y
    refine ⟨z', z, by rw [g1, k1], by rw [g2, k2], fun B hB hf => ?_⟩
    refine k3 (β B) (f3 B hB (data (hf 0 _ rfl)) (data (hf 1 _ (by rw [List.take_succ_cons, g1]; rfl)))) fun k t ht => ?_
    exact hf (k + 1) t (by rw [List.take_succ_cons, g1]; exact ht)

theorem noOverflows_run {ρ : Type} (M : FloatModel F u η) {Ω : ℝ} (hΩ : Threshold M Ω) (E : Engine ρ F) {ls : List (Layer F)}
    {ls' : List (Layer ℝ)} {ds es : List Nat} {B : Bounds} (h : NoOverflows M Ω ls ls' ds es B) :
    ∀ (r : ρ) (x' : List Nat → F) (x : List Nat → ℝ), Within M ds x' x B → (∀ i, ValidIdx ds i → M.fin (x' i)) →
      ∀ k t, (forwardLayers E (ls.take k) (ofFn ds x') r).1 = .ok t → ∀ a ∈ t.data, M.fin a := by
  have zero : ∀ {ds : List Nat} {x' : List Nat → F} {t : Tensor F}, (∀ i, ValidIdx ds i → M.fin (x' i)) →
      (Except.ok (ofFn ds x') : Res (Tensor F)) = .ok t → ∀ a ∈ t.data, M.fin a := by
    intro ds x' t hf ht a ha
    cases ht
    rw [ofFn_data] at ha
    obtain ⟨i, hi, rfl⟩ := List.mem_map.1 ha
    exact hf i (mem_indices.1 hi)
  induction h with
  | nil ds B =>
    intro r x' x _ hf k t ht
    rw [List.take_nil] at ht
    exact zero hf ht
  | @cons l l' ls ls' ds es hs β B h hn hl ih =>
    intro r x' x hB hf k t ht
    cases k with
    | zero => exact zero hf ht
    | succ k =>
      obtain ⟨y', y, f1, f2, f3⟩ := counterpart_step M E (⟨fun _ => (), fun _ r => (0, r)⟩ : Engine Unit ℝ) h r () x' x
      obtain ⟨r1, g1⟩ := forwardLayers_split E l ls _ _ r f1
      have hy : ∀ i, ValidIdx es i → M.fin (y' i) := by
        intro i hi
        refine noOverflow_step M hΩ E hn r x' (fun i hi => ⟨hf i hi, ?_⟩) _ f1 _
          (by rw [ofFn_data]; exact List.mem_map_of_mem (mem_indices.2 hi))
        obtain ⟨b1, b2⟩ := hB i hi
        have := abs_add_le (M.val (x' i) - x i) (x i)
        rw [sub_add_cancel] at this
        linarith
      rw [List.take_succ_cons, g1] at ht
      exact ih r1 y' y (f3 B hB hf hy) hy k t ht

theorem rectified_counterparts (M : FloatModel F u η) {ls : List (Layer F)}
    {ls' : List (Layer ℝ)} {ds es : List Nat} {β : Bounds → Bounds} {K : Nat} {υ : (List Nat → ℝ) → List Nat → ℝ}
    (h : Rectified M ls ls' ds es β K υ) (hacc : Accurate M .relu .relu relu 1 0) : Counterparts M ls ls' ds es β := by
  induction h with
  | nil ds => exact .nil ds
  | dense hd hw hb hw' hb' _ ih => exact .cons (.dense hd hw hb hw' hb') ih
  | @relu l l' mode mode' ls ls' ds es β K υ ha ha' _ ih =>
    have hb : (fun B => β (actBounds (relu 0) 1 0 B)) = β := by
      funext B
      congr 1
      simp [actBounds, relu]
    rw [← hb]
    refine .cons (.activation ?_) ih
    rw [ha, ha']
    exact hacc

theorem rectified_bound (M : FloatModel F u η) {ls : List (Layer F)}
    {ls' : List (Layer ℝ)} {ds es : List Nat} {β : Bounds → Bounds} {K : Nat} {υ : (List Nat → ℝ) → List Nat → ℝ}
    (h : Rectified M ls ls' ds es β K υ) : ∀ (B : Bounds) (N : Nat) (e : List Nat → ℝ), (∀ i, 0 ≤ B.size i) → (∀ i, 0 ≤ e i) →
      (∀ i, B.err i ≤ ((1 + u) ^ N - 1) * B.size i + e i) →
      ∀ i, (β B).err i ≤ ((1 + u) ^ (N + K) - 1) * (β B).size i + υ e i := by
  induction h with
  | nil ds => exact fun B N e _ _ h i => h i
  | relu _ _ _ ih => exact ih
  | @dense b n m w bias l l' mode mode' ls ls' es β K υ hd hw hb hw' hb' hl ih =>
    intro B N e hs he h
    have hu := M.u_nonneg
    have hη := M.η_nonneg
    have hGN := one_le_growth M N
    have hgn := one_le_growth M (n + 2)
    rw [show N + (n + 2 + K) = N + (n + 2) + K by omega]
    refine ih _ (N + (n + 2)) _ ?_ ?_ ?_
    · intro i
      simp only [denseBounds]
      refine add_nonneg (List.sum_nonneg fun v hv => ?_) (abs_nonneg _)
      obtain ⟨c, hc, rfl⟩ := List.mem_map.1 hv
      exact mul_nonneg (hs _) (abs_nonneg _)
    · intro i
      unfold denseUnderflow
      have : 0 ≤ ((List.range n).map fun p => e [i.getD 0 0, p] * |M.val (w [p, i.getD 1 0])|).sum := by
        refine List.sum_nonneg fun v hv => ?_
        obtain ⟨c, hc, rfl⟩ := List.mem_map.1 hv
        exact mul_nonneg (he _) (abs_nonneg _)
      positivity
    · intro i
      simp only [denseBounds, sumErr, denseUnderflow]
      generalize i.getD 0 0 = a
      generalize i.getD 1 0 = c
      have k1 : ((List.range n).map fun p => B.err [a, p] * |M.val (w [p, c])|).sum ≤
          ((1 + u) ^ N - 1) * ((List.range n).map fun p => B.size [a, p] * |M.val (w [p, c])|).sum +
            ((List.range n).map fun p => e [a, p] * |M.val (w [p, c])|).sum := by
        generalize List.range n = L
        induction L with
        | nil => simp
        | cons p L ih =>
          simp only [List.map_cons, List.sum_cons]
          have := mul_le_mul_of_nonneg_right (h [a, p]) (abs_nonneg (M.val (w [p, c])))
          linarith
      have k2 : ((List.range n).map fun p => (B.size [a, p] + B.err [a, p]) * |M.val (w [p, c])|).sum =
          ((List.range n).map fun p => B.size [a, p] * |M.val (w [p, c])|).sum +
            ((List.range n).map fun p => B.err [a, p] * |M.val (w [p, c])|).sum := by
        generalize List.range n = L
        induction L with
        | nil => simp
        | cons p L ih =>
          simp only [List.map_cons, List.sum_cons, ih]
          ring
      rw [k2, pow_add (1 + u) N (n + 2)]
      have hb := abs_nonneg (M.val (bias [0, c]))
      generalize ((List.range n).map fun p => B.err [a, p] * |M.val (w [p, c])|).sum = D at *
      generalize ((List.range n).map fun p => B.size [a, p] * |M.val (w [p, c])|).sum = S at *
      generalize ((List.range n).map fun p => e [a, p] * |M.val (w [p, c])|).sum = Q at *
      generalize |M.val (bias [0, c])| = t at *
      generalize (1 + u) ^ N = G at *
      generalize (1 + u) ^ (n + 2) = g at *
      have k3 := mul_le_mul_of_nonneg_left k1 (by linarith : 0 ≤ g)
      have k4 : 0 ≤ g * (G - 1) * t := mul_nonneg (mul_nonneg (by linarith) (by linarith)) hb
      nlinarith

/-! ### C96 -/

/-- The prediction in floating point is the prediction of the exact model within the bounds that follow from the bounds of
the input, layer by layer, as long as everything on the way is finite. -/
theorem C96_predict {ρ ρ' : Type} (M : FloatModel F u η) (E : Engine ρ F) (E' : Engine ρ' ℝ) (net : Net ρ F) (net' : Net ρ' ℝ)
    {ds es : List Nat} {β : Bounds → Bounds} (h : Counterparts M net.layers net'.layers ds es β) (x' : List Nat → F) (x : List Nat → ℝ)
    (B : Bounds) (hx : Within M ds x' x B) (hf : StaysFinite M E net (ofFn ds x')) :
    ∃ y' y, (predict E (ofFn ds x') net).1 = .ok (ofFn es y') ∧ (predict E' (ofFn ds x) net').1 = .ok (ofFn es y) ∧
      Within M es y' y (β B) := by
  obtain ⟨y', y, h1, h2, h3⟩ := counterparts_run M E E' h net.rng net'.rng x' x
  exact ⟨y', y, h1, h2, h3 B hx hf⟩

/-- ReLU adds no error. -/
theorem C96_relu (M : FloatModel F u η) (hlt : ∀ a : F, M.fin a → (0 < a ↔ 0 < M.val a)) :
    Accurate M .relu .relu relu 1 0 where
  float := by
    refine ⟨fun x => cmax 0 x, fun _ => rfl, fun t ht _ => ?_⟩
    show |M.val (cmax 0 t) - relu (M.val t)| ≤ 0
    unfold cmax relu
    by_cases h : 0 < t
    · rw [if_pos h, max_eq_right ((hlt t ht).1 h).le, sub_self, abs_zero]
    · rw [if_neg h, M.val_zero, max_eq_left (not_lt.1 fun hp => h ((hlt t ht).2 hp)), sub_self, abs_zero]
  exact := by
    intro t
    show t.apply (fun x => cmax 0 x) = _
    congr 1
    funext x
    unfold cmax relu
    split
    · rw [max_eq_right (by linarith)]
    · rw [max_eq_left (by linarith)]
  lipschitz := by
    intro s t
    rw [one_mul]
    unfold relu
    rw [max_comm 0 s, max_comm 0 t]
    exact abs_max_sub_max_le_abs _ _ _
  nonneg := zero_le_one

/-- As long as the bounds stay below the threshold of overflow, every number on the way is finite. -/
theorem C96_finite {ρ ρ' : Type} (M : FloatModel F u η) {Ω : ℝ} (hΩ : Threshold M Ω) (E : Engine ρ F) (net : Net ρ F)
    (net' : Net ρ' ℝ) {ds es : List Nat} (B : Bounds) (h : NoOverflows M Ω net.layers net'.layers ds es B) (x' : List Nat → F)
    (x : List Nat → ℝ) (hx : Within M ds x' x B) (hf : ∀ i, ValidIdx ds i → M.fin (x' i)) : StaysFinite M E net (ofFn ds x') :=
  noOverflows_run M hΩ E h net.rng x' x hx hf

/-- Models of fully connected layers and ReLU, of any depth: the prediction in floating point differs from the exact one by at
most `(1+u)^K - 1` times the prediction of the model with the absolute values of the parameters on the absolute values of the
input, plus what underflow contributes.  `K` is the sum over the layers of the number of inputs plus two. -/
theorem C96_relative {ρ ρ' : Type} (M : FloatModel F u η) (hlt : ∀ a : F, M.fin a → (0 < a ↔ 0 < M.val a)) (E : Engine ρ F)
    (E' : Engine ρ' ℝ) (net : Net ρ F) (net' : Net ρ' ℝ) {ds es : List Nat} {β : Bounds → Bounds} {K : Nat}
    {υ : (List Nat → ℝ) → List Nat → ℝ} (h : Rectified M net.layers net'.layers ds es β K υ) (x : List Nat → F)
    (hf : StaysFinite M E net (ofFn ds x)) :
    ∃ y' y, (predict E (ofFn ds x) net).1 = .ok (ofFn es y') ∧
      (predict E' (ofFn ds fun i => M.val (x i)) net').1 = .ok (ofFn es y) ∧
      ∀ i, ValidIdx es i → |M.val (y' i) - y i| ≤
        ((1 + u) ^ K - 1) * (β ⟨fun i => |M.val (x i)|, fun _ => 0⟩).size i + υ (fun _ => 0) i := by
  obtain ⟨y', y, h1, h2, h3⟩ := C96_predict M E E' net net' (rectified_counterparts M h (C96_relu M hlt)) x
    (fun i => M.val (x i)) ⟨fun i => |M.val (x i)|, fun _ => 0⟩ (fun i _ => ⟨le_refl _, by simp⟩) hf
  refine ⟨y', y, h1, h2, fun i hi => (h3 i hi).2.trans ?_⟩
  have := rectified_bound M h ⟨fun i => |M.val (x i)|, fun _ => 0⟩ 0 (fun _ => 0) (fun i => abs_nonneg _) (fun _ => le_refl _)
    (by intro i; simp) i
  rwa [zero_add] at this

theorem lipschitz_of_deriv {f f' : ℝ → ℝ} {L : ℝ} (h : ∀ x, HasDerivAt f (f' x) x) (hb : ∀ x, |f' x| ≤ L) (s t : ℝ) :
    |f s - f t| ≤ L * |s - t| := by
  have := Convex.norm_image_sub_le_of_norm_hasDerivWithin_le (s := Set.univ) (f := f) (f' := f') (C := L) (x := t) (y := s)
    (fun x _ => (h x).hasDerivWithinAt) (fun x _ => hb x) convex_univ (Set.mem_univ _) (Set.mem_univ _)
  simpa using this

omit [IntCast F] [LE F] [DecidableLE F] [DecidableEq F] in
/-- Sigmoid passes a quarter of the error on and adds the error `ε` of its own evaluation. -/
theorem C96_sigmoid (M : FloatModel F u η) {ε : ℝ}
    (hε : ∀ t : F, M.fin t → M.fin (Act.sig (MathFn.toFloat t)) → |M.val (Act.sig (MathFn.toFloat t)) - sigmoid (M.val t)| ≤ ε) :
    Accurate M .sigmoid .sigmoid sigmoid (1 / 4) ε where
  float := ⟨fun x => Act.sig (MathFn.toFloat x), fun _ => rfl, hε⟩
  exact := fun t => rfl
  lipschitz := by
    refine lipschitz_of_deriv hasDerivAt_sigmoid fun x => ?_
    have h1 := sigmoid_pos x
    have h2 := sigmoid_lt_one x
    rw [abs_of_nonneg (by nlinarith)]
    nlinarith [sq_nonneg (sigmoid x - 1 / 2)]
  nonneg := by norm_num

omit [IntCast F] [LE F] [DecidableLE F] [DecidableEq F] in
/-- Tanh passes the error on and adds the error `ε` of its own evaluation. -/
theorem C96_tanh (M : FloatModel F u η) {ε : ℝ}
    (hε : ∀ t : F, M.fin t → M.fin ((MathFn.exp (t * ((2 : Nat) : F)) - 1) / (MathFn.exp (t * ((2 : Nat) : F)) + 1)) →
      |M.val ((MathFn.exp (t * ((2 : Nat) : F)) - 1) / (MathFn.exp (t * ((2 : Nat) : F)) + 1)) - Real.tanh (M.val t)| ≤ ε) :
    Accurate M .tanh .tanh Real.tanh 1 ε where
  float := ⟨_, fun _ => rfl, hε⟩
  exact := by
    intro t
    show t.apply (fun x => (Real.exp (x * ((2 : Nat) : ℝ)) - 1) / (Real.exp (x * ((2 : Nat) : ℝ)) + 1)) = _
    congr 1
    funext x
    rw [tanh_eq_exp]
    norm_num
  lipschitz := by
    refine lipschitz_of_deriv hasDerivAt_tanh' fun x => ?_
    have h1 := tanh_lt_one' x
    have h2 := neg_one_lt_tanh' x
    rw [abs_of_nonneg (by nlinarith)]
    nlinarith [sq_nonneg (Real.tanh x)]
  nonneg := zero_le_one

/-! ### The hypotheses are met: single precision -/

section
variable {p emin emax : Int}

noncomputable instance : Neg (Binary p emin emax) := ⟨fun a => 0 - a⟩
noncomputable instance : IntCast (Binary p emin emax) := ⟨fun n => Binary.round n⟩
instance : LT (Binary p emin emax) := ⟨fun a b => a ≠ .nonfinite ∧ b ≠ .nonfinite ∧ a.val < b.val⟩
instance : LE (Binary p emin emax) := ⟨fun a b => a ≠ .nonfinite ∧ b ≠ .nonfinite ∧ a.val ≤ b.val⟩
noncomputable instance : DecidableLT (Binary p emin emax) := fun _ _ => Classical.propDecidable _
noncomputable instance : DecidableLE (Binary p emin emax) := fun _ _ => Classical.propDecidable _
noncomputable instance : DecidableEq (Binary p emin emax) := fun _ _ => Classical.propDecidable _
noncomputable instance : MathFn (Binary p emin emax) where
  exp a := Binary.lift (fun x _ => Real.exp x) a a
  log a := Binary.lift (fun x _ => Real.log x) a a
  sqrt a := Binary.lift (fun x _ => Real.sqrt x) a a
  tanh a := Binary.lift (fun x _ => Real.tanh x) a a
  powi a n := Binary.lift (fun x _ => x ^ n) a a
  toFloat a := a

theorem binary_lt (hp : 0 ≤ p) (hemin : emin ≤ 0) (hemax : 0 ≤ emax) (a : Binary p emin emax) (h : (binary hp hemin hemax).fin a) :
    0 < a ↔ 0 < (binary hp hemin hemax).val a :=
  ⟨fun g => g.2.2, fun g => ⟨(binary hp hemin hemax).zero_fin, h, g⟩⟩

theorem round_finite {Ω x : ℝ} (hΩ : (1 + 2 ^ (-p) / 2) * Ω + 2 ^ emin / 2 ≤ (2 : ℝ) ^ emax) (hx : |x| ≤ Ω) :
    (Binary.round x : Binary p emin emax) ≠ .nonfinite := by
  have h := rnd_close p emin x
  have := abs_add_le (rnd p emin x - x) x
  rw [sub_add_cancel] at this
  have h2 : (0 : ℝ) ≤ 2 ^ (-p) / 2 := by positivity
  unfold Binary.round
  rw [if_pos (by nlinarith)]
  intro h
  cases h

/-- Results that stay below the largest number of the format by a rounding error are finite. -/
theorem binary_threshold (hp : 0 ≤ p) (hemin : emin ≤ 0) (hemax : 0 ≤ emax) {Ω : ℝ}
    (hΩ : (1 + 2 ^ (-p) / 2) * Ω + 2 ^ emin / 2 ≤ (2 : ℝ) ^ emax) : Threshold (binary hp hemin hemax) Ω where
  add := by
    intro a b ha hb h
    cases a with
    | nonfinite => exact absurd rfl ha
    | num a _ =>
      cases b with
      | nonfinite => exact absurd rfl hb
      | num b _ => exact round_finite hΩ h
  mul := by
    intro a b ha hb h
    cases a with
    | nonfinite => exact absurd rfl ha
    | num a _ =>
      cases b with
      | nonfinite => exact absurd rfl hb
      | num b _ => exact round_finite hΩ h

end

/-- Two fully connected layers with ReLU between them, with weights 3 and biases 1, on single precision and on the reals. -/
noncomputable def exSingle : Net Unit (Binary 23 (-149) 127) where
  layers := [⟨.fc { weights := ofFn [2, 2] fun _ => ((3 : Nat) : Binary 23 (-149) 127), biases := ofFn [1, 2] fun _ => 1 }, true⟩,
    ⟨.activation { activation := .relu }, true⟩,
    ⟨.fc { weights := ofFn [2, 1] fun _ => ((3 : Nat) : Binary 23 (-149) 127), biases := ofFn [1, 1] fun _ => 1 }, true⟩]
  rng := ()

@[inherit_doc exSingle]
noncomputable def exExact : Net Unit ℝ where
  layers := [⟨.fc { weights := ofFn [2, 2] fun _ => 3, biases := ofFn [1, 2] fun _ => 1 }, true⟩,
    ⟨.activation { activation := .relu }, true⟩,
    ⟨.fc { weights := ofFn [2, 1] fun _ => 3, biases := ofFn [1, 1] fun _ => 1 }, true⟩]
  rng := ()

/-- On the input `1, 1` nothing overflows and the two predictions differ by at most `((1+u)^8 - 1) * 43` and what
underflow contributes. -/
example (E : Engine Unit (Binary 23 (-149) 127)) (E' : Engine Unit ℝ) :
    ∃ y' y, (predict E (ofFn [1, 2] fun _ => 1) exSingle).1 = .ok (ofFn [1, 1] y') ∧
      (predict E' (ofFn [1, 2] fun _ => 1) exExact).1 = .ok (ofFn [1, 1] y) ∧
      |Binary.val (y' [0, 0]) - y [0, 0]| ≤ ((1 + 2 ^ (-23 : Int) / 2) ^ 8 - 1) * 43 + 2 ^ (-100 : Int) := by
  set M : FloatModel (Binary 23 (-149) 127) _ _ := binary (by norm_num) (by norm_num) (by norm_num) with hM
  have hv : M.val ((3 : Nat) : Binary 23 (-149) 127) = 3 ∧ M.fin ((3 : Nat) : Binary 23 (-149) 127) := by
    have := round_nat (p := 23) (emin := -149) (emax := 127) (by norm_num) 3 (by norm_num) (by norm_num)
    exact ⟨this.1.trans (by norm_num), this.2⟩
  have h1 := M.val_one
  have hlt := binary_lt (p := 23) (emin := -149) (emax := 127) (by norm_num) (by norm_num) (by norm_num)
  have hw : ∀ ds : List Nat, ofFn ds (fun _ => (3 : ℝ)) = ofFn ds fun _ => M.val ((3 : Nat) : Binary 23 (-149) 127) := by
    intro ds; simp only [hv.1]
  have hb : ∀ ds : List Nat, ofFn ds (fun _ => (1 : ℝ)) = ofFn ds fun _ => M.val (1 : Binary 23 (-149) 127) := by
    intro ds; simp only [h1]
  have h2 : Dims [1, 2] := ⟨by simp, by simp, by simp⟩
  have h3 : Dims [1, 1] := ⟨by simp, by simp, by simp⟩
  have hr := Rectified.dense (M := M) (l := { weights := ofFn [2, 2] fun _ => ((3 : Nat) : Binary 23 (-149) 127), biases := ofFn [1, 2] fun _ => 1 })
    (l' := { weights := ofFn [2, 2] fun _ => 3, biases := ofFn [1, 2] fun _ => 1 }) (mode := true) (mode' := true) h2 rfl rfl
    (hw _) (hb _) (.relu (l := { activation := .relu }) (l' := { activation := .relu }) (mode := true) (mode' := true) rfl rfl
      (.dense (l := { weights := ofFn [2, 1] fun _ => ((3 : Nat) : Binary 23 (-149) 127), biases := ofFn [1, 1] fun _ => 1 })
        (l' := { weights := ofFn [2, 1] fun _ => 3, biases := ofFn [1, 1] fun _ => 1 }) (mode := true) (mode' := true) h3 rfl rfl
        (hw _) (hb _) (.nil _)))
  have hΩ : Threshold M (2 ^ (100 : Int)) := binary_threshold (by norm_num) (by norm_num) (by norm_num) (by norm_num)
  have hn : NoOverflows M (2 ^ (100 : Int)) exSingle.layers exExact.layers [1, 2] [1, 1] ⟨fun _ => 1, fun _ => 0⟩ := by
    unfold exSingle exExact
    refine .cons (.dense (w := fun _ => ((3 : Nat) : Binary 23 (-149) 127)) (bias := fun _ => 1) h2 rfl rfl
      (hw _) (hb _)) (.dense (w := fun _ => ((3 : Nat) : Binary 23 (-149) 127)) (bias := fun _ => 1)
        (m := 2) h2 rfl rfl (fun _ _ _ _ => hv.2) (fun _ _ => M.one_fin) fun _ _ _ _ => ?_)
      (.cons (.activation (C96_relu M hlt)) (.activation (φ := fun x => if 0 < x then x else 0) (fun _ => rfl) ?_)
        (.cons (.dense (w := fun _ => ((3 : Nat) : Binary 23 (-149) 127)) (bias := fun _ => 1) h3 rfl rfl
      (hw _) (hb _)) (.dense (w := fun _ => ((3 : Nat) : Binary 23 (-149) 127)) (bias := fun _ => 1)
        (m := 1) h3 rfl rfl (fun _ _ _ _ => hv.2) (fun _ _ => M.one_fin) fun _ _ _ _ => ?_) (.nil _ _)))
    · simp only [hv.1, h1, peak, List.range_succ, List.range_zero, List.nil_append, List.map_append, List.map_cons, List.map_nil,
        List.sum_append, List.sum_cons, List.sum_nil]
      norm_num
    · intro t ht
      show M.fin (if 0 < t then t else 0)
      split
      · exact ht
      · exact M.zero_fin
    · simp only [hv.1, h1, peak, denseBounds, actBounds, sumErr, relu, List.range_succ, List.range_zero, List.nil_append, List.map_append,
        List.map_cons, List.map_nil, List.sum_append, List.sum_cons, List.sum_nil]
      norm_num
  have hf := C96_finite M hΩ E exSingle exExact _ hn (fun _ => 1) (fun _ => 1) (fun i _ => by simp [h1]) (fun i _ => M.one_fin)
  obtain ⟨y', y, g1, g2, g3⟩ := C96_relative M hlt E E' exSingle exExact hr (fun _ => 1) hf
  simp only [h1] at g2
  refine ⟨y', y, g1, g2, (g3 [0, 0] (valid2_iff.2 ⟨0, 0, rfl, by norm_num, by norm_num⟩)).trans ?_⟩
  simp only [hv.1, h1, denseBounds, denseUnderflow, List.range_succ, List.range_zero, List.nil_append, List.map_append,
        List.map_cons, List.map_nil, List.sum_append, List.sum_cons, List.sum_nil, id]
  norm_num

end SmartDNN
