import Verif.Props.DeepRounding
import Verif.Props.MaxPool
import Verif.Props.Activations
import Verif.Props.Dropout

/-!
# Small changes of input and parameters make small changes of predictions (C97)

Two models with the same layers and parameters that differ by at most `δ` answer inputs that differ by at most `e`.
The bound for how far the answers are apart is computed from the layers of the first model.
-/

namespace SmartDNN
open Net Spec

/-! ### Specification -/

/-- How a layer passes bounds on: `L` amplifies sizes and changes, `c` bounds what it adds to sizes, `N` counts the parameters
that meet one input each and `k` the ones that are added, for one number of the output. -/
structure Spec.Gain where
  L : ℝ
  c : ℝ
  N : ℝ
  k : ℝ

/-- If the numbers of the input are at most `B.1` and change by at most `B.2` and the parameters change by at most `δ`, these are the
bounds for the output. -/
def Spec.Gain.pass (δ : ℝ) (g : Gain) (B : ℝ × ℝ) : ℝ × ℝ := (g.L * B.1 + g.c, g.L * B.2 + δ * (g.N * (B.1 + B.2) + g.k))

/-- All numbers of the array `x` are at most `B.1` and `x'` differs from it by at most `B.2`. -/
def Spec.NearBy (ds : List Nat) (x x' : List Nat → ℝ) (B : ℝ × ℝ) : Prop :=
  ∀ i, ValidIdx ds i → |x i| ≤ B.1 ∧ |x' i - x i| ≤ B.2

/-- `Perturbed δ l l' ds es g`: both layers have the same configuration and map arrays of dimensions `ds` to arrays of dimensions
`es`, their parameters differ by at most `δ`, and `g` is the gain of the first. -/
inductive Spec.Perturbed (δ : ℝ) : Layer ℝ → Layer ℝ → List Nat → List Nat → Gain → Prop where
  /-- Fully connected: the gain is the largest sum of the absolute values of the weights of one output. -/
  | dense {b n m : Nat} {w w' bias bias' : List Nat → ℝ} {l l' : FC ℝ} {mode mode' : Bool} {L c : ℝ} (hd : Dims [b, m])
      (hw : l.weights = ofFn [n, m] w) (hb : l.biases = ofFn [1, m] bias) (hw' : l'.weights = ofFn [n, m] w')
      (hb' : l'.biases = ofFn [1, m] bias') (dw : ∀ p < n, ∀ j < m, |w' [p, j] - w [p, j]| ≤ δ)
      (db : ∀ j < m, |bias' [0, j] - bias [0, j]| ≤ δ) (hL : ∀ j < m, ((List.range n).map fun p => |w [p, j]|).sum ≤ L)
      (hc : ∀ j < m, |bias [0, j]| ≤ c) : Perturbed δ ⟨.fc l, mode⟩ ⟨.fc l', mode'⟩ [b, n] [b, m] ⟨L, c, n, 1⟩
  /-- Convolution: the largest sum of the absolute values of one kernel. -/
  | conv {n ic oc h w kh kw : Nat} {k b k' b' : List Nat → ℝ} {l l' : Conv ℝ} {mode mode' : Bool} {L c : ℝ}
      (hd : Dims [n, ic, h, w]) (hdk : Dims [oc, ic, kh, kw]) (hdb : Dims [oc, 1]) (hk : kh ≤ h) (hkw : kw ≤ w)
      (ho : n * oc * h * w < 2 ^ 31) (h0 : l.inputChannels = ic) (h1 : l.outputChannels = oc)
      (h2 : l.kernelHeight = kh) (h3 : l.kernelWidth = kw)
      (h4 : l.weights = ofFn [oc, ic, kh, kw] k) (h5 : l.biases = ofFn [oc, 1] b)
      (h0' : l'.inputChannels = ic) (h1' : l'.outputChannels = oc) (h2' : l'.kernelHeight = kh) (h3' : l'.kernelWidth = kw)
      (h4' : l'.weights = ofFn [oc, ic, kh, kw] k') (h5' : l'.biases = ofFn [oc, 1] b')
      (dk : ∀ i, ValidIdx [oc, ic, kh, kw] i → |k' i - k i| ≤ δ) (db : ∀ i, ValidIdx [oc, 1] i → |b' i - b i| ≤ δ)
      (hL : ∀ j < oc, ((indices [kh, kw]).map fun a => |k [j, 0, a.getD 0 0, a.getD 1 0]|).sum ≤ L)
      (hc : ∀ j < oc, |b [j, 0]| ≤ c) :
      Perturbed δ ⟨.conv l, mode⟩ ⟨.conv l', mode'⟩ [n, ic, h, w] [n, oc, h - kh + 1, w - kw + 1] ⟨L, c, kh * kw, 1⟩
  /-- Elementwise activation: a Lipschitz constant of its function. -/
  | activation {ds : List Nat} {l l' : ActLayer ℝ} {mode mode' : Bool} {φ : ℝ → ℝ} {L : ℝ} (ha : l'.activation = l.activation)
      (hφ : ∀ t : Tensor ℝ, l.activation.forward t = t.apply φ) (hL : 0 ≤ L) (lip : ∀ s t, |φ s - φ t| ≤ L * |s - t|) :
      Perturbed δ ⟨.activation l, mode⟩ ⟨.activation l', mode'⟩ ds ds ⟨L, |φ 0|, 0, 0⟩
  | softmax {d : Nat} {ds : List Nat} {l l' : ActLayer ℝ} {mode mode' : Bool} (hd : Dims (d :: ds)) (hne : ds ≠ [])
      (ha : l.activation = .softmax) (ha' : l'.activation = .softmax) :
      Perturbed δ ⟨.activation l, mode⟩ ⟨.activation l', mode'⟩ (d :: ds) (d :: ds) ⟨1 / 2, 1, 0, 0⟩
  | flatten {d : Nat} {ds : List Nat} {l l' : Flatten} {mode mode' : Bool} (hd : Dims (d :: ds)) (hr : 2 ≤ ds.length) :
      Perturbed δ ⟨.flatten l, mode⟩ ⟨.flatten l', mode'⟩ (d :: ds) [d, ds.prod] ⟨1, 0, 0, 0⟩
  | pool {n c h w p s : Nat} {ninf : ℝ} {inp inp' : Option (Tensor ℝ)} {mode mode' : Bool} (hd : Dims [n, c, h, w])
      (hp : 0 < p) (hs : 0 < s) (hph : p ≤ h) (hpw : p ≤ w) :
      Perturbed δ ⟨.maxPool ⟨p, s, 0, ninf, inp⟩, mode⟩ ⟨.maxPool ⟨p, s, 0, ninf, inp'⟩, mode'⟩ [n, c, h, w]
        [n, c, (h - p) / s + 1, (w - p) / s + 1] ⟨1, max 0 ninf, 0, 0⟩
  /-- Dropout in evaluation mode. -/
  | dropout {ds : List Nat} {l l' : Dropout ℝ} : Perturbed δ ⟨.dropout l, false⟩ ⟨.dropout l', false⟩ ds ds ⟨1, 0, 0, 0⟩

/-- The same for all layers of a model. -/
inductive Spec.PerturbedLayers (δ : ℝ) : List (Layer ℝ) → List (Layer ℝ) → List Nat → List Nat → List Gain → Prop where
  | nil (ds : List Nat) : PerturbedLayers δ [] [] ds ds []
  | cons {l l' : Layer ℝ} {ls ls' : List (Layer ℝ)} {ds es hs : List Nat} {g : Gain} {gs : List Gain}
      (h : Perturbed δ l l' ds es g) (hl : PerturbedLayers δ ls ls' es hs gs) :
      PerturbedLayers δ (l :: ls) (l' :: ls') ds hs (g :: gs)

/-! ### One layer -/

theorem affine_change {ι : Type} (L : List ι) (x x' k k' : ι → ℝ) (b b' : ℝ) {S e δ Λ c : ℝ} (hS : 0 ≤ S) (he : 0 ≤ e)
    (hx : ∀ a ∈ L, |x a| ≤ S ∧ |x' a - x a| ≤ e) (hk : ∀ a ∈ L, |k' a - k a| ≤ δ) (hb : |b' - b| ≤ δ)
    (hΛ : (L.map fun a => |k a|).sum ≤ Λ) (hc : |b| ≤ c) :
    |lsum (L.map fun a => x a * k a) + b| ≤ Λ * S + c ∧
    |lsum (L.map fun a => x' a * k' a) + b' - (lsum (L.map fun a => x a * k a) + b)| ≤ Λ * e + δ * (L.length * (S + e) + 1) := by
  rw [lsum_eq_sum, lsum_eq_sum]
  have hδ : 0 ≤ δ := (abs_nonneg _).trans hb
  have k1 : |(L.map fun a => x a * k a).sum| ≤ (L.map fun a => |k a|).sum * S := by
    clear hΛ hk
    induction L with
    | nil => simp
    | cons a L ih =>
      simp only [List.map_cons, List.sum_cons]
      have h1 := ih fun c hc => hx c (List.mem_cons_of_mem _ hc)
      have h2 := (hx a List.mem_cons_self).1
      have h3 : |x a * k a| ≤ |k a| * S := by
        rw [abs_mul, mul_comm]
        exact mul_le_mul_of_nonneg_left h2 (abs_nonneg _)
      have := abs_add_le (x a * k a) (L.map fun a => x a * k a).sum
      linarith
  have k2 : |(L.map fun a => x' a * k' a).sum - (L.map fun a => x a * k a).sum| ≤
      (L.map fun a => |k a|).sum * e + δ * (L.length * (S + e)) := by
    clear hΛ k1
    induction L with
    | nil => simp
    | cons a L ih =>
      simp only [List.map_cons, List.sum_cons, List.length_cons]
      have h1 := ih (fun c hc => hx c (List.mem_cons_of_mem _ hc)) fun c hc => hk c (List.mem_cons_of_mem _ hc)
      obtain ⟨h2, h3⟩ := hx a List.mem_cons_self
      have h4 := hk a List.mem_cons_self
      have e1 : x' a * k' a + (L.map fun a => x' a * k' a).sum - (x a * k a + (L.map fun a => x a * k a).sum) =
          (x' a - x a) * k a + x' a * (k' a - k a) +
            ((L.map fun a => x' a * k' a).sum - (L.map fun a => x a * k a).sum) := by ring
      rw [e1]
      have h5 : |(x' a - x a) * k a| ≤ |k a| * e := by
        rw [abs_mul, mul_comm]
        exact mul_le_mul_of_nonneg_left h3 (abs_nonneg _)
      have h6 : |x' a| ≤ S + e := by
        have := abs_add_le (x' a - x a) (x a)
        rw [sub_add_cancel] at this
        linarith
      have h7 : |x' a * (k' a - k a)| ≤ (S + e) * δ := by
        rw [abs_mul]
        exact mul_le_mul h6 h4 (abs_nonneg _) (by linarith)
      have h8 := abs_add_le ((x' a - x a) * k a + x' a * (k' a - k a))
        ((L.map fun a => x' a * k' a).sum - (L.map fun a => x a * k a).sum)
      have h9 := abs_add_le ((x' a - x a) * k a) (x' a * (k' a - k a))
      push_cast
      nlinarith
  constructor
  · have := abs_add_le (L.map fun a => x a * k a).sum b
    nlinarith [mul_le_mul_of_nonneg_right hΛ hS]
  · have e1 : (L.map fun a => x' a * k' a).sum + b' - ((L.map fun a => x a * k a).sum + b) =
      ((L.map fun a => x' a * k' a).sum - (L.map fun a => x a * k a).sum) + (b' - b) := by ring
    rw [e1]
    have := abs_add_le ((L.map fun a => x' a * k' a).sum - (L.map fun a => x a * k a).sum) (b' - b)
    nlinarith [mul_le_mul_of_nonneg_right hΛ he]

/-- Softmax passes half of the largest change on. -/
theorem softmax_lipschitz {d : Nat} {ds : List Nat} (hp : ∀ d ∈ ds, 0 < d) (x x' : List Nat → ℝ) {e : ℝ}
    (h : ∀ i, ValidIdx (d :: ds) i → |x' i - x i| ≤ e) (i : List Nat) (hi : ValidIdx (d :: ds) i) :
    |softmax ds x' i - softmax ds x i| ≤ 1 / 2 * e := by
  cases i with
  | nil => cases hi
  | cons b y =>
    obtain ⟨hb, hy⟩ := ValidIdx.cons.1 hi
    set v : List Nat → ℝ := fun i => x' i - x i with hv
    have hder : ∀ s : ℝ, HasDerivAt (fun t => softmax ds (fun i => x i + t * v i) (b :: y))
        (softmax ds (fun i => x i + s * v i) (b :: y) *
          (v (b :: y) - total ds (fun z => softmax ds (fun i => x i + s * v i) (b :: z) * v (b :: z)))) s := by
      intro s
      have hc : CurveAt (d :: ds) (fun t i => x i + (s + t) * v i) (fun i => x i + s * v i) v := by
        refine ⟨fun i _ => by simp, fun i _ => ?_⟩
        have := (((hasDerivAt_id (0 : ℝ)).const_add s).mul_const (v i)).const_add (x i)
        simpa using this
      have h0 := hasDerivAt_softmax hp hc hb hy
      rw [← sub_self s] at h0
      refine (h0.comp_sub_const s s).congr_of_eventuallyEq (Filter.Eventually.of_forall fun t => ?_)
      simp only [add_sub_cancel]
    have hbd : ∀ s : ℝ, |softmax ds (fun i => x i + s * v i) (b :: y) *
          (v (b :: y) - total ds (fun z => softmax ds (fun i => x i + s * v i) (b :: z) * v (b :: z)))| ≤ 1 / 2 * e := by
      intro s
      have hpos : ∀ z, 0 < softmax ds (fun i => x i + s * v i) (b :: z) := fun z =>
        div_pos (Real.exp_pos _) (total_pos hp fun _ _ => Real.exp_pos _)
      have hone : total ds (fun z => softmax ds (fun i => x i + s * v i) (b :: z)) = 1 := by
        have hZ : 0 < total ds (fun y => Real.exp (x (b :: y) + s * v (b :: y))) := total_pos hp fun _ _ => Real.exp_pos _
        have : total ds (fun z => softmax ds (fun i => x i + s * v i) (b :: z)) =
            total ds (fun y => Real.exp (x (b :: y) + s * v (b :: y))) / total ds (fun y => Real.exp (x (b :: y) + s * v (b :: y))) := by
          unfold softmax
          simp only [List.headD_cons, div_eq_mul_inv]
          rw [total_mul_right]
        rw [this, div_self hZ.ne']
      generalize softmax ds (fun i => x i + s * v i) = p at hpos hone ⊢
      have hvb : ∀ z, ValidIdx ds z → |v (b :: z)| ≤ e := fun z hz => h _ (ValidIdx.cons.2 ⟨hb, hz⟩)
      have hterm : ∀ f : List Nat → ℝ, (∀ z, ValidIdx ds z → 0 ≤ f z) → f y ≤ total ds f := by
        intro f hf
        refine List.single_le_sum (fun v hv => ?_) _ (List.mem_map_of_mem (mem_indices.2 hy))
        obtain ⟨z, hz, rfl⟩ := List.mem_map.1 hv
        exact hf z (mem_indices.1 hz)
      have q1 := hterm (fun z => p (b :: z)) fun z _ => (hpos z).le
      have q2 := hterm (fun z => p (b :: z) * v (b :: z) + p (b :: z) * e) fun z hz => by
        have := neg_le_of_abs_le (hvb z hz)
        nlinarith [hpos z]
      have q3 := hterm (fun z => p (b :: z) * e - p (b :: z) * v (b :: z)) fun z hz => by
        have := le_of_abs_le (hvb z hz)
        nlinarith [hpos z]
      rw [total_add, total_mul_right, hone] at q2
      rw [total_sub, total_mul_right, hone] at q3
      rw [hone] at q1
      have q4 := hpos y
      have q5 := abs_le.1 (hvb y hy)
      generalize total ds (fun z => p (b :: z) * v (b :: z)) = Q at *
      generalize p (b :: y) = a at *
      generalize v (b :: y) = t at *
      have he : 0 ≤ e := by linarith
      have q6 : a * (1 - a) ≤ 1 / 4 := by nlinarith [sq_nonneg (a - 1 / 2)]
      have q7 : |t - Q| ≤ (1 - a) * (2 * e) := by
        rw [abs_le]
        constructor <;> nlinarith
      rw [abs_mul, abs_of_pos q4]
      nlinarith [mul_le_mul_of_nonneg_left q7 q4.le]
    have := lipschitz_of_deriv (f := fun t => softmax ds (fun i => x i + t * v i) (b :: y)) hder hbd 1 0
    simpa [hv] using this

theorem greatest_change {A A' : Set ℝ} {m m' e : ℝ} (h : IsGreatest A m) (h' : IsGreatest A' m')
    (h1 : ∀ v ∈ A, ∃ v' ∈ A', |v' - v| ≤ e) (h2 : ∀ v' ∈ A', ∃ v ∈ A, |v' - v| ≤ e) : |m' - m| ≤ e := by
  obtain ⟨v', hv', q1⟩ := h1 m h.1
  obtain ⟨v, hv, q2⟩ := h2 m' h'.1
  have q3 := h'.2 hv'
  have q4 := h.2 hv
  rw [abs_le] at q1 q2 ⊢
  constructor <;> linarith

theorem perturbed_step {ρ ρ' : Type} {δ : ℝ} (E : Engine ρ ℝ) (E' : Engine ρ' ℝ) {l l' : Layer ℝ} {ds es : List Nat} {g : Gain}
    (h : Perturbed δ l l' ds es g) (r : ρ) (r' : ρ') (x x' : List Nat → ℝ) :
    ∃ y y', (Layer.forward E (ofFn ds x) (l, r)).1 = .ok (ofFn es y) ∧
      (Layer.forward E' (ofFn ds x') (l', r')).1 = .ok (ofFn es y') ∧
      ∀ B, NearBy ds x x' B → 0 ≤ B.1 → 0 ≤ B.2 → 0 ≤ δ → NearBy es y y' (g.pass δ B) := by
  cases h with
  | @dense b n m w w' bias bias' l l' mode mode' L c hd hw hb hw' hb' dw db hL hc =>
    refine ⟨denseRow n w bias x, denseRow n w' bias' x', ?_, ?_, ?_⟩
    · show FC.affine l.weights l.biases (ofFn [b, n] x) = _
      rw [hw, hb, fc_affine_batch hd]
    · show FC.affine l'.weights l'.biases (ofFn [b, n] x') = _
      rw [hw', hb', fc_affine_batch hd]
    · intro B hB h1 h2 hδ idx hv
      obtain ⟨i, j, rfl, hi, hj⟩ := valid2_iff.1 hv
      have := affine_change (List.range n) (fun p => x [i, p]) (fun p => x' [i, p]) (fun p => w [p, j]) (fun p => w' [p, j])
        (bias [0, j]) (bias' [0, j]) h1 h2
        (fun p hp => hB _ (valid2_iff.2 ⟨i, p, rfl, hi, List.mem_range.1 hp⟩)) (fun p hp => dw p (List.mem_range.1 hp) j hj)
        (db j hj) (hL j hj) (hc j hj)
      rw [List.length_range] at this
      exact this
  | @conv n ic oc h w kh kw k b k' b' l l' mode mode' L c hd hdk hdb hk hkw ho h0 h1 h2 h3 h4 h5 h0' h1' h2' h3' h4' h5' dk db
      hL hc =>
    refine ⟨convRaw kh kw k b x, convRaw kh kw k' b' x', ?_, ?_, ?_⟩
    · simp only [Layer.forward, Layer.onKind]
      exact conv_forward_raw (fun _ => rfl) hd hdk hdb hk hkw ho k b x l h0 h1 h2 h3 h4 h5
    · simp only [Layer.forward, Layer.onKind]
      exact conv_forward_raw (fun _ => rfl) hd hdk hdb hk hkw ho k' b' x' l' h0' h1' h2' h3' h4' h5'
    · intro B hB s1 s2 hδ idx hv
      obtain ⟨i, j, y, z, rfl, hi, hj, hy, hz⟩ := valid4_iff.1 hv
      have hicp := hd.pos ic (by simp)
      have hv' : ∀ a ∈ indices [kh, kw], ValidIdx [n, ic, h, w] [i, 0, y + a.getD 0 0, z + a.getD 1 0] ∧
          ValidIdx [oc, ic, kh, kw] [j, 0, a.getD 0 0, a.getD 1 0] := by
        intro a ha
        obtain ⟨a1, a2, rfl, g1, g2⟩ := valid2_iff.1 (mem_indices.1 ha)
        simp only [List.getD_cons_zero, List.getD_cons_succ]
        exact ⟨valid4_iff.2 ⟨_, _, _, _, rfl, hi, hicp, by omega, by omega⟩, valid4_iff.2 ⟨_, _, _, _, rfl, hj, hicp, g1, g2⟩⟩
      have := affine_change (indices [kh, kw]) (fun a => x [i, 0, y + a.getD 0 0, z + a.getD 1 0])
        (fun a => x' [i, 0, y + a.getD 0 0, z + a.getD 1 0])
        (fun a => k [j, 0, a.getD 0 0, a.getD 1 0]) (fun a => k' [j, 0, a.getD 0 0, a.getD 1 0]) (b [j, 0]) (b' [j, 0]) s1 s2
        (fun a ha => hB _ (hv' a ha).1) (fun a ha => dk _ (hv' a ha).2) (db _ (valid2_iff.2 ⟨j, 0, rfl, hj, Nat.one_pos⟩))
        (hL j hj) (hc j hj)
      rw [show (indices [kh, kw]).length = kh * kw by simp] at this
      push_cast at this
      exact this
  | @activation _ l l' mode mode' φ L ha hφ hL lip =>
    refine ⟨fun i => φ (x i), fun i => φ (x' i), ?_, ?_, ?_⟩
    · show Act.forward l.activation (ofFn ds x) = _
      rw [hφ]
      simp only [Tensor.apply, map_ofFn]
    · show Act.forward l'.activation (ofFn ds x') = _
      rw [ha, hφ]
      simp only [Tensor.apply, map_ofFn]
    · intro B hB h1 h2 hδ i hi
      obtain ⟨b1, b2⟩ := hB i hi
      have k1 := lip (x i) 0
      have k2 := lip (x' i) (x i)
      rw [sub_zero] at k1
      have k3 := abs_add_le (φ (x i) - φ 0) (φ 0)
      rw [sub_add_cancel] at k3
      have k4 := mul_le_mul_of_nonneg_left b1 hL
      have k5 := mul_le_mul_of_nonneg_left b2 hL
      simp only [Gain.pass]
      constructor <;> linarith
  | @softmax d ds l l' mode mode' hd hne ha ha' =>
    have hp : ∀ d ∈ ds, 0 < d := fun a h => hd.pos a (by simp [h])
    refine ⟨softmax ds x, softmax ds x', ?_, ?_, ?_⟩
    · show Act.forward l.activation (ofFn (d :: ds) x) = _
      rw [ha, C27_forward hd hne]
    · show Act.forward l'.activation (ofFn (d :: ds) x') = _
      rw [ha', C27_forward hd hne]
    · intro B hB h1 h2 hδ i hi
      have k1 := softmax_lipschitz hp x x' (fun i hi => (hB i hi).2) i hi
      have k2 : |softmax ds x i| ≤ 1 := by
        cases i with
        | nil => cases hi
        | cons b y =>
          obtain ⟨hb, hy⟩ := ValidIdx.cons.1 hi
          have hZ : 0 < total ds (fun y => Real.exp (x (b :: y))) := total_pos hp fun _ _ => Real.exp_pos _
          unfold softmax
          rw [List.headD_cons, abs_of_nonneg (div_nonneg (Real.exp_pos _).le hZ.le), div_le_one hZ]
          refine List.single_le_sum (fun v hv => ?_) _ (List.mem_map_of_mem (f := fun y => Real.exp (x (b :: y))) (mem_indices.2 hy))
          obtain ⟨z, hz, rfl⟩ := List.mem_map.1 hv
          exact (Real.exp_pos _).le
      simp only [Gain.pass]
      constructor <;> linarith
  | @flatten d ds l l' mode mode' hd hr =>
    have hp : [d, ds.prod].prod = (d :: ds).prod := by simp
    refine ⟨fun i => x (reindex [d, ds.prod] (d :: ds) i), fun i => x' (reindex [d, ds.prod] (d :: ds) i), ?_, ?_, ?_⟩
    · simp only [Layer.forward, Layer.onKind]
      rw [flatten_forward hd hr, reinterpret_ofFn hp]
    · simp only [Layer.forward, Layer.onKind]
      rw [flatten_forward hd hr, reinterpret_ofFn hp]
    · intro B hB h1 h2 hδ i hi
      have := hB _ (reindex_valid hp hi).1
      simp only [Gain.pass]
      constructor <;> linarith [this.1, this.2]
  | @pool n c h w p s ninf inp inp' mode mode' hd hp hs hph hpw =>
    have e1 : poolOut p s h = (h - p) / s + 1 := if_pos hph
    have e2 : poolOut p s w = (w - p) / s + 1 := if_pos hpw
    obtain ⟨y, hy, gy⟩ := pool_greatest hd hp hs (Or.inl hph) (Or.inl hpw) x ninf inp
    obtain ⟨y', hy', gy'⟩ := pool_greatest hd hp hs (Or.inl hph) (Or.inl hpw) x' ninf inp'
    refine ⟨y, y', ?_, ?_, ?_⟩
    · simp only [Layer.forward, Layer.onKind]
      rw [hy, e1, e2]
    · simp only [Layer.forward, Layer.onKind]
      rw [hy', e1, e2]
    · intro B hB h1 h2 hδ idx hv
      rw [← e1, ← e2] at hv
      obtain ⟨i, j, oh, ow, rfl, hi, hj, hoh, how⟩ := valid4_iff.1 hv
      have k1 := gy i j oh ow hv
      have k2 := gy' i j oh ow hv
      have inw := (poolOut_full hp hs hph hpw hoh how).2.2
      have hval : ∀ a z, InWindow p s h w oh ow a z → ValidIdx [n, c, h, w] [i, j, a, z] := by
        intro a z hz
        exact valid4_iff.2 ⟨_, _, _, _, rfl, hi, hj, hz.2.2.1, hz.2.2.2.2.2⟩
      have hch : |y' [i, j, oh, ow] - y [i, j, oh, ow]| ≤ B.2 := by
        refine greatest_change k1 k2 ?_ ?_
        · rintro v (rfl | ⟨a, z, hz, rfl⟩)
          · exact ⟨v, Or.inl rfl, by simpa using h2⟩
          · exact ⟨_, Or.inr ⟨a, z, hz, rfl⟩, (hB _ (hval a z hz)).2⟩
        · rintro v (rfl | ⟨a, z, hz, rfl⟩)
          · exact ⟨v, Or.inl rfl, by simpa using h2⟩
          · exact ⟨_, Or.inr ⟨a, z, hz, rfl⟩, (hB _ (hval a z hz)).2⟩
      have hup : |y [i, j, oh, ow]| ≤ B.1 + max 0 ninf := by
        have m1 := le_max_left 0 ninf
        have m2 := le_max_right 0 ninf
        have low : -B.1 ≤ y [i, j, oh, ow] := by
          have hz := (inw (oh * s) (ow * s)).2 ⟨⟨le_refl _, by omega⟩, le_refl _, by omega⟩
          have := k1.2 (Or.inr ⟨_, _, hz, rfl⟩)
          have := (abs_le.1 (hB _ (hval _ _ hz)).1).1
          linarith
        have high : y [i, j, oh, ow] ≤ B.1 + max 0 ninf := by
          rcases k1.1 with hm | ⟨a, z, hz, hm⟩
          · linarith
          · rw [hm]
            have := (abs_le.1 (hB _ (hval _ _ hz)).1).2
            linarith
        rw [abs_le]
        constructor <;> linarith
      simp only [Gain.pass]
      constructor <;> linarith
  | @dropout _ l l' =>
    refine ⟨x, x', rfl, rfl, fun B hB h1 h2 hδ i hi => ?_⟩
    simp only [Gain.pass]
    constructor <;> linarith [(hB i hi).1, (hB i hi).2]

theorem gain_nonneg {δ : ℝ} {l l' : Layer ℝ} {ds es : List Nat} {g : Gain} (h : Perturbed δ l l' ds es g) :
    0 ≤ g.L ∧ 0 ≤ g.c ∧ 0 ≤ g.N ∧ 0 ≤ g.k := by
  have abs_sum : ∀ {ι : Type} (L : List ι) (f : ι → ℝ), 0 ≤ (L.map fun a => |f a|).sum := by
    intro ι L f
    refine List.sum_nonneg fun v hv => ?_
    obtain ⟨c, _, rfl⟩ := List.mem_map.1 hv
    exact abs_nonneg _
  cases h with
  | @dense b n m w w' bias bias' l l' mode mode' L c hd hw hb hw' hb' dw db hL hc =>
    have hm := hd.pos m (by simp)
    exact ⟨(abs_sum _ _).trans (hL 0 hm), (abs_nonneg _).trans (hc 0 hm), Nat.cast_nonneg _, zero_le_one⟩
  | @conv n ic oc h w kh kw k b k' b' l l' mode mode' L c hd hdk hdb hk hkw ho h0 h1 h2 h3 h4 h5 h0' h1' h2' h3' h4' h5' dk db
      hL hc =>
    have hm := hdk.pos oc (by simp)
    exact ⟨(abs_sum _ _).trans (hL 0 hm), (abs_nonneg _).trans (hc 0 hm), by positivity, zero_le_one⟩
  | activation ha hφ hL lip => exact ⟨hL, abs_nonneg _, le_refl _, le_refl _⟩
  | softmax => norm_num
  | flatten => norm_num
  | pool => exact ⟨zero_le_one, le_max_left _ _, le_refl _, le_refl _⟩
  | dropout => norm_num

theorem pass_nonneg {g : Gain} (hg : 0 ≤ g.L ∧ 0 ≤ g.c ∧ 0 ≤ g.N ∧ 0 ≤ g.k) {δ : ℝ} (hδ : 0 ≤ δ) {B : ℝ × ℝ} (h1 : 0 ≤ B.1)
    (h2 : 0 ≤ B.2) : 0 ≤ (g.pass δ B).1 ∧ 0 ≤ (g.pass δ B).2 := by
  obtain ⟨g1, g2, g3, g4⟩ := hg
  simp only [Gain.pass]
  constructor <;> positivity

theorem perturbed_layers {ρ ρ' : Type} {δ : ℝ} (E : Engine ρ ℝ) (E' : Engine ρ' ℝ) {ls ls' : List (Layer ℝ)} {ds es : List Nat}
    {gs : List Gain} (h : PerturbedLayers δ ls ls' ds es gs) :
    ∀ (r : ρ) (r' : ρ') (x x' : List Nat → ℝ),
    ∃ y y', (forwardLayers E ls (ofFn ds x) r).1 = .ok (ofFn es y) ∧ (forwardLayers E' ls' (ofFn ds x') r').1 = .ok (ofFn es y') ∧
      ∀ B, NearBy ds x x' B → 0 ≤ B.1 → 0 ≤ B.2 → 0 ≤ δ → NearBy es y y' (gs.foldl (fun B g => g.pass δ B) B) := by
  induction h with
  | nil ds => exact fun r r' x x' => ⟨x, x', rfl, rfl, fun B hB _ _ _ => hB⟩
  | @cons l l' ls ls' ds es hs g gs h hl ih =>
    intro r r' x x'
    obtain ⟨y, y', f1, f2, f3⟩ := perturbed_step E E' h r r' x x'
    obtain ⟨r1, g1⟩ := forwardLayers_split E l ls _ _ r f1
    obtain ⟨r2, g2⟩ := forwardLayers_split E' l' ls' _ _ r' f2
    obtain ⟨z, z', k1, k2, k3⟩ := ih r1 r2 y y'
    refine ⟨z, z', by rw [g1, k1], by rw [g2, k2], fun B hB h1 h2 hδ => ?_⟩
    obtain ⟨p1, p2⟩ := pass_nonneg (gain_nonneg h) hδ h1 h2
    exact k3 _ (f3 B hB h1 h2 hδ) p1 p2 hδ

theorem gains_nonneg {δ : ℝ} {ls ls' : List (Layer ℝ)} {ds es : List Nat} {gs : List Gain} (h : PerturbedLayers δ ls ls' ds es gs) :
    ∀ g ∈ gs, 0 ≤ g.L ∧ 0 ≤ g.c ∧ 0 ≤ g.N ∧ 0 ≤ g.k := by
  induction h with
  | nil => simp
  | cons h hl ih =>
    intro g hg
    rcases List.mem_cons.1 hg with rfl | hg
    · exact gain_nonneg h
    · exact ih g hg

theorem pass_zero (gs : List Gain) : ∀ B : ℝ × ℝ, (gs.foldl (fun B g => g.pass 0 B) B).2 = (gs.map Gain.L).prod * B.2 := by
  induction gs with
  | nil => simp
  | cons g gs ih =>
    intro B
    rw [List.foldl_cons, ih, List.map_cons, List.prod_cons]
    simp only [Gain.pass]
    ring

theorem pass_small (gs : List Gain) (hg : ∀ g ∈ gs, 0 ≤ g.L ∧ 0 ≤ g.c ∧ 0 ≤ g.N ∧ 0 ≤ g.k) {ε : ℝ} : ∀ {S : ℝ}, 0 ≤ S → 0 < ε →
    ∃ η > 0, ∀ δ e, 0 ≤ δ → δ ≤ η → 0 ≤ e → e ≤ η → (gs.foldl (fun B g => g.pass δ B) (S, e)).2 ≤ ε := by
  induction gs with
  | nil => exact fun _ hε => ⟨ε, hε, fun δ e _ _ _ h => h⟩
  | cons g gs ih =>
    intro S hS hε
    obtain ⟨g1, g2, g3, g4⟩ := hg g List.mem_cons_self
    obtain ⟨η, hη, key⟩ := ih (fun g h => hg g (List.mem_cons_of_mem _ h)) (S := g.L * S + g.c) (by positivity) hε
    have hD : 0 < g.L + g.N * (S + 1) + g.k + 1 := by positivity
    refine ⟨min (min 1 η) (η / (g.L + g.N * (S + 1) + g.k + 1)), by positivity, fun δ e hδ hδη he heη => ?_⟩
    obtain ⟨⟨d1, d2⟩, d3⟩ := (le_min_iff.trans (and_congr_left' le_min_iff)).1 hδη
    obtain ⟨⟨e1, e2⟩, e3⟩ := (le_min_iff.trans (and_congr_left' le_min_iff)).1 heη
    rw [List.foldl_cons]
    refine key δ _ hδ d2 (by positivity) ?_
    have h1 : g.L * e ≤ g.L * (η / (g.L + g.N * (S + 1) + g.k + 1)) := mul_le_mul_of_nonneg_left e3 g1
    have h2 : δ * (g.N * (S + e) + g.k) ≤ η / (g.L + g.N * (S + 1) + g.k + 1) * (g.N * (S + 1) + g.k) := by
      refine mul_le_mul d3 ?_ (by positivity) (by positivity)
      have := mul_le_mul_of_nonneg_left (by linarith : S + e ≤ S + 1) g3
      linarith
    have h3 : η / (g.L + g.N * (S + 1) + g.k + 1) * (g.L + g.N * (S + 1) + g.k + 1) = η := div_mul_cancel₀ _ hD.ne'
    have h4 : 0 ≤ η / (g.L + g.N * (S + 1) + g.k + 1) := by positivity
    show g.L * e + δ * (g.N * (S + e) + g.k) ≤ η
    nlinarith

theorem bounded_by (ds : List Nat) (x : List Nat → ℝ) : ∃ S, 0 ≤ S ∧ ∀ i, ValidIdx ds i → |x i| ≤ S := by
  refine ⟨((indices ds).map fun i => |x i|).sum, List.sum_nonneg fun v hv => ?_, fun i hi => ?_⟩
  · obtain ⟨i, _, rfl⟩ := List.mem_map.1 hv
    exact abs_nonneg _
  · refine List.single_le_sum (fun v hv => ?_) _ (List.mem_map_of_mem (f := fun i => |x i|) (mem_indices.2 hi))
    obtain ⟨i, _, rfl⟩ := List.mem_map.1 hv
    exact abs_nonneg _

theorem sigmoid_slope (x : ℝ) : |x| * (sigmoid x * (1 - sigmoid x)) ≤ 1 := by
  have hE := Real.exp_pos (-x)
  have h1 : sigmoid x * (1 - sigmoid x) = Real.exp (-x) / (1 + Real.exp (-x)) ^ 2 := by
    unfold sigmoid
    field_simp
    ring
  rw [h1, ← mul_div_assoc, div_le_one (by positivity)]
  rcases _root_.le_total 0 x with h | h
  · rw [abs_of_nonneg h]
    have h2 := Real.add_one_le_exp x
    have h3 : Real.exp x * Real.exp (-x) = 1 := by rw [← Real.exp_add]; simp
    nlinarith
  · rw [abs_of_nonpos h]
    have h2 := Real.add_one_le_exp (-x)
    nlinarith

theorem softplus_slope (x : ℝ) : |x| * ((1 - Real.tanh (Real.log (1 + Real.exp x)) * Real.tanh (Real.log (1 + Real.exp x))) *
    sigmoid x) ≤ 4 := by
  have hA := Real.exp_pos x
  have hs1 := sigmoid_pos x
  have hs2 := sigmoid_lt_one x
  have ht1 := tanh_lt_one' (Real.log (1 + Real.exp x))
  have ht2 := neg_one_lt_tanh' (Real.log (1 + Real.exp x))
  have hq0 : 0 ≤ 1 - Real.tanh (Real.log (1 + Real.exp x)) * Real.tanh (Real.log (1 + Real.exp x)) := by nlinarith
  rcases _root_.le_total 0 x with h | h
  · rw [abs_of_nonneg h]
    have e1 : Real.exp (Real.log (1 + Real.exp x) * 2) = (1 + Real.exp x) ^ 2 := by
      rw [mul_comm, two_mul, Real.exp_add, Real.exp_log (by positivity)]
      ring
    have e2 : 1 - Real.tanh (Real.log (1 + Real.exp x)) * Real.tanh (Real.log (1 + Real.exp x)) ≤ 4 / (1 + Real.exp x) ^ 2 := by
      rw [tanh_eq_exp, e1, le_div_iff₀ (by positivity)]
      have hQ : 0 < (1 + Real.exp x) ^ 2 := by positivity
      generalize (1 + Real.exp x) ^ 2 = Q at *
      have : (1 - (Q - 1) / (Q + 1) * ((Q - 1) / (Q + 1))) * Q = 4 * (Q / (Q + 1)) ^ 2 := by field_simp; ring
      rw [this]
      have h3 : Q / (Q + 1) ≤ 1 := by rw [div_le_one (by linarith)]; linarith
      have h4 : 0 ≤ Q / (Q + 1) := by positivity
      nlinarith
    have h2 := Real.add_one_le_exp x
    have h3 : x * (4 / (1 + Real.exp x) ^ 2) ≤ 4 := by
      rw [← mul_div_assoc, div_le_iff₀ (by positivity)]
      nlinarith
    have h4 := mul_le_mul_of_nonneg_left e2 h
    have h5 : x * (1 - Real.tanh (Real.log (1 + Real.exp x)) * Real.tanh (Real.log (1 + Real.exp x))) ≤ 4 := h4.trans h3
    have h6 : 0 ≤ x * (1 - Real.tanh (Real.log (1 + Real.exp x)) * Real.tanh (Real.log (1 + Real.exp x))) := mul_nonneg h hq0
    rw [← mul_assoc]
    nlinarith
  · rw [abs_of_nonpos h]
    have h2 := Real.add_one_le_exp (-x)
    have h3 : Real.exp x * Real.exp (-x) = 1 := by rw [← Real.exp_add]; simp
    have h4 : sigmoid x ≤ Real.exp x := by
      unfold sigmoid
      rw [div_le_iff₀ (by positivity)]
      nlinarith
    have h5 : (-x) * sigmoid x ≤ 1 := by
      have : (-x) * sigmoid x ≤ (-x) * Real.exp x := mul_le_mul_of_nonneg_left h4 (by linarith)
      nlinarith
    have h6 : 0 ≤ (-x) * sigmoid x := mul_nonneg (by linarith) hs1.le
    have h7 : 1 - Real.tanh (Real.log (1 + Real.exp x)) * Real.tanh (Real.log (1 + Real.exp x)) ≤ 1 := by nlinarith [mul_self_nonneg (Real.tanh (Real.log (1 + Real.exp x)))]
    calc (-x) * ((1 - Real.tanh (Real.log (1 + Real.exp x)) * Real.tanh (Real.log (1 + Real.exp x))) * sigmoid x)
        = ((-x) * sigmoid x) * (1 - Real.tanh (Real.log (1 + Real.exp x)) * Real.tanh (Real.log (1 + Real.exp x))) := by ring
      _ ≤ 1 * 1 := mul_le_mul h5 h7 hq0 zero_le_one
      _ ≤ 4 := by norm_num

/-- All elementwise activations of the library have Lipschitz constants. -/
theorem act_lipschitz (a : Act ℝ) (ha : a ≠ .softmax) :
    ∃ (φ : ℝ → ℝ) (L : ℝ), (∀ t : Tensor ℝ, a.forward t = t.apply φ) ∧ 0 ≤ L ∧ ∀ s t, |φ s - φ t| ≤ L * |s - t| := by
  cases a with
  | softmax => exact absurd rfl ha
  | relu =>
    refine ⟨relu, 1, fun t => ?_, zero_le_one, fun s t => ?_⟩
    · show t.apply (fun x => cmax 0 x) = _
      congr 1
      funext x
      unfold cmax relu
      split
      · rw [max_eq_right (by linarith)]
      · rw [max_eq_left (by linarith)]
    · rw [one_mul]
      unfold relu
      rw [max_comm 0 s, max_comm 0 t]
      exact abs_max_sub_max_le_abs _ _ _
  | leakyRelu α => exact ⟨leaky α, max 1 |α|, fun _ => rfl, by positivity, leaky_lipschitz α⟩
  | sigmoid =>
    refine ⟨sigmoid, 1 / 4, fun _ => rfl, by norm_num, lipschitz_of_deriv hasDerivAt_sigmoid fun x => ?_⟩
    have h1 := sigmoid_pos x
    have h2 := sigmoid_lt_one x
    rw [abs_of_nonneg (by nlinarith)]
    nlinarith [sq_nonneg (sigmoid x - 1 / 2)]
  | tanh =>
    refine ⟨Real.tanh, 1, fun t => ?_, zero_le_one, lipschitz_of_deriv hasDerivAt_tanh' fun x => ?_⟩
    · show t.apply (fun x => (Real.exp (x * ((2 : Nat) : ℝ)) - 1) / (Real.exp (x * ((2 : Nat) : ℝ)) + 1)) = _
      congr 1
      funext x
      rw [tanh_eq_exp]
      norm_num
    · have h1 := tanh_lt_one' x
      have h2 := neg_one_lt_tanh' x
      rw [abs_of_nonneg (by nlinarith)]
      nlinarith [sq_nonneg (Real.tanh x)]
  | swish =>
    refine ⟨swish, 2, fun _ => rfl, by norm_num, lipschitz_of_deriv hasDerivAt_swish fun x => ?_⟩
    have h1 := sigmoid_pos x
    have h2 := sigmoid_lt_one x
    have h3 := sigmoid_slope x
    have e : sigmoid x * (1 + x * (1 - sigmoid x)) = sigmoid x + x * (sigmoid x * (1 - sigmoid x)) := by ring
    rw [e]
    have h4 := abs_add_le (sigmoid x) (x * (sigmoid x * (1 - sigmoid x)))
    rw [abs_mul, abs_of_nonneg (a := sigmoid x * (1 - sigmoid x)) (by nlinarith), abs_of_pos h1] at h4
    linarith
  | mish =>
    refine ⟨mish, 5, fun _ => rfl, by norm_num, lipschitz_of_deriv hasDerivAt_mish fun x => ?_⟩
    have h1 := tanh_lt_one' (Real.log (1 + Real.exp x))
    have h2 := neg_one_lt_tanh' (Real.log (1 + Real.exp x))
    have h3 := softplus_slope x
    have hs := sigmoid_pos x
    generalize Real.tanh (Real.log (1 + Real.exp x)) = t at *
    have hq : 0 ≤ (1 - t * t) * sigmoid x := mul_nonneg (by nlinarith) hs.le
    have h4 := abs_add_le t (x * (1 - t * t) * sigmoid x)
    rw [mul_assoc, abs_mul, abs_of_nonneg hq] at h4
    rw [mul_assoc]
    have h5 : |t| ≤ 1 := by rw [abs_le]; constructor <;> linarith
    linarith

theorem chain_gains {ls : List (Layer ℝ)} {ds es : List Nat} (hc : Chain ls ds es) :
    ∃ gs, ∀ δ, 0 ≤ δ → PerturbedLayers δ (ls.map (Layer.setTrainingMode false)) (ls.map (Layer.setTrainingMode false)) ds es gs := by
  induction hc with
  | nil ds => exact ⟨[], fun δ _ => .nil ds⟩
  | @cons l ls ds es hs ht hls ih =>
    obtain ⟨gs, hgs⟩ := ih
    suffices h : ∃ g, ∀ δ, 0 ≤ δ → Perturbed δ (l.setTrainingMode false) (l.setTrainingMode false) ds es g by
      obtain ⟨g, hg⟩ := h
      exact ⟨g :: gs, fun δ hδ => .cons (hg δ hδ) (hgs δ hδ)⟩
    have bound : ∀ (n : Nat) (f : Nat → ℝ), ∃ C, ∀ j < n, f j ≤ C := by
      intro n f
      induction n with
      | zero => exact ⟨0, by simp⟩
      | succ n ih =>
        obtain ⟨C, hC⟩ := ih
        refine ⟨max C (f n), fun j hj => ?_⟩
        rcases Nat.lt_succ_iff_lt_or_eq.1 hj with h | rfl
        · exact (hC j h).trans (le_max_left _ _)
        · exact le_max_right _ _
    cases ht with
    | @dense b n m w bias l mode hx hw hg hlw hlb =>
      obtain ⟨L, hL⟩ := bound m fun j => ((List.range n).map fun p => |w [p, j]|).sum
      obtain ⟨c, hc⟩ := bound m fun j => |bias [0, j]|
      exact ⟨_, fun δ hδ => .dense hg hlw hlb hlw hlb (by simpa using fun _ _ _ _ => hδ) (by simpa using fun _ _ => hδ) hL hc⟩
    | @elementwise _ l mode hd ha =>
      obtain ⟨φ, L, f1, f2, f3⟩ := act_lipschitz l.activation ha
      exact ⟨_, fun δ hδ => .activation rfl f1 f2 f3⟩
    | @softmax d ds l mode hd hne ha => exact ⟨_, fun δ hδ => .softmax hd hne ha ha⟩
    | @flatten d ds l mode hd hr => exact ⟨_, fun δ hδ => .flatten hd hr⟩
    | @conv n ic oc h w kh kw k b l mode hd hdk hdb hk hkw ho h0 h1 h2 h3 h4 h5 =>
      obtain ⟨L, hL⟩ := bound oc fun j => ((indices [kh, kw]).map fun a => |k [j, 0, a.getD 0 0, a.getD 1 0]|).sum
      obtain ⟨c, hc⟩ := bound oc fun j => |b [j, 0]|
      exact ⟨_, fun δ hδ => .conv hd hdk hdb hk hkw ho h0 h1 h2 h3 h4 h5 h0 h1 h2 h3 h4 h5 (by simpa using fun _ _ => hδ)
        (by simpa using fun _ _ => hδ) hL hc⟩
    | pool hd hp hs hph hpw => exact ⟨_, fun δ hδ => .pool hd hp hs hph hpw⟩
    | @dropout _ l hd => exact ⟨_, fun δ hδ => .dropout⟩

/-! ### C97 -/

/-- The bounds, passed from layer to layer, hold for the predictions: for models with the same layers whose parameters differ by
at most `δ` and inputs that differ by at most `B.2`. -/
theorem C97_predict {ρ ρ' : Type} {δ : ℝ} (hδ : 0 ≤ δ) (E : Engine ρ ℝ) (E' : Engine ρ' ℝ) (net : Net ρ ℝ) (net' : Net ρ' ℝ)
    {ds es : List Nat} {gs : List Gain} (h : PerturbedLayers δ net.layers net'.layers ds es gs) (x x' : List Nat → ℝ) (B : ℝ × ℝ)
    (hB : NearBy ds x x' B) (h1 : 0 ≤ B.1) (h2 : 0 ≤ B.2) :
    ∃ y y', (predict E (ofFn ds x) net).1 = .ok (ofFn es y) ∧ (predict E' (ofFn ds x') net').1 = .ok (ofFn es y') ∧
      NearBy es y y' (gs.foldl (fun B g => g.pass δ B) B) := by
  obtain ⟨y, y', k1, k2, k3⟩ := perturbed_layers E E' h net.rng net'.rng x x'
  exact ⟨y, y', k1, k2, k3 B hB h1 h2 hδ⟩

/-- Predictions are Lipschitz: inputs that differ by at most `e` everywhere give predictions that differ by at most `e` times the
product of the gains of the layers. -/
theorem C97_lipschitz {ρ ρ' : Type} (E : Engine ρ ℝ) (E' : Engine ρ' ℝ) (net : Net ρ ℝ) (net' : Net ρ' ℝ)
    {ds es : List Nat} {gs : List Gain} (h : PerturbedLayers 0 net.layers net'.layers ds es gs) (x x' : List Nat → ℝ) (e : ℝ)
    (he : 0 ≤ e) (hx : ∀ i, ValidIdx ds i → |x' i - x i| ≤ e) :
    ∃ y y', (predict E (ofFn ds x) net).1 = .ok (ofFn es y) ∧ (predict E' (ofFn ds x') net').1 = .ok (ofFn es y') ∧
      ∀ i, ValidIdx es i → |y' i - y i| ≤ (gs.map Gain.L).prod * e := by
  obtain ⟨S, hS0, hS⟩ := bounded_by ds x
  obtain ⟨y, y', k1, k2, k3⟩ := C97_predict (le_refl 0) E E' net net' h x x' (S, e) (fun i hi => ⟨hS i hi, hx i hi⟩) hS0 he
  refine ⟨y, y', k1, k2, fun i hi => (k3 i hi).2.trans (le_of_eq ?_)⟩
  exact pass_zero gs (S, e)

/-- Predictions depend continuously on the input and on all parameters at the same time. -/
theorem C97_continuous {ρ ρ' : Type} (E : Engine ρ ℝ) (E' : Engine ρ' ℝ) (net : Net ρ ℝ) {ds es : List Nat} {gs : List Gain}
    (x : List Nat → ℝ) {ε : ℝ} (hε : 0 < ε) :
    ∃ δ > 0, ∀ (net' : Net ρ' ℝ) (x' : List Nat → ℝ), PerturbedLayers δ net.layers net'.layers ds es gs →
      (∀ i, ValidIdx ds i → |x' i - x i| ≤ δ) →
      ∃ y y', (predict E (ofFn ds x) net).1 = .ok (ofFn es y) ∧ (predict E' (ofFn ds x') net').1 = .ok (ofFn es y') ∧
        ∀ i, ValidIdx es i → |y' i - y i| ≤ ε := by
  by_cases hg : ∀ g ∈ gs, 0 ≤ g.L ∧ 0 ≤ g.c ∧ 0 ≤ g.N ∧ 0 ≤ g.k
  · obtain ⟨S, hS0, hS⟩ := bounded_by ds x
    obtain ⟨δ, hδ, key⟩ := pass_small gs hg hS0 hε
    refine ⟨δ, hδ, fun net' x' hp hx => ?_⟩
    obtain ⟨y, y', k1, k2, k3⟩ := C97_predict hδ.le E E' net net' hp x x' (S, δ) (fun i hi => ⟨hS i hi, hx i hi⟩) hS0 hδ.le
    exact ⟨y, y', k1, k2, fun i hi => (k3 i hi).2.trans (key δ δ hδ.le (le_refl _) hδ.le (le_refl _))⟩
  · exact ⟨1, one_pos, fun net' x' hp _ => absurd (gains_nonneg hp) hg⟩

/-- Every well-shaped model (C67), in evaluation mode, is Lipschitz, with a constant that does not depend on the inputs. -/
theorem C97_exists {ρ : Type} (E : Engine ρ ℝ) (net : Net ρ ℝ) {ds es : List Nat} (hc : Chain net.layers ds es) :
    ∃ K ≥ 0, ∀ (x x' : List Nat → ℝ) (e : ℝ), 0 ≤ e → (∀ i, ValidIdx ds i → |x' i - x i| ≤ e) →
      ∃ y y', (predict E (ofFn ds x) (net.setTrainingMode false)).1 = .ok (ofFn es y) ∧
        (predict E (ofFn ds x') (net.setTrainingMode false)).1 = .ok (ofFn es y') ∧
        ∀ i, ValidIdx es i → |y' i - y i| ≤ K * e := by
  obtain ⟨gs, hgs⟩ := chain_gains hc
  refine ⟨(gs.map Gain.L).prod, ?_, fun x x' e he hx => C97_lipschitz E E (net.setTrainingMode false) (net.setTrainingMode false) (hgs 0 (le_refl _)) x x' e he hx⟩
  refine List.prod_nonneg fun v hv => ?_
  obtain ⟨g, hg, rfl⟩ := List.mem_map.1 hv
  exact (gains_nonneg (hgs 0 (le_refl _)) g hg).1

/-! ### A concrete model -/

/-- `exExact` with weights 3.01 instead of 3. -/
noncomputable def exNudged : Net Unit ℝ where
  layers := [⟨.fc { weights := ofFn [2, 2] fun _ => 301 / 100, biases := ofFn [1, 2] fun _ => 1 }, true⟩,
    ⟨.activation { activation := .relu }, true⟩,
    ⟨.fc { weights := ofFn [2, 1] fun _ => 301 / 100, biases := ofFn [1, 1] fun _ => 1 }, true⟩]
  rng := ()

theorem exNudged_perturbed : ∃ (φ : ℝ → ℝ) (L : ℝ), PerturbedLayers (1 / 100) exExact.layers exNudged.layers [1, 2] [1, 1]
    [⟨6, 1, (2 : Nat), 1⟩, ⟨L, |φ 0|, 0, 0⟩, ⟨6, 1, (2 : Nat), 1⟩] := by
  obtain ⟨φ, L, f1, f2, f3⟩ := act_lipschitz .relu (by simp)
  have h2 : Dims [1, 2] := ⟨by simp, by simp, by simp⟩
  have h3 : Dims [1, 1] := ⟨by simp, by simp, by simp⟩
  have hs : ∀ j : Nat, ((List.range 2).map fun _ => |(3 : ℝ)|).sum ≤ 6 := by
    intro j
    simp [List.range_succ]
    norm_num
  refine ⟨φ, L, ?_⟩
  unfold exExact exNudged
  refine .cons (.dense (w := fun _ => 3) (w' := fun _ => 301 / 100) (bias := fun _ => 1) (bias' := fun _ => 1) h2 rfl rfl rfl rfl
    ?_ ?_ (fun j _ => hs j) ?_) (.cons (.activation rfl f1 f2 f3) (.cons (.dense (w := fun _ => 3) (w' := fun _ => 301 / 100)
      (bias := fun _ => 1) (bias' := fun _ => 1) h3 rfl rfl rfl rfl ?_ ?_ (fun j _ => hs j) ?_) (.nil _)))
  all_goals intros; norm_num

/-- The hypotheses of C97_predict hold for inputs `1, 1` and `1.01, 1.01`. -/
example (E : Engine Unit ℝ) : ∃ gs y y', (predict E (ofFn [1, 2] fun _ => 1) exExact).1 = .ok (ofFn [1, 1] y) ∧
    (predict E (ofFn [1, 2] fun _ => 101 / 100) exNudged).1 = .ok (ofFn [1, 1] y') ∧
    NearBy [1, 1] y y' (List.foldl (fun B g => Gain.pass (1 / 100) g B) (1, 1 / 100) gs) := by
  obtain ⟨φ, L, h⟩ := exNudged_perturbed
  obtain ⟨y, y', h1, h2, h3⟩ := C97_predict (by norm_num) E E exExact exNudged h (fun _ => 1) (fun _ => 101 / 100) (1, 1 / 100)
    (fun i _ => by norm_num) (by norm_num) (by norm_num)
  exact ⟨_, y, y', h1, h2, h3⟩

/-- A well-shaped model of C67 with convolution, pooling, flattening and softmax. -/
example (E : Engine Unit ℝ) : ∃ K ≥ 0, ∀ (x x' : List Nat → ℝ) (e : ℝ), 0 ≤ e → (∀ i, ValidIdx [2, 1, 8, 8] i → |x' i - x i| ≤ e) →
      ∃ y y', (predict E (ofFn [2, 1, 8, 8] x) (exConvNet.setTrainingMode false)).1 = .ok (ofFn [2, 10] y) ∧
        (predict E (ofFn [2, 1, 8, 8] x') (exConvNet.setTrainingMode false)).1 = .ok (ofFn [2, 10] y') ∧
        ∀ i, ValidIdx [2, 10] i → |y' i - y i| ≤ K * e := C97_exists E exConvNet exConvNet_chain

end SmartDNN
