import Verif.Props.Typed
import Verif.Props.MaxPool

/-!
# Convolutional feature extractors look at windows and follow translations (C95)

A stack of convolutions, elementwise activations and unpadded max poolings answers position `(r, q)` from a window of
the image only.  The window has a fixed size and moves in fixed steps, both computed from the layers alone.  The
answer depends on what the window shows and on nothing else: not on where in the image the window is, how large the
image is, which place in the batch it has or what the rest of the batch holds.
-/

namespace SmartDNN
open Net Spec

/-! ### Specification -/

/-- `Looks l kh kw s`: one output of the layer `l` is computed from a window of `kh` rows and `kw` columns, and
neighbouring outputs have windows `s` apart.  Convolutions always move by one: the code ignores their stride, padding and
dilation (C43). -/
inductive Spec.Looks : Layer ℝ → Nat → Nat → Nat → Prop where
  | conv {kh kw : Nat} (l : Conv ℝ) (mode : Bool) (h : l.kernelHeight = kh) (hw : l.kernelWidth = kw) :
      Looks ⟨.conv l, mode⟩ kh kw 1
  | activation (l : ActLayer ℝ) (mode : Bool) (h : l.activation ≠ .softmax) : Looks ⟨.activation l, mode⟩ 1 1 1
  | pool (p s : Nat) (ninf : ℝ) (inp : Option (Tensor ℝ)) (mode : Bool) : Looks ⟨.maxPool ⟨p, s, 0, ninf, inp⟩, mode⟩ p p s

/-- `Sees ls rh rw s`: one output of the stack `ls` is computed from a window of `rh` rows and `rw` columns of the image,
and neighbouring outputs have windows `s` apart.  A window of `rh` rows of what the first layer returns covers
`s1 (rh - 1) + k` rows of the image. -/
inductive Spec.Sees : List (Layer ℝ) → Nat → Nat → Nat → Prop where
  | nil : Sees [] 1 1 1
  | cons {l : Layer ℝ} {ls : List (Layer ℝ)} {kh kw s rh rw S : Nat} (hl : Looks l kh kw s) (hls : Sees ls rh rw S) :
      Sees (l :: ls) (s * (rh - 1) + kh) (s * (rw - 1) + kw) (s * S)

/-- The window at `(i, j)` of image `b` of `x` shows the same as the window at `(i2, j2)` of image `b2` of `x2`, in all
`c` channels. -/
def Spec.SameWindow (c rh rw : Nat) (x : List Nat → ℝ) (b i j : Nat) (x2 : List Nat → ℝ) (b2 i2 j2 : Nat) : Prop :=
  ∀ a < c, ∀ u < rh, ∀ v < rw, x [b, a, i + u, j + v] = x2 [b2, a, i2 + u, j2 + v]

/-! ### One layer -/

theorem act_elementwise (a : Act ℝ) (ha : a ≠ .softmax) :
    ∃ φ : ℝ → ℝ, ∀ (ds : List Nat) (f : List Nat → ℝ), a.forward (ofFn ds f) = .ok (ofFn ds fun i => φ (f i)) := by
  have key : ∀ φ : ℝ → ℝ, (∀ t, a.forward t = t.apply φ) →
      ∃ φ : ℝ → ℝ, ∀ (ds : List Nat) (f : List Nat → ℝ), a.forward (ofFn ds f) = .ok (ofFn ds fun i => φ (f i)) := by
    intro φ h
    refine ⟨φ, fun ds f => ?_⟩
    rw [h]
    simp only [Tensor.apply, map_ofFn]
  cases a with
  | softmax => exact (ha rfl).elim
  | _ => exact key _ fun _ => rfl

/-- What one layer does to two batches of images. -/
structure StepFacts {ρ : Type} (E : Engine ρ ℝ) (l : Layer ℝ) (kh kw s n c h w m h2 w2 : Nat) (es es2 : List Nat)
    (c' h' w' h2' w2' : Nat) : Prop where
  out1 : es = [n, c', h', w']
  out2 : es2 = [m, c', h2', w2']
  fit : ∀ i < h', s * i + kh ≤ h
  fitw : ∀ i < w', s * i + kw ≤ w
  fit2 : ∀ i < h2', s * i + kh ≤ h2
  fitw2 : ∀ i < w2', s * i + kw ≤ w2
  run : ∀ (r r2 : ρ) (x x2 : List Nat → ℝ), ∃ y y2 l' l2' r' r2',
    Layer.forward E (ofFn [n, c, h, w] x) (l, r) = (.ok (ofFn [n, c', h', w'] y), (l', r')) ∧
    Layer.forward E (ofFn [m, c, h2, w2] x2) (l, r2) = (.ok (ofFn [m, c', h2', w2'] y2), (l2', r2')) ∧
    ∀ b < n, ∀ b2 < m, ∀ o < c', ∀ i < h', ∀ j < w', ∀ i2 < h2', ∀ j2 < w2',
      SameWindow c kh kw x b (s * i) (s * j) x2 b2 (s * i2) (s * j2) → y [b, o, i, j] = y2 [b2, o, i2, j2]

theorem looks_step {ρ : Type} (E : Engine ρ ℝ) {l : Layer ℝ} {kh kw s : Nat} (hl : Looks l kh kw s)
    {n c h w m h2 w2 : Nat} {es es2 : List Nat} (ht : Typed l [n, c, h, w] es) (ht2 : Typed l [m, c, h2, w2] es2) :
    ∃ c' h' w' h2' w2', StepFacts E l kh kw s n c h w m h2 w2 es es2 c' h' w' h2' w2' := by
  cases hl with
  | conv l mode q1 q2 =>
    have hto : ∀ x : ℝ, MathFn.toFloat x = x := fun _ => rfl
    cases ht with
    | @conv _ _ oc _ _ kh kw k b _ _ hd hdk hdb hk hkw ho h0 h1 h2' h3 h4 h5 =>
    cases ht2 with
    | @conv _ _ oc2 _ _ kh2 kw2 k2 b2 _ _ hd2 hdk2 hdb2 hk2 hkw2 ho2 g0 g1 g2 g3 g4 g5 =>
    have hkp := hdk.pos kh (by simp)
    have hkwp := hdk.pos kw (by simp)
    have hcp := hd.pos c (by simp)
    rename_i kh0 kw0
    obtain rfl : oc2 = oc := by omega
    obtain rfl : kh2 = kh := by omega
    obtain rfl : kw2 = kw := by omega
    obtain rfl : kh0 = kh2 := by omega
    obtain rfl : kw0 = kw2 := by omega
    refine ⟨oc2, h - kh0 + 1, w - kw0 + 1, h2 - kh0 + 1, w2 - kw0 + 1, rfl, rfl, by omega, by omega, by omega, by omega, ?_⟩
    intro r r2 x x2
    refine ⟨Spec.conv 1 kh0 kw0 1 0 1 h w k b x, Spec.conv 1 kh0 kw0 1 0 1 h2 w2 k b x2,
      ⟨.conv { l with input := some (ofFn [n, c, h, w] x) }, mode⟩,
      ⟨.conv { l with input := some (ofFn [m, c, h2, w2] x2) }, mode⟩, r, r2, ?_, ?_, ?_⟩
    · simp only [Layer.forward, Layer.onKind]
      rw [conv_forward hto hd hdk hdb hk hkw ho k b x l h0 h1 h2' h3 h4 h5]
    · simp only [Layer.forward, Layer.onKind]
      rw [conv_forward hto hd2 hdk hdb hk2 hkw2 ho2 k b x2 l h0 h1 h2' h3 h4 h5]
    · intro b hb b2 hb2 o ho i hi j hj i2 hi2 j2 hj2 hw
      simp only [Spec.conv, padded, List.getD_cons_zero, List.getD_cons_succ, Finset.range_one, Finset.sum_singleton, mul_one,
        zero_le, zero_add, true_and, Nat.sub_zero]
      congr 1
      refine Finset.sum_congr rfl fun u hu => Finset.sum_congr rfl fun v hv => ?_
      rw [Finset.mem_range] at hu hv
      rw [if_pos ⟨by omega, by omega⟩, if_pos ⟨by omega, by omega⟩]
      have := hw 0 hcp u hu v hv
      simp only [one_mul] at this
      rw [this]
  | activation l mode ha =>
    obtain ⟨φ, hφ⟩ := act_elementwise l.activation ha
    cases ht with
    | softmax _ _ h => exact (ha h).elim
    | elementwise hd _ =>
    cases ht2 with
    | softmax _ _ h => exact (ha h).elim
    | elementwise hd2 _ =>
    refine ⟨c, h, w, h2, w2, rfl, rfl, by omega, by omega, by omega, by omega, ?_⟩
    intro r r2 x x2
    refine ⟨fun i => φ (x i), fun i => φ (x2 i), _, _, r, r2,
      congrArg (fun y => (y, (⟨⟨.activation { l with input := some (ofFn _ x) }, mode⟩, r⟩ : Layer ℝ × ρ))) (hφ _ x),
      congrArg (fun y => (y, (⟨⟨.activation { l with input := some (ofFn _ x2) }, mode⟩, r2⟩ : Layer ℝ × ρ))) (hφ _ x2), ?_⟩
    intro b hb b2 hb2 o ho i hi j hj i2 hi2 j2 hj2 hw
    have := hw o ho 0 Nat.one_pos 0 Nat.one_pos
    simp only [one_mul, add_zero] at this
    simp only [this]
  | pool p s ninf inp mode =>
    cases ht with
    | pool hd hp hs hph hpw =>
    cases ht2 with
    | pool hd2 _ _ hph2 hpw2 =>
    have fit : ∀ {N : Nat}, kh ≤ N → ∀ i < (N - kh) / s + 1, s * i + kh ≤ N := by
      intro N hN i hi
      have h1 : i ≤ (N - kh) / s := by omega
      have h2 := (Nat.le_div_iff_mul_le hs).1 h1
      rw [mul_comm] at h2
      omega
    refine ⟨c, (h - kh) / s + 1, (w - kh) / s + 1, (h2 - kh) / s + 1, (w2 - kh) / s + 1, rfl, rfl, fit hph, fit hpw, fit hph2,
      fit hpw2, ?_⟩
    have e1 : poolOut kh s h = (h - kh) / s + 1 := if_pos hph
    have e2 : poolOut kh s w = (w - kh) / s + 1 := if_pos hpw
    have e3 : poolOut kh s h2 = (h2 - kh) / s + 1 := if_pos hph2
    have e4 : poolOut kh s w2 = (w2 - kh) / s + 1 := if_pos hpw2
    intro r r2 x x2
    obtain ⟨y, hy, gy⟩ := pool_greatest hd hp hs (Or.inl hph) (Or.inl hpw) x ninf inp
    obtain ⟨y2, hy2, gy2⟩ := pool_greatest hd2 hp hs (Or.inl hph2) (Or.inl hpw2) x2 ninf inp
    refine ⟨y, y2, ⟨.maxPool ⟨kh, s, 0, ninf, some (ofFn [n, c, h, w] x)⟩, mode⟩,
      ⟨.maxPool ⟨kh, s, 0, ninf, some (ofFn [m, c, h2, w2] x2)⟩, mode⟩, r, r2, ?_, ?_, ?_⟩
    · simp only [Layer.forward, Layer.onKind]
      rw [hy, e1, e2]
    · simp only [Layer.forward, Layer.onKind]
      rw [hy2, e3, e4]
    · intro b hb b2 hb2 o ho i hi j hj i2 hi2 j2 hj2 hw
      rw [← e1] at hi
      rw [← e2] at hj
      rw [← e3] at hi2
      rw [← e4] at hj2
      have k1 := gy b o i j (valid4_iff.2 ⟨_, _, _, _, rfl, hb, ho, hi, hj⟩)
      have k2 := gy2 b2 o i2 j2 (valid4_iff.2 ⟨_, _, _, _, rfl, hb2, ho, hi2, hj2⟩)
      have w1 := (poolOut_full hp hs hph hpw hi hj).2.2
      have w2' := (poolOut_full hp hs hph2 hpw2 hi2 hj2).2.2
      refine k1.unique ?_
      convert k2 using 2
      ext v
      simp only [Set.mem_ofPred_eq]
      constructor
      · rintro ⟨a, z, ha, rfl⟩
        obtain ⟨⟨a1, a2⟩, a3, a4⟩ := (w1 a z).1 ha
        refine ⟨i2 * s + (a - i * s), j2 * s + (z - j * s), (w2' _ _).2 ⟨⟨by omega, by omega⟩, by omega, by omega⟩, ?_⟩
        have := hw o ho (a - i * s) (by omega) (z - j * s) (by omega)
        rw [mul_comm s, mul_comm s, mul_comm s, mul_comm s] at this
        rw [← this, show i * s + (a - i * s) = a by omega, show j * s + (z - j * s) = z by omega]
      · rintro ⟨a, z, ha, rfl⟩
        obtain ⟨⟨a1, a2⟩, a3, a4⟩ := (w2' a z).1 ha
        refine ⟨i * s + (a - i2 * s), j * s + (z - j2 * s), (w1 _ _).2 ⟨⟨by omega, by omega⟩, by omega, by omega⟩, ?_⟩
        have := hw o ho (a - i2 * s) (by omega) (z - j2 * s) (by omega)
        rw [mul_comm s, mul_comm s, mul_comm s, mul_comm s] at this
        rw [this, show i2 * s + (a - i2 * s) = a by omega, show j2 * s + (z - j2 * s) = z by omega]

/-! ### A stack of layers -/

theorem sees_pos {ls : List (Layer ℝ)} {rh rw S : Nat} (h : Sees ls rh rw S) : ∀ {ds es : List Nat}, Chain ls ds es →
    0 < rh ∧ 0 < rw := by
  cases h with
  | nil => exact fun _ => ⟨Nat.one_pos, Nat.one_pos⟩
  | cons hl hls =>
    intro ds es hc
    cases hc with
    | cons ht _ =>
      cases hl with
      | conv l mode q1 q2 =>
        cases ht with
        | @conv _ _ oc _ _ kh kw k b _ _ hd hdk hdb hk hkw ho h0 h1 h2' h3 h4 h5 =>
          have := hdk.pos kh (by simp)
          have := hdk.pos kw (by simp)
          omega
      | activation => omega
      | pool p s =>
        cases ht with
        | pool hd hp hs hph hpw => omega

theorem sees_layers {ρ : Type} (E : Engine ρ ℝ) {ls : List (Layer ℝ)} {rh rw S : Nat} (hs : Sees ls rh rw S) :
    ∀ {n c h w m h2 w2 : Nat} {c' h' w' d' h2' w2' n' m' : Nat}, Chain ls [n, c, h, w] [n', c', h', w'] →
    Chain ls [m, c, h2, w2] [m', d', h2', w2'] →
    n' = n ∧ m' = m ∧ d' = c' ∧ (∀ i < h', S * i + rh ≤ h) ∧ (∀ i < w', S * i + rw ≤ w) ∧
    (∀ i < h2', S * i + rh ≤ h2) ∧ (∀ i < w2', S * i + rw ≤ w2) ∧
    ∀ (r r2 : ρ) (x x2 : List Nat → ℝ), ∃ y y2 ls' ls2' r' r2',
      forwardLayers E ls (ofFn [n, c, h, w] x) r = (.ok (ofFn [n, c', h', w'] y), ls', r') ∧
      forwardLayers E ls (ofFn [m, c, h2, w2] x2) r2 = (.ok (ofFn [m, c', h2', w2'] y2), ls2', r2') ∧
      ∀ b < n, ∀ b2 < m, ∀ o < c', ∀ i < h', ∀ j < w', ∀ i2 < h2', ∀ j2 < w2',
        SameWindow c rh rw x b (S * i) (S * j) x2 b2 (S * i2) (S * j2) → y [b, o, i, j] = y2 [b2, o, i2, j2] := by
  induction hs with
  | nil =>
    intro n c h w m h2 w2 c' h' w' d' h2' w2' n' m' hc hc2
    cases hc
    cases hc2
    refine ⟨rfl, rfl, rfl, by omega, by omega, by omega, by omega, fun r r2 x x2 => ⟨x, x2, [], [], r, r2, rfl, rfl, ?_⟩⟩
    intro b hb b2 hb2 o ho i hi j hj i2 hi2 j2 hj2 hw
    have := hw o ho 0 Nat.one_pos 0 Nat.one_pos
    simpa only [one_mul, add_zero] using this
  | @cons l ls kh kw s rh rw S hl hls ih =>
    intro n c h w m h2 w2 c' h' w' d' h2' w2' n' m' hc hc2
    cases hc with
    | cons ht hc =>
    cases hc2 with
    | cons ht2 hc2 =>
    obtain ⟨a, p, q, p2, q2, rfl, rfl, f1, f2, f3, f4, f5⟩ := looks_step E hl ht ht2
    obtain ⟨p1, p2'⟩ := sees_pos hls hc
    obtain ⟨rfl, rfl, rfl, g1, g2, g3, g4, g5⟩ := ih hc hc2
    have fits : ∀ {k R i N M : Nat}, 0 < R → (∀ i < M, s * i + k ≤ N) → S * i + R ≤ M → s * S * i + (s * (R - 1) + k) ≤ N := by
      intro k R i N M hR hf hi
      have := hf (S * i + (R - 1)) (by omega)
      rw [mul_add, ← mul_assoc] at this
      omega
    refine ⟨rfl, rfl, rfl, fun i hi => fits p1 f1 (g1 i hi), fun i hi => fits p2' f2 (g2 i hi), fun i hi => fits p1 f3 (g3 i hi),
      fun i hi => fits p2' f4 (g4 i hi), fun r r2 x x2 => ?_⟩
    obtain ⟨y, y2, l', l2', r', r2', k1, k2, k3⟩ := f5 r r2 x x2
    obtain ⟨z, z2, ls', ls2', r'', r2'', m1, m2, m3⟩ := g5 r' r2' y y2
    refine ⟨z, z2, l' :: ls', l2' :: ls2', r'', r2'', ?_, ?_, ?_⟩
    · rw [forwardLayers_cons, k1]
      simp only
      rw [m1]
    · rw [forwardLayers_cons, k2]
      simp only
      rw [m2]
    · intro b hb b2 hb2 o ho i hi j hj i2 hi2 j2 hj2 hw
      refine m3 b hb b2 hb2 o ho i hi j hj i2 hi2 j2 hj2 fun o' ho' u hu v hv => ?_
      have t1 := g1 i hi
      have t2 := g2 j hj
      have t3 := g3 i2 hi2
      have t4 := g4 j2 hj2
      refine k3 b hb b2 hb2 o' ho' _ (by omega) _ (by omega) _ (by omega) _ (by omega) fun a' ha u' hu' v' hv' => ?_
      have hb1 : s * u ≤ s * (rh - 1) := Nat.mul_le_mul_left _ (by omega)
      have hb2 : s * v ≤ s * (rw - 1) := Nat.mul_le_mul_left _ (by omega)
      have := hw a' ha (s * u + u') (by omega) (s * v + v') (by omega)
      simp only [mul_add, add_assoc, mul_assoc] at this ⊢
      exact this

/-! ### C95 -/

/-- The answer at `(i, j)` depends only on what the window at `(s i, s j)`, which lies inside the image, shows: two calls
of `predict` on batches of any sizes give the same answer wherever the windows show the same. -/
theorem C95_window {ρ : Type} (E : Engine ρ ℝ) (net : Net ρ ℝ) {rh rw s n c h w m h2 w2 c' h' w' h2' w2' : Nat}
    (hs : Sees net.layers rh rw s) (hc : Chain net.layers [n, c, h, w] [n, c', h', w'])
    (hc2 : Chain net.layers [m, c, h2, w2] [m, c', h2', w2']) (x x2 : List Nat → ℝ) :
    (∀ i < h', s * i + rh ≤ h) ∧ (∀ j < w', s * j + rw ≤ w) ∧
    ∃ y y2 net1 net2, predict E (ofFn [n, c, h, w] x) net = (.ok (ofFn [n, c', h', w'] y), net1) ∧
      predict E (ofFn [m, c, h2, w2] x2) net = (.ok (ofFn [m, c', h2', w2'] y2), net2) ∧
      ∀ b < n, ∀ b2 < m, ∀ o < c', ∀ i < h', ∀ j < w', ∀ i2 < h2', ∀ j2 < w2',
        SameWindow c rh rw x b (s * i) (s * j) x2 b2 (s * i2) (s * j2) → y [b, o, i, j] = y2 [b2, o, i2, j2] := by
  obtain ⟨-, -, -, f1, f2, -, -, f⟩ := sees_layers E hs hc hc2
  obtain ⟨y, y2, ls', ls2', r', r2', k1, k2, k3⟩ := f net.rng net.rng x x2
  refine ⟨f1, f2, y, y2, { net with layers := ls', rng := r' }, { net with layers := ls2', rng := r2' }, ?_, ?_, k3⟩
  · unfold predict
    rw [k1]
  · unfold predict
    rw [k2]

/-- Changing pixels outside the window of an answer does not change the answer. -/
theorem C95_local {ρ : Type} (E : Engine ρ ℝ) (net : Net ρ ℝ) {rh rw s n c h w c' h' w' : Nat}
    (hs : Sees net.layers rh rw s) (hc : Chain net.layers [n, c, h, w] [n, c', h', w']) (x x2 : List Nat → ℝ) :
    ∃ y y2 net1 net2, predict E (ofFn [n, c, h, w] x) net = (.ok (ofFn [n, c', h', w'] y), net1) ∧
      predict E (ofFn [n, c, h, w] x2) net = (.ok (ofFn [n, c', h', w'] y2), net2) ∧
      ∀ b < n, ∀ o < c', ∀ i < h', ∀ j < w',
        (∀ a < c, ∀ u v, s * i ≤ u → u < s * i + rh → s * j ≤ v → v < s * j + rw → x [b, a, u, v] = x2 [b, a, u, v]) →
        y [b, o, i, j] = y2 [b, o, i, j] := by
  obtain ⟨-, -, y, y2, n1, n2, h1, h2, h3⟩ := C95_window E net hs hc hc x x2
  refine ⟨y, y2, n1, n2, h1, h2, fun b hb o ho i hi j hj hx => h3 b hb b hb o ho i hi j hj i hi j hj ?_⟩
  intro a ha u hu v hv
  exact hx a ha _ _ (by omega) (by omega) (by omega) (by omega)

/-- Moving the image by `s dy` rows and `s dx` columns moves the answers by `dy` rows and `dx` columns. -/
theorem C95_shift {ρ : Type} (E : Engine ρ ℝ) (net : Net ρ ℝ) {rh rw s n c h w c' h' w' : Nat}
    (hs : Sees net.layers rh rw s) (hc : Chain net.layers [n, c, h, w] [n, c', h', w']) (x x2 : List Nat → ℝ) (dy dx : Nat)
    (hx : ∀ b < n, ∀ a < c, ∀ u v, u + s * dy < h → v + s * dx < w → x2 [b, a, u + s * dy, v + s * dx] = x [b, a, u, v]) :
    ∃ y y2 net1 net2, predict E (ofFn [n, c, h, w] x) net = (.ok (ofFn [n, c', h', w'] y), net1) ∧
      predict E (ofFn [n, c, h, w] x2) net = (.ok (ofFn [n, c', h', w'] y2), net2) ∧
      ∀ b < n, ∀ o < c', ∀ i j, i + dy < h' → j + dx < w' → y2 [b, o, i + dy, j + dx] = y [b, o, i, j] := by
  obtain ⟨g1, g2, y, y2, n1, n2, h1, h2, h3⟩ := C95_window E net hs hc hc x x2
  refine ⟨y, y2, n1, n2, h1, h2, fun b hb o ho i j hi hj =>
    (h3 b hb b hb o ho i (by omega) j (by omega) _ hi _ hj ?_).symm⟩
  intro a ha u hu v hv
  have t1 := g1 _ hi
  have t2 := g2 _ hj
  rw [mul_add] at t1 t2
  have := hx b hb a ha (s * i + u) (s * j + v) (by omega) (by omega)
  rw [← this, show s * i + u + s * dy = s * (i + dy) + u by rw [mul_add]; omega,
    show s * j + v + s * dx = s * (j + dx) + v by rw [mul_add]; omega]

/-! ### A concrete model

Convolution with a 3x3 kernel, ReLU, 2x2 pooling, convolution with a 2x2 kernel: windows of 6 rows and columns, 2 apart. -/

noncomputable section

def exFeatures : Net Unit ℝ where
  layers := [
    ⟨.conv ⟨1, 2, 3, 3, 1, 0, 1, ofFn [2, 1, 3, 3] (fun _ => 1), ofFn [2, 1] (fun _ => 0), none, none, none⟩, false⟩,
    ⟨.activation { activation := .relu }, false⟩,
    ⟨.maxPool ⟨2, 2, 0, -1000, none⟩, false⟩,
    ⟨.conv ⟨2, 3, 2, 2, 1, 0, 1, ofFn [3, 2, 2, 2] (fun _ => 1), ofFn [3, 1] (fun _ => 0), none, none, none⟩, false⟩]
  rng := ()

theorem exFeatures_sees : Sees exFeatures.layers 6 6 2 :=
  .cons (kh := 3) (kw := 3) (s := 1) (rh := 4) (rw := 4) (S := 2) (.conv _ _ rfl rfl)
    (.cons (kh := 1) (kw := 1) (s := 1) (rh := 4) (rw := 4) (S := 2) (.activation _ _ (by simp))
      (.cons (kh := 2) (kw := 2) (s := 2) (rh := 2) (rw := 2) (S := 1) (.pool 2 2 (-1000) none false)
        (.cons (kh := 2) (kw := 2) (s := 1) (rh := 1) (rw := 1) (S := 1) (.conv _ _ rfl rfl) .nil)))

theorem exFeatures_chain : Chain exFeatures.layers [2, 1, 8, 8] [2, 3, 2, 2] := by
  have d : ∀ {ds : List Nat}, ds ≠ [] → (∀ a ∈ ds, 0 < a) → ds.prod < 2 ^ 31 → Dims ds := fun a b c => ⟨a, b, c⟩
  refine .cons (es := [2, 2, 6, 6]) (.conv (n := 2) (ic := 1) (oc := 2) (h := 8) (w := 8) (kh := 3) (kw := 3)
    (d (by simp) (by simp) (by simp)) (d (by simp) (by simp) (by simp)) (d (by simp) (by simp) (by simp)) (by omega) (by omega)
    (by norm_num) rfl rfl rfl rfl rfl rfl) ?_
  refine .cons (es := [2, 2, 6, 6]) (.elementwise (d (by simp) (by simp) (by simp)) (by intro h; cases h)) ?_
  refine .cons (es := [2, 2, 3, 3]) (.pool (n := 2) (c := 2) (h := 6) (w := 6) (p := 2) (s := 2)
    (d (by simp) (by simp) (by simp)) (by omega) (by omega) (by omega) (by omega)) ?_
  exact .cons (es := [2, 3, 2, 2]) (.conv (n := 2) (ic := 2) (oc := 3) (h := 3) (w := 3) (kh := 2) (kw := 2)
    (d (by simp) (by simp) (by simp)) (d (by simp) (by simp) (by simp)) (d (by simp) (by simp) (by simp)) (by omega) (by omega)
    (by norm_num) rfl rfl rfl rfl rfl rfl) (.nil _)

/-- Moving an image two pixels down moves the answers one down. -/
example (E : Engine Unit ℝ) (x : List Nat → ℝ) :
    ∃ y y2 net1 net2, predict E (ofFn [2, 1, 8, 8] x) exFeatures = (.ok (ofFn [2, 3, 2, 2] y), net1) ∧
      predict E (ofFn [2, 1, 8, 8] fun i => x [i.getD 0 0, i.getD 1 0, i.getD 2 0 - 2, i.getD 3 0]) exFeatures =
        (.ok (ofFn [2, 3, 2, 2] y2), net2) ∧
      ∀ b < 2, ∀ o < 3, ∀ j < 2, y2 [b, o, 1, j] = y [b, o, 0, j] := by
  obtain ⟨y, y2, n1, n2, h1, h2, h3⟩ := C95_shift E exFeatures exFeatures_sees exFeatures_chain x
    (fun i => x [i.getD 0 0, i.getD 1 0, i.getD 2 0 - 2, i.getD 3 0]) 1 0 (by intro b _ a _ u v _ _; simp)
  exact ⟨y, y2, n1, n2, h1, h2, fun b hb o ho j hj => h3 b hb o ho 0 j (by omega) (by omega)⟩

end

end SmartDNN
