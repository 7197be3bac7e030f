import Verif.Spec.Answers

/-!
# Lemmas about data of the wrong shape
-/

namespace SmartDNN
open Net Spec

/-- Gradients on their way back: the dimensions of the data, or `(1, n)` for data of dimensions `(n)`. -/
def GradDims (es gs : List Nat) : Prop := gs = es ∨ ∃ n, es = [n] ∧ gs = [1, n]

/-! ### Dimensions -/

theorem dims_first {a b c : Nat} (h : Dims [a, b, c]) : Dims [a, b] := by
  have h0 := h.lt
  have hc := h.pos c (by simp)
  refine ⟨by simp, fun d hd => h.pos d (by simp at hd ⊢; tauto), ?_⟩
  simp only [List.prod_cons, List.prod_nil, mul_one] at h0 ⊢
  calc a * b ≤ a * b * c := Nat.le_mul_of_pos_right _ hc
    _ = a * (b * c) := by ring
    _ < _ := h0

theorem dims_room {ps : List Plan} {ds : List Nat} (h : HasRoom ps ds) : Dims ds := by
  cases ps with
  | nil => exact h
  | cons p ps => exact h.1

theorem dims_conv_bias {oc ic kh kw : Nat} (h : Dims [oc, ic, kh, kw]) : Dims [oc, 1] := by
  have h0 := h.lt
  have hc := h.pos ic (by simp)
  have hk := h.pos kh (by simp)
  have hw := h.pos kw (by simp)
  refine ⟨by simp, fun d hd => ?_, ?_⟩
  · simp only [List.mem_cons, List.not_mem_nil, or_false] at hd
    rcases hd with rfl | rfl
    · exact h.pos d (by simp)
    · omega
  · simp only [List.prod_cons, List.prod_nil, mul_one] at h0 ⊢
    exact lt_of_le_of_lt (Nat.le_mul_of_pos_right _ (by positivity)) h0

/-! ### Fully connected layers -/

theorem fc_forward_3d {b m i o : Nat} (hx : Dims [b, m, i]) (hw : Dims [i, o]) (ho : Dims [b, m, o]) (w bias x : List Nat → ℝ) :
    ∃ y, FC.affine (ofFn [i, o] w) (ofFn [1, o] bias) (ofFn [b, m, i] x) = .ok (ofFn [b, m, o] y) := by
  unfold FC.affine
  have e : FC.ensure2D (ofFn [b, m, i] x) = .ok (ofFn [b, m, i] x) := by
    unfold FC.ensure2D
    rw [if_neg (by simp)]
  have hb1 : Dims [1, o] := dims_cons_one (dims_tail hw)
  have hc : Compat [b, m, o] [1, o] := by
    intro j
    rcases j with _ | _ | _ | j <;> simp [dimR]
  have hm := hx.pos m (by simp)
  have hb := hx.pos b (by simp)
  have hbd : bdims [b, m, o] [1, o] = [b, m, o] := by
    simp [bdims, dimR, List.range_succ]
    omega
  simp only [e, Except.bind_ok', C16_3d_2d b m i o hx hw ho]
  rw [(C06_elementwise [b, m, o] [1, o] ho hb1 hc _ _).1, hbd]
  simp only [Except.bind_ok']
  rw [if_neg (by simp)]
  exact ⟨_, rfl⟩

theorem fc_forward_rejects {ds : List Nat} {i o : Nat} (hx : Dims ds) (hw : Dims [i, o]) (w bias x : List Nat → ℝ)
    (h : (Plan.dense i o).answer ds = .throws) :
    ∃ e, FC.affine (ofFn [i, o] w) (ofFn [1, o] bias) (ofFn ds x) = .error e ∧ e.isException = true := by
  refine ⟨.invalidArgument, ?_, rfl⟩
  unfold FC.affine
  match ds, hx, h with
  | [], hx, _ => exact (hx.ne rfl).elim
  | [n], hx, h =>
    have hn : n ≠ i := by
      rintro rfl
      simp [Plan.answer] at h
    rw [ensure2D_row hx]
    simp only [Except.bind_ok']
    rw [C15_rejects 1 n i o hn]
    rfl
  | [b, n], hx, h =>
    have hn : n ≠ i := by
      rintro rfl
      simp [Plan.answer] at h
    rw [ensure2D_mat]
    simp only [Except.bind_ok']
    rw [C15_rejects b n i o hn]
    rfl
  | [b, m, n], hx, h =>
    have hn : n ≠ i := by
      rintro rfl
      simp [Plan.answer] at h
    have e : FC.ensure2D (ofFn [b, m, n] x) = .ok (ofFn [b, m, n] x) := by
      unfold FC.ensure2D
      rw [if_neg (by simp)]
    simp only [e, Except.bind_ok']
    rw [C16_rejects_inner [b, m, n] [i, o] hx hw (by simpa [innerL, innerR] using hn)]
    rfl
  | a :: b :: c :: d :: ds, hx, _ =>
    have e : FC.ensure2D (ofFn (a :: b :: c :: d :: ds) x) = .ok (ofFn (a :: b :: c :: d :: ds) x) := by
      unfold FC.ensure2D
      rw [if_neg (by simp)]
    simp only [e, Except.bind_ok']
    rw [C16_rejects_ranks (a :: b :: c :: d :: ds) [i, o] hx hw (by simp [Multipliable])]
    rfl

/-- Backward on three dimensions: an exception, unless all three are 1. -/
theorem fc_backward_3d {b m i o : Nat} (hx : Dims [b, m, i]) (hw : Dims [i, o]) (ho : Dims [b, m, o])
    (hroom : max m b * (b * o) < 2 ^ 31) {w bias x g : List Nat → ℝ} {l : FC ℝ} (hlw : l.weights = ofFn [i, o] w)
    (hlb : l.biases = ofFn [1, o] bias) (hli : l.input = some (ofFn [b, m, i] x)) :
    (¬ (b = 1 ∧ m = 1 ∧ i = 1) ∧ ∃ e, (FC.backward (ofFn [b, m, o] g) l).1 = .error e ∧ e.isException = true) ∨
    (b = 1 ∧ m = 1 ∧ i = 1 ∧ ∃ z wg bg, FC.backward (ofFn [b, m, o] g) l = (.ok (ofFn [b, m, i] z),
      { l with weightGradients := some (ofFn [b, m, o] wg), biasGradients := some (ofFn [1, o] bg) })) := by
  have e1 : FC.ensure2D (ofFn [b, m, i] x) = .ok (ofFn [b, m, i] x) := by
    unfold FC.ensure2D
    rw [if_neg (by simp)]
  have e2 : FC.ensure2D (ofFn [b, m, o] g) = .ok (ofFn [b, m, o] g) := by
    unfold FC.ensure2D
    rw [if_neg (by simp)]
  have hb := hx.pos b (by simp)
  have hm := hx.pos m (by simp)
  have hi := hx.pos i (by simp)
  have hop := hw.pos o (by simp)
  have ht : (ofFn [b, m, i] x).transpose 0 1 = .ok (ofFn [m, b, i] fun idx => x (swapped 0 1 idx)) :=
    C14_transpose [b, m, i] hx 0 1 (by simp) (by simp) x
  have hd' : Dims [m, b, i] := by
    refine ⟨by simp, fun d hd => hx.pos d (by simp at hd ⊢; tauto), ?_⟩
    have := hx.lt
    simp only [List.prod_cons, List.prod_nil, mul_one] at this ⊢
    calc m * (b * i) = b * (m * i) := by ring
      _ < _ := this
  unfold FC.backward
  rw [Mut.get_bind, hli]
  simp only [e1, e2, Mut.lift_ok_bind]
  by_cases him : i = m
  · subst him
    by_cases hbm : b = i
    · subst hbm
      obtain ⟨z, hwg⟩ : ∃ z, FC.weightGrad (ofFn [b, b, b] x) (ofFn [b, b, o] g) = .ok (ofFn [b, b, o] z) := by
        unfold FC.weightGrad
        rw [ht]
        simp only [Except.bind_ok']
        exact ⟨_, C17_equal_batches_partial [b] (by simp) b b o hd' ho ho _ _⟩
      rw [hwg]
      simp only [Mut.lift_ok_bind, Mut.modify_bind]
      have hs : (ofFn [b, b, o] g).sumAxis 0 = .ok (ofFn [b, o] fun j => lsum (line b 0 g j)) :=
        C10_axis [b, b, o] ho 0 (by simp) (by simp) g
      by_cases h1 : b = 1
      · subst h1
        right
        refine ⟨rfl, rfl, rfl, ?_⟩
        have hbg : FC.biasGrad l.biases (ofFn [1, 1, o] g) = .ok (ofFn [1, o] fun j => lsum (line 1 0 g j)) := by
          unfold FC.biasGrad
          rw [hs, hlb]
          simp only [Except.bind_ok']
          rw [show (ofFn [1, o] bias).shape.get 1 = .ok (o : Int) from rfl]
          simp only [Except.bind_ok']
          rw [show [(1 : Int), (o : Int)] = ints [1, o] from rfl, reshaped_ofFn (dims_tail ho) rfl]
          rfl
        have hwt : l.weights.transpose 0 1 = .ok (ofFn [o, 1] fun idx => w (swapped 0 1 idx)) := by
          rw [hlw]
          exact C14_transpose [1, o] hw 0 1 (by simp) (by simp) w
        have hdo : Dims [o, 1] := by
          refine ⟨by simp, by simpa using hop, ?_⟩
          have := hw.lt
          simpa using this
        obtain ⟨u, hig⟩ : ∃ u, FC.inputGrad l.weights (ofFn [1, 1, o] g) = .ok (ofFn [1, 1, 1] u) := by
          unfold FC.inputGrad
          rw [hwt]
          simp only [Except.bind_ok']
          exact ⟨_, C16_3d_2d 1 1 o 1 ho hdo hx g _⟩
        rw [hbg]
        simp only [Mut.lift_ok_bind, Mut.modify_bind, Mut.lift_apply, hig, hli]
        exact ⟨_, _, _, rfl⟩
      · left
        refine ⟨by tauto, .runtimeError, ?_, rfl⟩
        have hbg : FC.biasGrad l.biases (ofFn [b, b, o] g) = .error .runtimeError := by
          unfold FC.biasGrad
          rw [hs, hlb]
          simp only [Except.bind_ok']
          rw [show (ofFn [1, o] bias).shape.get 1 = .ok (o : Int) from rfl]
          simp only [Except.bind_ok']
          rw [show [(1 : Int), (o : Int)] = ints [1, o] from rfl,
            reshaped_mismatch (dims_cons_one (dims_tail hw))]
          simp only [List.prod_cons, List.prod_nil, mul_one, one_mul]
          intro h
          have : 1 * o = b * o := by omega
          exact h1 (Nat.eq_of_mul_eq_mul_right hop this).symm
        rw [hbg]
        rfl
    · left
      refine ⟨by rintro ⟨rfl, rfl, -⟩; exact hbm rfl, .outOfRange, ?_, rfl⟩
      have hwg : FC.weightGrad (ofFn [b, i, i] x) (ofFn [b, i, o] g) = .error .outOfRange := by
        unfold FC.weightGrad
        rw [ht]
        simp only [Except.bind_ok']
        refine C17_unequal_batches_refuted [i] [b] (by simp) rfl (by simpa using fun h => hbm h.symm) b i o hd' ho ?_ _ _
        refine ⟨by simp, ?_, ?_⟩
        · simp only [List.zipWith_cons_cons, List.zipWith_nil_left, List.cons_append, List.nil_append, List.mem_cons,
            List.not_mem_nil, or_false]
          rintro d (rfl | rfl | rfl)
          · omega
          · exact hb
          · exact hop
        · simpa using hroom
      rw [hwg]
      rfl
  · left
    refine ⟨by rintro ⟨-, rfl, rfl⟩; exact him rfl, .invalidArgument, ?_, rfl⟩
    have hwg : FC.weightGrad (ofFn [b, m, i] x) (ofFn [b, m, o] g) = .error .invalidArgument := by
      unfold FC.weightGrad
      rw [ht]
      simp only [Except.bind_ok']
      exact C16_rejects_inner [m, b, i] [b, m, o] hd' ho (by simpa [innerL, innerR] using him) _ _
    rw [hwg]
    rfl

/-- Backward through a fully connected layer that has accepted data. -/
theorem fc_back {ds es gs : List Nat} {i o : Nat} (hx : Dims ds) (hes : Dims es) (hw : Dims [i, o])
    (hroom : (Plan.dense i o).room ds) (ha : (Plan.dense i o).answer ds = .accepts es) (hg : GradDims es gs)
    {w bias x : List Nat → ℝ} (g : List Nat → ℝ) {l : FC ℝ} (hlw : l.weights = ofFn [i, o] w)
    (hlb : l.biases = ofFn [1, o] bias) (hli : l.input = some (ofFn ds x)) :
    (∃ e, (FC.backward (ofFn gs g) l).1 = .error e ∧ e.isException = true) ∨
    ∃ hs z wd wg bg, FC.backward (ofFn gs g) l = (.ok (ofFn hs z),
      { l with weightGradients := some (ofFn wd wg), biasGradients := some (ofFn [1, o] bg) }) ∧
      GradDims ds hs ∧ wd.prod = i * o := by
  match ds, hx, hroom, ha, hli with
  | [], hx, _, _, _ => exact (hx.ne rfl).elim
  | [n], hx, _, ha, hli =>
    obtain ⟨rfl, rfl⟩ : n = i ∧ es = [o] := by
      simp only [Plan.answer] at ha
      split at ha
      · exact ⟨by assumption, by simpa using ha.symm⟩
      · cases ha
    obtain ⟨g', h2⟩ : ∃ g', FC.ensure2D (ofFn gs g) = .ok (ofFn [1, o] g') := by
      rcases hg with rfl | ⟨k, hk, rfl⟩
      · exact ⟨_, ensure2D_row hes g⟩
      · cases hk
        exact ⟨_, ensure2D_mat _ _ _⟩
    refine Or.inr ⟨[1, n], _, [n, o], _, _, fc_backward (dims_cons_one hx) hw (dims_cons_one hes) hlw hlb hli
      (ensure2D_row hx x) h2, Or.inr ⟨n, rfl, rfl⟩, by simp⟩
  | [b, n], hx, _, ha, hli =>
    obtain ⟨rfl, rfl⟩ : n = i ∧ es = [b, o] := by
      simp only [Plan.answer] at ha
      split at ha
      · exact ⟨by assumption, by simpa using ha.symm⟩
      · cases ha
    rcases hg with rfl | ⟨k, hk, rfl⟩
    · exact Or.inr ⟨[b, n], _, [n, o], _, _, fc_backward hx hw hes hlw hlb hli (ensure2D_mat _ _ _) (ensure2D_mat _ _ _),
        Or.inl rfl, by simp⟩
    · cases hk
  | [b, m, n], hx, hroom, ha, hli =>
    obtain ⟨rfl, rfl⟩ : n = i ∧ es = [b, m, o] := by
      simp only [Plan.answer] at ha
      split at ha
      · exact ⟨by assumption, by simpa using ha.symm⟩
      · cases ha
    rcases hg with rfl | ⟨k, hk, rfl⟩
    · rcases fc_backward_3d (g := g) hx hw hes hroom hlw hlb hli with ⟨-, h⟩ | ⟨rfl, rfl, rfl, z, wg, bg, h⟩
      · exact Or.inl h
      · exact Or.inr ⟨_, z, [1, 1, o], wg, bg, h, Or.inl rfl, by simp⟩
    · cases hk
  | a :: b :: c :: d :: ds, _, _, ha, _ => cases ha

/-! ### Activations -/

theorem act_back {a : Act ℝ} (ha : a ≠ .softmax) {ds gs : List Nat} (hd : Dims ds) (hg : GradDims ds gs) (x g : List Nat → ℝ) :
    (∃ e, a.backward (ofFn ds x) (ofFn gs g) = .error e ∧ e.isException = true) ∨
    ∃ hs z, a.backward (ofFn ds x) (ofFn gs g) = .ok (ofFn hs z) ∧ GradDims ds hs := by
  rcases hg with rfl | ⟨n, rfl, rfl⟩
  · obtain ⟨z, hz⟩ := act_backward_ok a ha hd x g
    exact Or.inr ⟨_, z, hz, Or.inl rfl⟩
  · have hne : ([n] : List Nat) ≠ [1, n] := by simp
    have hc : Compat [n] [1, n] := by
      intro i
      rcases i with _ | _ | i <;> simp [dimR]
    have hb : bdims [n] [1, n] = [1, n] := by
      simp [bdims, dimR, List.range_succ]
    have hm : ∀ u, ∃ z, (ofFn [n] u).mul (ofFn [1, n] g) = .ok (ofFn [1, n] z) := by
      intro u
      have := (C06_elementwise [n] [1, n] hd (dims_cons_one hd) hc u g).2.2.1
      rw [hb] at this
      exact ⟨_, this⟩
    cases a with
    | softmax => exact (ha rfl).elim
    | relu =>
      simp only [Act.backward, Tensor.apply, map_ofFn, Except.bind_ok']
      obtain ⟨z, hz⟩ := hm fun i => if 0 < x i then 1 else 0
      exact Or.inr ⟨[1, n], z, hz, Or.inr ⟨n, rfl, rfl⟩⟩
    | leakyRelu alpha => exact Or.inl ⟨_, (C25_pair_shape_mismatch hne x g alpha).1, rfl⟩
    | sigmoid =>
      simp only [Act.backward, Act.forward, Tensor.apply, map_ofFn, Except.bind_ok', scalarSub_ofFn, mul_same hd]
      obtain ⟨z, hz⟩ := hm fun i => Act.sig (MathFn.toFloat (x i)) * (Act.sig (MathFn.toFloat (x i)) * -1 + 1)
      exact Or.inr ⟨[1, n], z, hz, Or.inr ⟨n, rfl, rfl⟩⟩
    | tanh =>
      simp only [Act.backward, Tensor.apply, map_ofFn, Except.bind_ok']
      obtain ⟨z, hz⟩ := hm fun i => 1 - MathFn.tanh (x i) * MathFn.tanh (x i)
      exact Or.inr ⟨[1, n], z, hz, Or.inr ⟨n, rfl, rfl⟩⟩
    | swish => exact Or.inl ⟨_, (C25_pair_shape_mismatch hne x g 0).2.1, rfl⟩
    | mish => exact Or.inl ⟨_, (C25_pair_shape_mismatch hne x g 0).2.2, rfl⟩

/-! ### Convolution and pooling -/

theorem conv_forward_rejects {ds : List Nat} {ic oc kh kw : Nat} (hd : Dims ds) {l : Conv ℝ} (h0 : l.inputChannels = ic)
    (h1 : l.outputChannels = oc) (h2 : l.kernelHeight = kh) (h3 : l.kernelWidth = kw) (x : List Nat → ℝ) :
    ((Plan.conv ic oc kh kw).answer ds = .throws → (Conv.forward (ofFn ds x) l).1 = .error .invalidArgument) ∧
    ((Plan.conv ic oc kh kw).answer ds = .aborts → (Conv.forward (ofFn ds x) l).1 = .error .abort) := by
  have hr : ds.length ≠ 4 → (Conv.forward (ofFn ds x) l).1 = .error .abort := by
    intro h
    unfold Conv.forward
    rw [Mut.get_bind, if_pos (by simpa using h)]
    rfl
  match ds, hd, hr with
  | [], hd, hr => exact ⟨fun h => (by cases h), fun _ => hr (by simp)⟩
  | [_], _, hr => exact ⟨fun h => (by cases h), fun _ => hr (by simp)⟩
  | [_, _], _, hr => exact ⟨fun h => (by cases h), fun _ => hr (by simp)⟩
  | [_, _, _], _, hr => exact ⟨fun h => (by cases h), fun _ => hr (by simp)⟩
  | a :: b :: c :: d :: e :: ds, _, hr => exact ⟨fun h => (by cases h), fun _ => hr (by simp)⟩
  | [n, c, h, w], hd, _ =>
    unfold Conv.forward
    rw [Mut.get_bind, if_neg (by simp), show (ofFn [n, c, h, w] x).shape.get 1 = .ok (c : Int) from rfl, Mut.lift_ok_bind, h0]
    by_cases hc : c = ic
    · subst hc
      rw [if_neg (by simp)]
      constructor
      · intro ha
        have hk : ¬ (kh ≤ h ∧ kw ≤ w) := by
          intro hk
          simp only [Plan.answer, ne_eq, not_true_eq_false, if_false, if_pos hk] at ha
          cases ha
        rw [Mut.modify_bind, Mut.lift_apply]
        show Conv.correlate l (ofFn [n, c, h, w] x) = _
        unfold Conv.correlate
        rw [show (ofFn [n, c, h, w] x).shape.get 0 = .ok (n : Int) from rfl,
          show (ofFn [n, c, h, w] x).shape.get 2 = .ok (h : Int) from rfl,
          show (ofFn [n, c, h, w] x).shape.get 3 = .ok (w : Int) from rfl]
        simp only [Except.bind_ok', h1, h2, h3]
        rw [make_error]
        · rfl
        · rintro ⟨-, hp⟩
          have p1 := hp ((h : Int) - kh + 1) (by simp)
          have p2 := hp ((w : Int) - kw + 1) (by simp)
          omega
      · intro ha
        simp only [Plan.answer, ne_eq, not_true_eq_false, if_false] at ha
        split at ha <;> cases ha
    · rw [if_pos (by simpa using hc)]
      refine ⟨fun ha => ?_, fun _ => rfl⟩
      simp only [Plan.answer, if_pos (show c ≠ ic from hc)] at ha
      cases ha

theorem pool_forward_rejects {ds : List Nat} {p s : Nat} (hs : 0 < s) (x : List Nat → ℝ) (ninf : ℝ)
    (inp : Option (Tensor ℝ)) (ha : (Plan.pool p s).answer ds = .throws) :
    ∃ e, (MaxPool.forward (ofFn ds x) ⟨p, s, 0, ninf, inp⟩).1 = .error e ∧ e.isException = true := by
  by_cases hr : ds.length = 4
  · match ds, hr, ha with
    | [n, c, h, w], _, ha =>
      have hk : ¬ ((p ≤ h ∨ p - h < s) ∧ (p ≤ w ∨ p - w < s)) := by
        intro hk
        simp only [Plan.answer, if_pos hk] at ha
        cases ha
      refine ⟨.invalidArgument, ?_, rfl⟩
      unfold MaxPool.forward
      rw [if_neg (by simp), Mut.modify_bind, Mut.get_bind, Mut.lift_apply]
      show MaxPool.pool ⟨p, s, 0, ninf, some (ofFn [n, c, h, w] x)⟩ (ofFn [n, c, h, w] x) = _
      unfold MaxPool.pool MaxPool.outDim
      rw [show (ofFn [n, c, h, w] x).shape.get 0 = .ok (n : Int) from rfl,
          show (ofFn [n, c, h, w] x).shape.get 1 = .ok (c : Int) from rfl,
          show (ofFn [n, c, h, w] x).shape.get 2 = .ok (h : Int) from rfl,
          show (ofFn [n, c, h, w] x).shape.get 3 = .ok (w : Int) from rfl]
      simp only [Except.bind_ok']
      rw [if_neg (by omega), if_neg (by omega)]
      simp only [Except.bind_ok']
      rw [make_error]
      · rfl
      · rintro ⟨-, hp⟩
        have key : ∀ k : Nat, 0 < ((k : Int) - p).tdiv s + 1 → p ≤ k ∨ p - k < s := by
          intro k hk
          by_contra hcon
          push Not at hcon
          obtain ⟨q1, q2⟩ := hcon
          have h1 : ((k : Int) - p).tdiv s = -(((p - k : Nat) : Int).tdiv s) := by
            rw [← Int.neg_tdiv]
            congr 1
            omega
          have h2 : ((p - k : Nat) : Int).tdiv s = ((p - k) / s : Nat) := by
            rw [← Int.ofNat_tdiv]
          have h3 : 1 ≤ (p - k) / s := (Nat.one_le_div_iff hs).2 q2
          omega
        exact hk ⟨key h (hp _ (by simp)), key w (hp _ (by simp))⟩
  · refine ⟨.runtimeError, ?_, rfl⟩
    unfold MaxPool.forward
    rw [if_pos (by simpa using hr)]
    rfl

/-! ### One layer -/

theorem conv_forward_state (x : Tensor ℝ) (l : Conv ℝ) : ∃ i, (Conv.forward x l).2 = { l with input := i } := by
  unfold Conv.forward
  rw [Mut.get_bind]
  split
  · exact ⟨l.input, rfl⟩
  · cases hc : x.shape.get 1 with
    | error e => exact ⟨l.input, rfl⟩
    | ok c =>
      rw [Mut.lift_ok_bind]
      split
      · exact ⟨l.input, rfl⟩
      · exact ⟨some x, rfl⟩

theorem pool_forward_state (x : Tensor ℝ) (l : MaxPool ℝ) : ∃ i, (MaxPool.forward x l).2 = { l with input := i } := by
  unfold MaxPool.forward
  split
  · exact ⟨l.input, rfl⟩
  · exact ⟨some x, rfl⟩

theorem follows_step {ρ : Type} {l : Layer ℝ} {p : Plan} (h : Follows l p) (E : Engine ρ ℝ) (r : ρ) {ds : List Nat}
    (hd : Dims ds) (hroom : p.room ds) (hes : ∀ es, p.answer ds = .accepts es → Dims es) (x : List Nat → ℝ) :
    ∃ l' r', (Layer.forward E (ofFn ds x) (l, r)).2 = (l', r') ∧ Outcome (Layer.forward E (ofFn ds x) (l, r)).1 (p.answer ds) ∧
      Follows l' p ∧ params l' = params l ∧
      ∀ es gs g, p.answer ds = .accepts es → GradDims es gs → (p = .flatten → 3 ≤ ds.length) → p ≠ .dropout false →
        (∃ e, (Layer.backward (ofFn gs g) l').1 = .error e ∧ e.isException = true) ∨
        ∃ hs z l'', Layer.backward (ofFn gs g) l' = (.ok (ofFn hs z), l'') ∧ GradDims ds hs ∧ Follows l'' p ∧ Ready l'' ∧
          params l'' = params l := by
  cases h with
  | @dense i o w bias l mode hw hlw hlb =>
    refine ⟨⟨.fc { l with input := some (ofFn ds x) }, mode⟩, r, rfl, ?_, .dense hw hlw hlb, rfl, ?_⟩
    · show Outcome (FC.affine l.weights l.biases (ofFn ds x)) _
      rw [hlw, hlb]
      rcases ha : (Plan.dense i o).answer ds with es | _ | _
      · have he := hes _ ha
        match ds, hd, ha, he with
        | [], hd, _, _ => exact (hd.ne rfl).elim
        | [n], hd, ha, he =>
          obtain ⟨rfl, rfl⟩ : n = i ∧ es = [o] := by
            simp only [Plan.answer] at ha
            split at ha
            · exact ⟨by assumption, by simpa using ha.symm⟩
            · cases ha
          exact ⟨_, fc_affine_sample hd he _ _ _⟩
        | [b, n], hd, ha, he =>
          obtain ⟨rfl, rfl⟩ : n = i ∧ es = [b, o] := by
            simp only [Plan.answer] at ha
            split at ha
            · exact ⟨by assumption, by simpa using ha.symm⟩
            · cases ha
          exact ⟨_, fc_affine_batch he _ _ _⟩
        | [b, m, n], hd, ha, he =>
          obtain ⟨rfl, rfl⟩ : n = i ∧ es = [b, m, o] := by
            simp only [Plan.answer] at ha
            split at ha
            · exact ⟨by assumption, by simpa using ha.symm⟩
            · cases ha
          exact fc_forward_3d hd hw he _ _ _
        | a :: b :: c :: d :: ds, _, ha, _ => cases ha
      · exact fc_forward_rejects hd hw w bias x ha
      · exfalso
        unfold Plan.answer at ha
        split at ha <;> (try split at ha) <;> simp_all
    · intro es gs g ha hg _ _
      rcases fc_back (l := { l with input := some (ofFn ds x) }) hd (hes _ ha) hw hroom ha hg g hlw hlb rfl with
        ⟨e, h1, h2⟩ | ⟨hs, z, wd, wg, bg, h1, h2, h3⟩
      · refine Or.inl ⟨e, ?_, h2⟩
        simp only [Layer.backward, Layer.onKind]
        exact h1
      · refine Or.inr ⟨hs, z, ⟨.fc { l with
          input := some (ofFn ds x)
          weightGradients := some (ofFn wd wg)
          biasGradients := some (ofFn [1, o] bg) }, mode⟩, ?_, h2, .dense hw hlw hlb, ?_, rfl⟩
        · simp only [Layer.backward, Layer.onKind]
          rw [h1]
        · intro q hq
          cases hq
          refine ⟨_, rfl, ?_, ?_, ?_, ?_⟩
          · simp only [hlw]; exact full_ofFn _ _
          · simp only [hlb]; exact full_ofFn _ _
          · simp only [hlw]
            simp [ofFn_shape, ofFn_data, shapeOf_size, length_indices, h3]
          · simp only [hlb]; exact size_ofFn _ _ _
  | @elementwise l mode ha =>
    refine ⟨⟨.activation { l with input := some (ofFn ds x) }, mode⟩, r, rfl, ?_, .elementwise ha, rfl, ?_⟩
    · obtain ⟨y, hy⟩ := act_forward_ok l.activation ha ds x
      exact ⟨y, hy⟩
    · intro es gs g hans hg _ _
      simp only [Plan.answer, Answer.accepts.injEq] at hans
      subst hans
      rcases act_back ha hd hg x g with ⟨e, h1, h2⟩ | ⟨hs, z, h1, h2⟩
      · exact Or.inl ⟨e, h1, h2⟩
      · exact Or.inr ⟨hs, z, _, congrArg (fun y => (y, (⟨.activation { l with input := some (ofFn ds x) }, mode⟩ : Layer ℝ))) h1,
          h2, .elementwise ha, ready_of_none rfl, rfl⟩
  | @softmax l mode ha =>
    refine ⟨⟨.activation { l with input := some (ofFn ds x) }, mode⟩, r, rfl, ?_, .softmax ha, rfl, ?_⟩
    · show Outcome (Act.forward l.activation _) _
      rw [ha]
      by_cases hr : 2 ≤ ds.length
      · match ds, hd, hr with
        | [], hd, _ => exact (hd.ne rfl).elim
        | d :: ds, hd, hr =>
          simp only [Plan.answer, if_pos hr]
          exact ⟨_, C27_forward hd (by rintro rfl; simp at hr) x⟩
      · simp only [Plan.answer, if_neg hr]
        exact ⟨_, C27_rank1 (by omega) x, rfl⟩
    · intro es gs g hans hg _ _
      simp only [Plan.answer] at hans
      by_cases hr : 2 ≤ ds.length
      · rw [if_pos hr] at hans
        simp only [Answer.accepts.injEq] at hans
        subst hans
        match ds, hd, hr, hg with
        | [], hd, _, _ => exact (hd.ne rfl).elim
        | d :: ds, hd, hr, hg =>
          have hne : ds ≠ [] := by rintro rfl; simp at hr
          rcases hg with rfl | ⟨n, hn, -⟩
          · obtain ⟨A, h1, -⟩ := C28_vjp hd hne x
            refine Or.inr ⟨_, A g, _,
              congrArg (fun y => (y, (⟨.activation { l with input := some (ofFn (d :: ds) x) }, mode⟩ : Layer ℝ))) ?_,
              Or.inl rfl, .softmax ha, ready_of_none rfl, rfl⟩
            show Act.backward l.activation _ _ = _
            rw [ha]
            exact h1 g
          · simp only [List.cons.injEq] at hn
            exact (hne hn.2).elim
      · rw [if_neg hr] at hans
        cases hans
  | @flatten l mode =>
    by_cases hr : 2 ≤ ds.length
    · match ds, hd, hr, hes with
      | [], hd, _, _ => exact (hd.ne rfl).elim
      | [d], _, hr, _ => simp at hr
      | [d, e], hd, _, hes =>
        refine ⟨⟨.flatten l, mode⟩, r, ?_, ?_, .flatten, rfl, ?_⟩
        · simp only [Layer.forward, Layer.onKind]
          unfold Flatten.forward
          rw [if_neg (by simp), if_pos (by simp)]
          rfl
        · refine ⟨x, ?_⟩
          simp only [Layer.forward, Layer.onKind, C39_forward_matrix d e x l]
          simp
        · intro es gs g _ _ h3 _
          have := h3 rfl
          simp at this
      | d :: e :: f :: ds, hd, _, hes =>
        have hp : [d, (e :: f :: ds).prod].prod = (d :: e :: f :: ds).prod := by simp
        refine ⟨⟨.flatten { l with originalShape := some (shapeOf (d :: e :: f :: ds)) }, mode⟩, r, ?_, ?_, .flatten, rfl, ?_⟩
        · simp only [Layer.forward, Layer.onKind]
          rw [flatten_forward hd (by simp)]
        · refine ⟨fun j => x (reindex [d, (e :: f :: ds).prod] (d :: e :: f :: ds) j), ?_⟩
          simp only [Layer.forward, Layer.onKind]
          rw [flatten_forward hd (by simp), reinterpret_ofFn hp]
          rfl
        · intro es gs g hans hg _ _
          obtain rfl : es = [d, (e :: f :: ds).prod] := by
            simpa [Plan.answer] using hans.symm
          rcases hg with rfl | ⟨n, hn, -⟩
          · refine Or.inr ⟨d :: e :: f :: ds, fun i => g (reindex (d :: e :: f :: ds) [d, (e :: f :: ds).prod] i), _,
              congrArg (fun y => (y, (⟨.flatten { l with originalShape := some (shapeOf (d :: e :: f :: ds)) }, mode⟩ : Layer ℝ))) ?_,
              Or.inl rfl, .flatten, ready_of_none rfl, rfl⟩
            show (Tensor.reshape _ _) = _
            rw [shapeOf_dims, reshape_back hd hp.symm]
          · cases hn
    · match ds, hd, hr with
      | [], hd, _ => exact (hd.ne rfl).elim
      | _ :: _ :: _, _, hr => simp at hr
      | [d], hd, _ =>
        refine ⟨⟨.flatten l, mode⟩, r, ?_, ⟨.invalidArgument, ?_, rfl⟩, .flatten, rfl, ?_⟩
        · simp only [Layer.forward, Layer.onKind, C39_rank1]
        · simp only [Layer.forward, Layer.onKind, C39_rank1]
        · intro es gs g hans
          simp [Plan.answer] at hans
  | @conv ic oc kh kw k b l mode hdk h0 h1 h2 h3 hw hb =>
    have ht : ∀ x : ℝ, MathFn.toFloat x = x := fun _ => rfl
    have hkp := hdk.pos kh (by simp)
    have hkwp := hdk.pos kw (by simp)
    have hoc := hdk.pos oc (by simp)
    rcases ha : (Plan.conv ic oc kh kw).answer ds with es | _ | _
    · match ds, hd, ha, hroom with
      | [n, c, h, w], hd, ha, hroom =>
        have hc : c = ic := by
          by_contra hc
          simp only [Plan.answer, if_pos (show c ≠ ic from hc)] at ha
          cases ha
        subst hc
        have hk : kh ≤ h ∧ kw ≤ w := by
          by_contra hk
          simp only [Plan.answer, ne_eq, not_true_eq_false, if_false, if_neg hk] at ha
          cases ha
        obtain rfl : es = [n, oc, h - kh + 1, w - kw + 1] := by
          simp only [Plan.answer, ne_eq, not_true_eq_false, if_false, if_pos hk, Answer.accepts.injEq] at ha
          exact ha.symm
        obtain ⟨hkh, hkw⟩ := hk
        have hdo : Dims [n, oc, h - kh + 1, w - kw + 1] := dims_conv hd hkh hkw hroom hoc hkp hkwp
        have hf := conv_forward ht hd hdk (dims_conv_bias hdk) hkh hkw hroom k b x l h0 h1 h2 h3 hw hb
        refine ⟨⟨.conv { l with input := some (ofFn [n, c, h, w] x) }, mode⟩, r, ?_, ⟨Spec.conv 1 kh kw 1 0 1 h w k b x, ?_⟩,
          .conv hdk h0 h1 h2 h3 hw hb, rfl, ?_⟩
        · simp only [Layer.forward, Layer.onKind]
          rw [hf]
        · simp only [Layer.forward, Layer.onKind]
          rw [hf]
        · intro es gs g hans hg _ _
          cases hans
          rcases hg with rfl | ⟨n, hn, -⟩
          · right
            simp only [Layer.backward, Layer.onKind]
            rw [conv_backward ht hd hdk hdo (by omega) (by omega) x g k b { l with input := some (ofFn [n, c, h, w] x) }
              h2 h3 hw hb rfl]
            refine ⟨_, _, _, rfl, Or.inl rfl, .conv hdk h0 h1 h2 h3 hw hb, ?_, rfl⟩
            intro p hp
            cases hp
            refine ⟨_, rfl, ?_, ?_, ?_, ?_⟩
            · simp only [hw]; exact full_ofFn _ _
            · simp only [hb]; exact full_ofFn _ _
            · simp only [hw]; exact size_ofFn _ _ _
            · simp only [hb]; exact size_ofFn _ _ _
          · cases hn
      | [], hd, _, _ => exact (hd.ne rfl).elim
      | [_], _, ha, _ => cases ha
      | [_, _], _, ha, _ => cases ha
      | [_, _, _], _, ha, _ => cases ha
      | _ :: _ :: _ :: _ :: _ :: _, _, ha, _ => cases ha
    · have hf := (conv_forward_rejects hd h0 h1 h2 h3 x).1 ha
      obtain ⟨i, hi⟩ : ∃ i, (Conv.forward (ofFn ds x) l).2 = { l with input := i } := conv_forward_state _ _
      refine ⟨⟨.conv { l with input := i }, mode⟩, r, ?_, ⟨.invalidArgument, ?_, rfl⟩, .conv hdk h0 h1 h2 h3 hw hb, rfl, ?_⟩
      · simp only [Layer.forward, Layer.onKind]
        rw [hi]
      · simp only [Layer.forward, Layer.onKind]
        exact hf
      · intro es gs g hans
        cases hans
    · have hf := (conv_forward_rejects hd h0 h1 h2 h3 x).2 ha
      obtain ⟨i, hi⟩ : ∃ i, (Conv.forward (ofFn ds x) l).2 = { l with input := i } := conv_forward_state _ _
      refine ⟨⟨.conv { l with input := i }, mode⟩, r, ?_, ?_, .conv hdk h0 h1 h2 h3 hw hb, rfl, ?_⟩
      · simp only [Layer.forward, Layer.onKind]
        rw [hi]
      · simp only [Layer.forward, Layer.onKind]
        exact hf
      · intro es gs g hans
        cases hans
  | @pool p s ninf inp mode hp hs =>
    rcases ha : (Plan.pool p s).answer ds with es | _ | _
    · match ds, hd, ha with
      | [n, c, h, w], hd, ha =>
        have hk : (p ≤ h ∨ p - h < s) ∧ (p ≤ w ∨ p - w < s) := by
          by_contra hk
          simp only [Plan.answer, if_neg hk] at ha
          cases ha
        obtain rfl : es = [n, c, poolOut p s h, poolOut p s w] := by
          simp only [Plan.answer, if_pos hk, Answer.accepts.injEq] at ha
          exact ha.symm
        obtain ⟨m, hm⟩ := pool_forward_ok hd hp hs hk.1 hk.2 x ninf inp
        refine ⟨⟨.maxPool ⟨p, s, 0, ninf, some (ofFn [n, c, h, w] x)⟩, mode⟩, r, ?_, ⟨m, ?_⟩, .pool hp hs, rfl, ?_⟩
        · simp only [Layer.forward, Layer.onKind]
          rw [hm]
        · simp only [Layer.forward, Layer.onKind]
          rw [hm]
        · intro es gs g hans hg _ _
          cases hans
          rcases hg with rfl | ⟨n, hn, -⟩
          · obtain ⟨z, hz⟩ := pool_backward_ok (s := s) hd hp x g ninf
            refine Or.inr ⟨_, z, ⟨.maxPool ⟨p, s, 0, ninf, some (ofFn [n, c, h, w] x)⟩, mode⟩, ?_, Or.inl rfl, .pool hp hs,
              ready_of_none rfl, rfl⟩
            simp only [Layer.backward, Layer.onKind]
            rw [hz]
          · cases hn
      | [], hd, _ => exact (hd.ne rfl).elim
      | [_], _, ha => cases ha
      | [_, _], _, ha => cases ha
      | [_, _, _], _, ha => cases ha
      | _ :: _ :: _ :: _ :: _ :: _, _, ha => cases ha
    · obtain ⟨e, hf, he⟩ := pool_forward_rejects hs x ninf inp ha
      obtain ⟨i, hi⟩ : ∃ i, (MaxPool.forward (ofFn ds x) ⟨p, s, 0, ninf, inp⟩).2 = ⟨p, s, 0, ninf, i⟩ := pool_forward_state _ _
      refine ⟨⟨.maxPool ⟨p, s, 0, ninf, i⟩, mode⟩, r, ?_, ⟨e, ?_, he⟩, .pool hp hs, rfl, ?_⟩
      · simp only [Layer.forward, Layer.onKind]
        rw [hi]
      · simp only [Layer.forward, Layer.onKind]
        exact hf
      · intro es gs g hans
        cases hans
    · exfalso
      unfold Plan.answer at ha
      split at ha <;> (try split at ha) <;> simp_all
  | @dropout l mode =>
    cases mode with
    | true =>
      have hf := dropout_forward_training E hd x l r (createRandom_ofFn E ds 0 1 r)
      generalize hm : ofFn ds (fun i => if l.dropoutRate < cmin (cmax (drawAt E ds.prod (ravel ds i) r) 0) 1 then (1 : ℝ) else 0) =
        mask at hf
      refine ⟨⟨.dropout { l with mask := some mask }, true⟩, engineAfter E ds.prod ds.prod r, ?_,
        ⟨fun i => x i * (if l.dropoutRate < cmin (cmax (drawAt E ds.prod (ravel ds i) r) 0) 1 then 1 else 0) *
          (1 / (1 - l.dropoutRate)), ?_⟩, .dropout, rfl, ?_⟩
      · simp only [Layer.forward, Layer.onKind]
        rw [hf]
      · simp only [Layer.forward, Layer.onKind]
        rw [hf]
      · intro es gs g hans hg _ _
        cases hans
        rcases hg with rfl | ⟨n, rfl, rfl⟩
        · refine Or.inr ⟨gs, fun i => g i * (if l.dropoutRate < cmin (cmax (drawAt E gs.prod (ravel gs i) r) 0) 1 then 1 else 0),
            ⟨.dropout { l with mask := some mask }, true⟩, ?_, Or.inl rfl, .dropout, ready_of_none rfl, rfl⟩
          subst hm
          simp only [Layer.backward, Layer.onKind, Dropout.backward, Mut.get_bind, derefOpt, Mut.lift_ok_bind, ofFn_shape,
            beq_shapeOf, decide_true, Bool.not_true, Bool.false_eq_true, if_false, if_true, Mut.lift_apply]
          rw [mul_same hd]
        · refine Or.inl ⟨.invalidArgument, ?_, rfl⟩
          subst hm
          simp only [Layer.backward, Layer.onKind, Dropout.backward, Mut.get_bind, derefOpt, Mut.lift_ok_bind, ofFn_shape,
            beq_shapeOf]
          rw [if_pos (by simp)]
          rfl
    | false => exact ⟨⟨.dropout l, false⟩, r, rfl, ⟨x, rfl⟩, .dropout, rfl, fun _ _ _ _ _ _ h => (h rfl).elim⟩

/-! ### The layers of a model -/

theorem fits_run {ps : List Plan} : ∀ {ds es : List Nat}, HasRoom ps ds → run ps ds = .accepts es → Dims es := by
  induction ps with
  | nil =>
    intro ds es h hr
    cases hr
    exact h
  | cons p ps ih =>
    intro ds es h hr
    unfold run at hr
    rcases ha : p.answer ds with hs | _ | _
    · rw [ha] at hr
      exact ih (h.2.2 hs ha) hr
    · rw [ha] at hr
      cases hr
    · rw [ha] at hr
      cases hr

theorem trainablePlan_step {deep : Bool} {p : Plan} {ps : List Plan} {ds es : List Nat} (h : TrainablePlan deep (p :: ps))
    (hd : deep = true → 3 ≤ ds.length) (ha : p.answer ds = .accepts es) :
    (p = .flatten → 3 ≤ ds.length) ∧ p ≠ .dropout false ∧ ∃ deep', TrainablePlan deep' ps ∧ (deep' = true → 3 ≤ es.length) := by
  cases p with
  | dense i o => exact ⟨nofun, nofun, false, h, nofun⟩
  | elementwise =>
    cases ha
    exact ⟨nofun, nofun, deep, h, hd⟩
  | softmax =>
    refine ⟨nofun, nofun, deep, h, ?_⟩
    simp only [Plan.answer] at ha
    split at ha
    · cases ha
      exact hd
    · cases ha
  | flatten => exact ⟨fun _ => hd h.1, nofun, false, h.2, nofun⟩
  | conv ic oc kh kw =>
    refine ⟨nofun, nofun, true, h, fun _ => ?_⟩
    unfold Plan.answer at ha
    split at ha <;> (try split at ha) <;> (try split at ha) <;> simp_all
    subst ha
    simp
  | pool q s =>
    refine ⟨nofun, nofun, true, h, fun _ => ?_⟩
    unfold Plan.answer at ha
    split at ha <;> (try split at ha) <;> simp_all
    subst ha
    simp
  | dropout t =>
    cases ha
    refine ⟨nofun, ?_, deep, h.2, hd⟩
    intro hp
    cases hp
    cases h.1

theorem follows_run {ρ : Type} (E : Engine ρ ℝ) {ls : List (Layer ℝ)} {ps : List Plan} (h : List.Forall₂ Follows ls ps) :
    ∀ {ds : List Nat} (r : ρ) (x : List Nat → ℝ), HasRoom ps ds →
    ∃ ls' r', (forwardLayers E ls (ofFn ds x) r).2 = (ls', r') ∧ Outcome (forwardLayers E ls (ofFn ds x) r).1 (run ps ds) ∧
      List.Forall₂ Follows ls' ps ∧ ls'.map params = ls.map params ∧
      ∀ deep es gs g, TrainablePlan deep ps → (deep = true → 3 ≤ ds.length) → run ps ds = .accepts es → GradDims es gs →
        (∃ e, (backwardLayers ls' (ofFn gs g)).1 = .error e ∧ e.isException = true) ∨
        ∃ hs z ls'', backwardLayers ls' (ofFn gs g) = (.ok (ofFn hs z), ls'') ∧ GradDims ds hs ∧ List.Forall₂ Follows ls'' ps ∧
          (∀ l ∈ ls'', Ready l) ∧ ls''.map params = ls.map params := by
  induction h with
  | nil =>
    intro ds r x _
    refine ⟨[], r, rfl, ⟨x, rfl⟩, .nil, rfl, fun deep es gs g _ _ hr hg => ?_⟩
    cases hr
    exact Or.inr ⟨gs, g, [], rfl, hg, .nil, by simp, rfl⟩
  | @cons l p ls ps hl hls ih =>
    intro ds r x hf
    obtain ⟨hd, hroom, hnext⟩ := hf
    obtain ⟨l', r', f1, f2, f3, f4, f5⟩ := follows_step hl E r hd hroom (fun es ha => dims_room (hnext es ha)) x
    rw [forwardLayers_cons]
    rcases hfw : Layer.forward E (ofFn ds x) (l, r) with ⟨res, st⟩
    rw [hfw] at f1 f2
    simp only at f1 f2
    subst f1
    rcases ha : p.answer ds with es | _ | _
    · rw [ha] at f2
      obtain ⟨y, rfl⟩ := f2
      obtain ⟨ls', r'', k1, k2, k3, k4, k5⟩ := ih r' y (hnext es ha)
      rcases hfl : forwardLayers E ls (ofFn es y) r' with ⟨res, st⟩
      rw [hfl] at k1 k2
      simp only at k1 k2
      subst k1
      have hrun : run (p :: ps) ds = run ps es := by
        rw [run, ha]
      refine ⟨l' :: ls', r'', ?_, ?_, .cons f3 k3, by simp [f4, k4], ?_⟩
      · simp only [hfl]
      · simp only [hfl]
        rw [hrun]
        exact k2
      · intro deep fs gs g ht hdeep hr hg
        rw [hrun] at hr
        obtain ⟨t1, t2, deep', t3, t4⟩ := trainablePlan_step ht hdeep ha
        rcases k5 deep' fs gs g t3 t4 hr hg with ⟨e, b1, b2⟩ | ⟨hs, z, ls'', b1, b2, b3, b4, b5⟩
        · refine Or.inl ⟨e, ?_, b2⟩
          unfold backwardLayers
          rcases hb : backwardLayers ls' (ofFn gs g) with ⟨res, st⟩
          rw [hb] at b1
          simp only at b1
          subst b1
          rfl
        · rcases f5 es hs z ha b2 t1 t2 with ⟨e, c1, c2⟩ | ⟨hs', z', l'', c1, c2, c3, c4, c5⟩
          · refine Or.inl ⟨e, ?_, c2⟩
            unfold backwardLayers
            rw [b1]
            simp only
            rcases hb : Layer.backward (ofFn hs z) l' with ⟨res, st⟩
            rw [hb] at c1
            exact c1
          · refine Or.inr ⟨hs', z', l'' :: ls'', ?_, c2, .cons c3 b3, ?_, by simp [c5, b5]⟩
            · unfold backwardLayers
              rw [b1]
              simp only
              rw [c1]
            · intro a ha
              rcases List.mem_cons.1 ha with rfl | ha
              · exact c4
              · exact b4 a ha
    · rw [ha] at f2
      obtain ⟨e, rfl, he⟩ := f2
      refine ⟨l' :: ls, r', rfl, ?_, .cons f3 hls, by simp [f4], ?_⟩
      · rw [run, ha]
        exact ⟨e, rfl, he⟩
      · intro deep es gs g _ _ hr
        rw [run, ha] at hr
        cases hr
    · rw [ha] at f2
      cases f2
      refine ⟨l' :: ls, r', rfl, ?_, .cons f3 hls, by simp [f4], ?_⟩
      · rw [run, ha]
        rfl
      · intro deep es gs g _ _ hr
        rw [run, ha] at hr
        cases hr

theorem updated_follows {l l' : Layer ℝ} {p : Plan} (hu : Updated l l') (h : Follows l p) : Follows l' p := by
  have key : ∀ {a b : Tensor ℝ} {ds : List Nat} {f : List Nat → ℝ}, Dims ds → SameShape a b → a = ofFn ds f →
      ∃ g, b = ofFn ds g := by
    rintro a b ds f hd ⟨s1, s2⟩ rfl
    exact exists_ofFn hd s1 (by rw [s2, ofFn_data]; simp)
  cases h with
  | @dense i o w bias l mode hw hlw hlb =>
    cases hu with
    | fc _ _ w' b' h1 h2 =>
      obtain ⟨w2, e1⟩ := key hw h1 hlw
      obtain ⟨b2, e2⟩ := key (dims_cons_one (dims_tail hw)) h2 hlb
      exact .dense hw e1 e2
    | unchanged => exact .dense hw hlw hlb
  | elementwise ha =>
    cases hu
    exact .elementwise ha
  | softmax ha =>
    cases hu
    exact .softmax ha
  | flatten =>
    cases hu
    exact .flatten
  | @conv ic oc kh kw k b l mode hdk h0 h1 h2 h3 hw hb =>
    cases hu with
    | conv _ _ w' b' s1 s2 =>
      obtain ⟨w2, e1⟩ := key hdk s1 hw
      obtain ⟨b2, e2⟩ := key (dims_conv_bias hdk) s2 hb
      exact .conv hdk h0 h1 h2 h3 e1 e2
    | unchanged => exact .conv hdk h0 h1 h2 h3 hw hb
  | pool hp hs =>
    cases hu
    exact .pool hp hs
  | dropout =>
    cases hu
    exact .dropout

theorem updated_all_follow {ls ls' : List (Layer ℝ)} (hu : List.Forall₂ Updated ls ls') :
    ∀ {ps : List Plan}, List.Forall₂ Follows ls ps → List.Forall₂ Follows ls' ps := by
  induction hu with
  | nil => exact fun h => h
  | cons h _ ih =>
    intro ps hc
    cases hc with
    | cons hl hls => exact .cons (updated_follows h hl) (ih hls)

/-! ### Losses -/

theorem loss_answer {L : Loss ℝ} {es ts : List Nat} (he : Dims es) (ht : Dims ts) (hL : L = .mse ∨ ts.length ≠ 1)
    (p t : List Nat → ℝ) :
    (∃ e, L.compute (ofFn es p) (ofFn ts t) = .error e ∧ e.isException = true) ∨
    ∃ v g, L.compute (ofFn es p) (ofFn ts t) = .ok v ∧ L.gradient (ofFn es p) (ofFn ts t) = .ok (ofFn es g) := by
  cases L with
  | mse =>
    by_cases h : es = ts
    · subst h
      exact Or.inr ⟨_, _, C29_compute he p t, mse_gradient_ofFn he p t⟩
    · by_cases h1 : ts.length = 1 ∧ es.head? = ts.head? ∧ es.prod = ts.prod
      · obtain ⟨h1, h2, h3⟩ := h1
        obtain ⟨n, rfl⟩ := List.length_eq_one_iff.1 h1
        obtain ⟨c1, c2⟩ := C29_rank1_target he h2 (by simpa using h3) p t
        exact Or.inr ⟨_, _, c1, c2.trans (mse_gradient_ofFn he p _)⟩
      · obtain ⟨⟨e, e1, e2⟩, -⟩ := C29_mismatch he ht h h1 p t
        exact Or.inl ⟨e, e2, e1⟩
  | crossEntropy eps =>
    have hL : ts.length ≠ 1 := by
      rcases hL with h | h
      · cases h
      · exact h
    by_cases h : es = ts
    · subst h
      match es, he, hL with
      | [], he, _ => exact (he.ne rfl).elim
      | [_], _, hL => exact (hL rfl).elim
      | [b, k], he, _ => exact Or.inr ⟨_, _, C30_compute he eps p t, C31_value he eps p t⟩
      | d :: e :: c :: ds, he, _ => exact Or.inl ⟨_, (C30_rank3 he eps p t).1, rfl⟩
    · exact Or.inl ⟨_, (C30_shape_mismatch h eps p t).1, rfl⟩

end SmartDNN
