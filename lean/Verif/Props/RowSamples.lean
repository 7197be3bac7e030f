import Verif.Props.Typed

/-!
# Training on single 1-D samples (C72)

A model of dense layers with ReLU, Sigmoid or Tanh between them can be trained on 1-D samples, and the result is the
same as on batches that hold the sample as their only row.  With LeakyReLU, Swish, Mish or dropout in front of a dense
layer the first training step on a 1-D sample throws.
-/

namespace SmartDNN
open Net Spec

/-! ### Specification -/

/-- A 1-D sample of `n` features. -/
def Spec.sample (n : Nat) (x : Nat → ℝ) : Tensor ℝ := ofFn [n] fun i => x (i.getD 0 0)

/-- The batch with this sample as its only row. -/
def Spec.row (n : Nat) (x : Nat → ℝ) : Tensor ℝ := ofFn [1, n] fun i => x (i.getD 1 0)

/-- `RowLayer l n m`: a dense layer from `n` to `m` features, or a ReLU, Sigmoid or Tanh layer (`n = m`). -/
inductive Spec.RowLayer : Layer ℝ → Nat → Nat → Prop where
  | dense {n m : Nat} {w bias : List Nat → ℝ} {l : FC ℝ} {mode : Bool} (hw : Dims [n, m])
      (hlw : l.weights = ofFn [n, m] w) (hlb : l.biases = ofFn [1, m] bias) : RowLayer ⟨.fc l, mode⟩ n m
  | act {n : Nat} {l : ActLayer ℝ} {mode : Bool} (hn : Dims [n])
      (ha : l.activation = .relu ∨ l.activation = .sigmoid ∨ l.activation = .tanh) : RowLayer ⟨.activation l, mode⟩ n n

/-- Layers whose sizes fit together. -/
inductive Spec.RowChain : List (Layer ℝ) → Nat → Nat → Prop where
  | nil {n : Nat} (h : Dims [n]) : RowChain [] n n
  | cons {l : Layer ℝ} {ls : List (Layer ℝ)} {n m k : Nat} (hl : RowLayer l n m) (hls : RowChain ls m k) :
      RowChain (l :: ls) n k

/-- The layer without the input it remembers. -/
def Spec.forgetInput (l : Layer ℝ) : Layer ℝ :=
  match l.kind with
  | .fc f => { l with kind := .fc { f with input := none } }
  | .activation a => { l with kind := .activation { a with input := none } }
  | .maxPool p => { l with kind := .maxPool { p with input := none } }
  | _ => l

/-- Two models that differ at most in the inputs their layers remember. -/
def Spec.Agree {ρ : Type} (net net' : Net ρ ℝ) : Prop :=
  net.layers.map forgetInput = net'.layers.map forgetInput ∧ net.loss = net'.loss ∧ net.optimizer = net'.optimizer ∧ net.rng = net'.rng

/-! ### One layer -/

theorem dims_head {n m : Nat} (h : Dims [n, m]) : Dims [n] := by
  refine ⟨by simp, fun d hd => h.pos d (by simp at hd; simp [hd]), ?_⟩
  have h1 := h.pos m (by simp)
  have h2 := h.lt
  simp only [List.prod_cons, List.prod_nil, mul_one] at h2 ⊢
  exact lt_of_le_of_lt (Nat.le_mul_of_pos_right _ h1) h2

theorem ofFn_as_sample (n : Nat) (f : List Nat → ℝ) : ofFn [n] f = sample n fun j => f [j] := by
  unfold sample
  apply ofFn_congr
  intro i hi
  obtain ⟨j, rfl, -⟩ := valid1_iff.1 hi
  rfl

theorem ofFn_as_row (n : Nat) (f : List Nat → ℝ) : ofFn [1, n] f = row n fun j => f [0, j] := by
  unfold row
  apply ofFn_congr
  intro i hi
  obtain ⟨a, b, rfl, ha, -⟩ := valid2_iff.1 hi
  obtain rfl : a = 0 := by omega
  rfl

/-- Gradients on their way back through the model: still 1-D, or already a row. -/
def Spec.RowLike (n : Nat) (z : Nat → ℝ) (t : Tensor ℝ) : Prop := t = sample n z ∨ t = row n z

theorem ensure2D_rowLike {n : Nat} (hn : Dims [n]) {z : Nat → ℝ} {t : Tensor ℝ} (h : RowLike n z t) :
    FC.ensure2D t = .ok (ofFn [1, n] fun i => z (i.getD 1 0)) := by
  rcases h with rfl | rfl
  · exact ensure2D_row hn _
  · exact ensure2D_mat _ _ _

theorem mul_rowLike {n : Nat} (hn : Dims [n]) (d g : Nat → ℝ) {t : Tensor ℝ} (h : RowLike n g t) :
    ∃ s, (sample n d).mul t = .ok s ∧ RowLike n (fun j => d j * g j) s := by
  rcases h with rfl | rfl
  · exact ⟨_, mul_same hn _ _, Or.inl rfl⟩
  · have hc : Compat [n] [1, n] := by
      intro i
      rcases i with _ | _ | i <;> simp [dimR]
    refine ⟨_, (C06_elementwise [n] [1, n] hn (dims_cons_one hn) hc _ _).2.2.1, Or.inr ?_⟩
    have hp := hn.pos n (by simp)
    have hb : bdims [n] [1, n] = [1, n] := by
      simp [bdims, dimR, List.range_succ]
    rw [hb]
    unfold row
    apply ofFn_congr
    intro i hi
    obtain ⟨a, b, rfl, ha, hb⟩ := valid2_iff.1 hi
    have key : ∀ e : Nat → ℝ, e (if n = 1 then 0 else b) = e b := by
      intro e
      split
      · rw [show b = 0 by omega]
      · rfl
    simp [proj, key]

theorem mul_row {n : Nat} (hn : Dims [n]) (d g : Nat → ℝ) : (row n d).mul (row n g) = .ok (row n fun j => d j * g j) :=
  mul_same (dims_cons_one hn) _ _

theorem map_sample (n : Nat) (x : Nat → ℝ) (f : ℝ → ℝ) : (sample n x).map f = .ok (sample n fun j => f (x j)) :=
  map_ofFn _ _ _
theorem map_row (n : Nat) (x : Nat → ℝ) (f : ℝ → ℝ) : (row n x).map f = .ok (row n fun j => f (x j)) :=
  map_ofFn _ _ _

/-- The activations of `RowLayer` on samples and on rows. -/
theorem act_rows {a : Act ℝ} (ha : a = .relu ∨ a = .sigmoid ∨ a = .tanh) {n : Nat} (hn : Dims [n]) (x : Nat → ℝ) :
    (∃ y, a.forward (sample n x) = .ok (sample n y) ∧ a.forward (row n x) = .ok (row n y)) ∧
    ∀ g t, RowLike n g t → ∃ z s, a.backward (sample n x) t = .ok s ∧ RowLike n z s ∧
      a.backward (row n x) (row n g) = .ok (row n z) := by
  rcases ha with rfl | rfl | rfl
  · refine ⟨⟨_, map_sample _ _ _, map_row _ _ _⟩, fun g t h => ?_⟩
    obtain ⟨s, h1, h2⟩ := mul_rowLike hn (fun j => if 0 < x j then 1 else 0) g h
    refine ⟨_, s, ?_, h2, ?_⟩
    · simp only [Act.backward, Tensor.apply, map_sample, Except.bind_ok', h1]
    · simp only [Act.backward, Tensor.apply, map_row, Except.bind_ok', mul_row hn]
  · refine ⟨⟨_, map_sample _ _ _, map_row _ _ _⟩, fun g t h => ?_⟩
    have e1 : ∀ d : Nat → ℝ, Tensor.scalarSub 1 (sample n d) = .ok (sample n fun j => d j * -1 + 1) := fun d => scalarSub_ofFn _ _ _
    have e2 : ∀ d : Nat → ℝ, Tensor.scalarSub 1 (row n d) = .ok (row n fun j => d j * -1 + 1) := fun d => scalarSub_ofFn _ _ _
    have e3 : ∀ d e : Nat → ℝ, (sample n d).mul (sample n e) = .ok (sample n fun j => d j * e j) := fun d e => mul_same hn _ _
    obtain ⟨s, h1, h2⟩ := mul_rowLike hn
      (fun j => Act.sig (MathFn.toFloat (x j)) * (Act.sig (MathFn.toFloat (x j)) * -1 + 1)) g h
    refine ⟨_, s, ?_, h2, ?_⟩
    · simp only [Act.backward, Act.forward, Tensor.apply, map_sample, Except.bind_ok', e1, e3, h1]
    · simp only [Act.backward, Act.forward, Tensor.apply, map_row, Except.bind_ok', e2, mul_row hn]
  · refine ⟨⟨_, map_sample _ _ _, map_row _ _ _⟩, fun g t h => ?_⟩
    obtain ⟨s, h1, h2⟩ := mul_rowLike hn (fun j => 1 - MathFn.tanh (x j) * MathFn.tanh (x j)) g h
    refine ⟨_, s, ?_, h2, ?_⟩
    · simp only [Act.backward, Tensor.apply, map_sample, Except.bind_ok', h1]
    · simp only [Act.backward, Tensor.apply, map_row, Except.bind_ok', mul_row hn]

theorem forget_fc {f : FC ℝ} {mode : Bool} {l : Layer ℝ} (h : forgetInput ⟨.fc f, mode⟩ = forgetInput l) :
    ∃ i, l = ⟨.fc { f with input := i }, mode⟩ := by
  obtain ⟨k, m⟩ := l
  cases k <;> simp only [forgetInput, Layer.mk.injEq, reduceCtorEq, false_and, LayerKind.fc.injEq, FC.mk.injEq] at h
  next f' =>
    obtain ⟨⟨h1, h2, -, h3, h4⟩, h5⟩ := h
    refine ⟨f'.input, ?_⟩
    obtain ⟨a, b, c, d, e⟩ := f'
    simp only at h1 h2 h3 h4 h5
    subst h1 h2 h3 h4 h5
    rfl

theorem forget_act {a : ActLayer ℝ} {mode : Bool} {l : Layer ℝ} (h : forgetInput ⟨.activation a, mode⟩ = forgetInput l) :
    ∃ i, l = ⟨.activation { a with input := i }, mode⟩ := by
  obtain ⟨k, m⟩ := l
  cases k <;> simp only [forgetInput, Layer.mk.injEq, reduceCtorEq, false_and, LayerKind.activation.injEq, ActLayer.mk.injEq] at h
  next a' =>
    obtain ⟨⟨h1, -⟩, h5⟩ := h
    refine ⟨a'.input, ?_⟩
    obtain ⟨b, c⟩ := a'
    simp only at h1 h5
    subst h1 h5
    rfl

theorem forget_pool {p : MaxPool ℝ} {mode : Bool} {l : Layer ℝ} (h : forgetInput ⟨.maxPool p, mode⟩ = forgetInput l) :
    ∃ i, l = ⟨.maxPool { p with input := i }, mode⟩ := by
  obtain ⟨k, m⟩ := l
  cases k <;> simp only [forgetInput, Layer.mk.injEq, reduceCtorEq, false_and, LayerKind.maxPool.injEq, MaxPool.mk.injEq] at h
  next p' =>
    obtain ⟨⟨h1, h2, h3, h4, -⟩, h5⟩ := h
    refine ⟨p'.input, ?_⟩
    obtain ⟨a, b, c, d, e⟩ := p'
    simp only at h1 h2 h3 h4 h5
    subst h1 h2 h3 h4 h5
    rfl

theorem row_step {ρ : Type} {l l' : Layer ℝ} {n m : Nat} (h : RowLayer l n m) (hl : forgetInput l = forgetInput l') (E : Engine ρ ℝ)
    (r : ρ) (x : Nat → ℝ) :
    ∃ y k k', Layer.forward E (sample n x) (l, r) = (.ok (sample m y), (k, r)) ∧
      Layer.forward E (row n x) (l', r) = (.ok (row m y), (k', r)) ∧ RowLayer k n m ∧ forgetInput k = forgetInput k' ∧
      params k = params l ∧
      ∀ g t, RowLike m g t → ∃ z s j j', Layer.backward t k = (.ok s, j) ∧ Layer.backward (row m g) k' = (.ok (row n z), j') ∧
        RowLike n z s ∧ RowLayer j n m ∧ forgetInput j = forgetInput j' ∧ Ready j ∧ params j = params l := by
  cases h with
  | @dense n m w bias f mode hw hlw hlb =>
    obtain ⟨i, rfl⟩ := forget_fc hl
    have hn := dims_head hw
    have hm := dims_tail hw
    refine ⟨fun j => affine1 n w bias (fun i => x (i.getD 0 0)) [j],
      ⟨.fc { f with input := some (sample n x) }, mode⟩, ⟨.fc { f with input := some (row n x) }, mode⟩, ?_, ?_,
      .dense hw hlw hlb, rfl, rfl, fun g t hg => ?_⟩
    · simp only [Layer.forward, Layer.onKind]
      unfold sample
      rw [C37_sample hn hm w bias _ f hlw hlb]
      rfl
    · simp only [Layer.forward, Layer.onKind]
      unfold row
      rw [C37_batch (dims_cons_one hm) w bias _ { f with input := i } hlw hlb]
      refine congrArg (fun y => ((.ok y : Res (Tensor ℝ)), _)) ?_
      apply ofFn_congr
      intro i hi
      obtain ⟨a, b, rfl, ha, hb⟩ := valid2_iff.1 hi
      simp [affine, affine1]
    · have b1 := fc_backward (l := { f with input := some (sample n x) }) (dims_cons_one hn) hw (dims_cons_one hm) hlw hlb rfl
        (ensure2D_rowLike hn (Or.inl rfl)) (ensure2D_rowLike hm hg)
      have b2 := fc_backward (l := { f with input := some (row n x) }) (dims_cons_one hn) hw (dims_cons_one hm) hlw hlb rfl
        (ensure2D_rowLike hn (Or.inr rfl)) (ensure2D_rowLike hm (Or.inr rfl : RowLike m g (row m g)))
      rw [ofFn_as_row n (fun idx => dot m _ _)] at b1 b2
      have c1 : Layer.backward t ⟨.fc { f with input := some (sample n x) }, mode⟩ = _ :=
        congrArg (fun p => (p.1, (⟨.fc p.2, mode⟩ : Layer ℝ))) b1
      have c2 : Layer.backward (row m g) ⟨.fc { f with input := some (row n x) }, mode⟩ = _ :=
        congrArg (fun p => (p.1, (⟨.fc p.2, mode⟩ : Layer ℝ))) b2
      refine ⟨_, _, _, _, c1, c2, Or.inr rfl, .dense hw hlw hlb, rfl, ?_, rfl⟩
      intro p hp
      cases hp
      refine ⟨_, rfl, ?_, ?_, ?_, ?_⟩
      · simp only [hlw]; exact full_ofFn _ _
      · simp only [hlb]; exact full_ofFn _ _
      · simp only [hlw]; exact size_ofFn _ _ _
      · simp only [hlb]; exact size_ofFn _ _ _
  | @act n a mode hn ha =>
    obtain ⟨i, rfl⟩ := forget_act hl
    obtain ⟨⟨y, h1, h2⟩, h3⟩ := act_rows ha hn x
    refine ⟨y, ⟨.activation { a with input := some (sample n x) }, mode⟩,
      ⟨.activation { a with input := some (row n x) }, mode⟩, ?_, ?_, .act hn ha, rfl, rfl, fun g t hg => ?_⟩
    · exact congrArg (fun y => (y, (⟨⟨.activation { a with input := some (sample n x) }, mode⟩, r⟩ : Layer ℝ × ρ))) h1
    · exact congrArg (fun y => (y, (⟨⟨.activation { a with input := some (row n x) }, mode⟩, r⟩ : Layer ℝ × ρ))) h2
    · obtain ⟨z, s, e1, e2, e3⟩ := h3 g t hg
      exact ⟨z, s, ⟨.activation { a with input := some (sample n x) }, mode⟩,
        ⟨.activation { a with input := some (row n x) }, mode⟩,
        congrArg (fun y => (y, (⟨.activation { a with input := some (sample n x) }, mode⟩ : Layer ℝ))) e1,
        congrArg (fun y => (y, (⟨.activation { a with input := some (row n x) }, mode⟩ : Layer ℝ))) e3,
        e2, .act hn ha, rfl, ready_of_none rfl, rfl⟩

/-! ### The layers of a model -/

theorem row_chain {ρ : Type} {ls : List (Layer ℝ)} {n m : Nat} (h : RowChain ls n m) (E : Engine ρ ℝ) :
    ∀ {ls' : List (Layer ℝ)}, ls.map forgetInput = ls'.map forgetInput → ∀ (r : ρ) (x : Nat → ℝ),
    ∃ y ks ks', forwardLayers E ls (sample n x) r = (.ok (sample m y), ks, r) ∧
      forwardLayers E ls' (row n x) r = (.ok (row m y), ks', r) ∧ RowChain ks n m ∧ ks.map forgetInput = ks'.map forgetInput ∧
      ks.map params = ls.map params ∧
      ∀ g t, RowLike m g t → ∃ z s js js', backwardLayers ks t = (.ok s, js) ∧ backwardLayers ks' (row m g) = (.ok (row n z), js') ∧
        RowLike n z s ∧ RowChain js n m ∧ js.map forgetInput = js'.map forgetInput ∧ (∀ l ∈ js, Ready l) ∧
        js.map params = ls.map params := by
  induction h with
  | nil hn =>
    intro ls' hf r x
    obtain rfl : ls' = [] := by simpa using hf.symm
    exact ⟨x, [], [], rfl, rfl, .nil hn, rfl, rfl, fun g t hg => ⟨g, t, [], [], rfl, rfl, hg, .nil hn, rfl, by simp, rfl⟩⟩
  | @cons l ls n m k hl hls ih =>
    intro ls' hf r x
    obtain ⟨l', ls', rfl⟩ : ∃ a as, ls' = a :: as := by
      cases ls' with
      | nil => simp at hf
      | cons a as => exact ⟨a, as, rfl⟩
    simp only [List.map_cons, List.cons.injEq] at hf
    obtain ⟨y, u, u', f1, f2, f3, f4, f5, f6⟩ := row_step hl hf.1 E r x
    obtain ⟨z, us, us', k1, k2, k3, k4, k5, k6⟩ := ih hf.2 r y
    refine ⟨z, u :: us, u' :: us', ?_, ?_, .cons f3 k3, by simp [f4, k4], by simp [f5, k5], fun g t hg => ?_⟩
    · rw [forwardLayers_cons, f1]
      simp only
      rw [k1]
    · rw [forwardLayers_cons, f2]
      simp only
      rw [k2]
    · obtain ⟨v, s, vs, vs', b1, b2, b3, b4, b5, b6, b7⟩ := k6 g t hg
      obtain ⟨w, s', j, j', c1, c2, c3, c4, c5, c6, c7⟩ := f6 v s b3
      refine ⟨w, s', j :: vs, j' :: vs', ?_, ?_, c3, .cons c4 b4, by simp [b5, c5], ?_, by simp [b7, c7]⟩
      · unfold backwardLayers
        rw [b1]
        simp only
        rw [c1]
      · unfold backwardLayers
        rw [b2]
        simp only
        rw [c2]
      · intro a ha
        rcases List.mem_cons.1 ha with rfl | ha
        · exact c6
        · exact b6 a ha

theorem updated_row {l l' : Layer ℝ} {n m : Nat} (hu : Updated l l') (h : RowLayer l n m) : RowLayer l' n m := by
  cases h with
  | @dense n m w bias f mode hw hlw hlb =>
    cases hu with
    | fc _ _ w' b' h1 h2 =>
      obtain ⟨s1, s2⟩ := h1
      obtain ⟨s3, s4⟩ := h2
      rw [hlw] at s1 s2
      rw [hlb] at s3 s4
      obtain ⟨w2, e1⟩ := exists_ofFn hw s1 (by rw [s2, ofFn_data]; simp)
      obtain ⟨b2, e2⟩ := exists_ofFn (dims_cons_one (dims_tail hw)) s3 (by rw [s4, ofFn_data]; simp)
      exact .dense hw e1 e2
    | unchanged => exact .dense hw hlw hlb
  | @act n a mode hn ha =>
    cases hu
    exact .act hn ha

theorem updated_rowChain {ls ls' : List (Layer ℝ)} (hu : List.Forall₂ Updated ls ls') :
    ∀ {n m : Nat}, RowChain ls n m → RowChain ls' n m := by
  induction hu with
  | nil => exact fun h => h
  | cons h _ ih =>
    intro n m hc
    cases hc with
    | cons hl hls => exact .cons (updated_row h hl) (ih hls)

/-- An update does not look at remembered inputs. -/
theorem update_forget {l l' : Layer ℝ} (h : forgetInput l = forgetInput l') (k0 k1 : Nat × Bool) (opt : Optimizer (Nat × Bool) ℝ) :
    (Layer.updateWeights k0 k1 (l, opt)).1 = (Layer.updateWeights k0 k1 (l', opt)).1 ∧
    (Layer.updateWeights k0 k1 (l, opt)).2.2 = (Layer.updateWeights k0 k1 (l', opt)).2.2 ∧
    forgetInput (Layer.updateWeights k0 k1 (l, opt)).2.1 = forgetInput (Layer.updateWeights k0 k1 (l', opt)).2.1 := by
  obtain ⟨k, mode⟩ := l
  cases k with
  | fc f =>
    obtain ⟨i, rfl⟩ := forget_fc h
    obtain ⟨w, b, inp, wg, bg⟩ := f
    unfold Layer.updateWeights
    cases wg <;> cases bg <;> exact ⟨rfl, rfl, rfl⟩
  | activation a =>
    obtain ⟨i, rfl⟩ := forget_act h
    exact ⟨rfl, rfl, rfl⟩
  | maxPool p =>
    obtain ⟨i, rfl⟩ := forget_pool h
    exact ⟨rfl, rfl, rfl⟩
  | _ =>
    obtain ⟨k', m'⟩ := l'
    cases k' <;> first | (exfalso; simp [forgetInput] at h; done) | (simp only [forgetInput] at h; rw [h]; exact ⟨rfl, rfl, rfl⟩)

theorem updateLayers_forget {ls : List (Layer ℝ)} : ∀ {ls' : List (Layer ℝ)}, ls.map forgetInput = ls'.map forgetInput →
    ∀ (i : Nat) (opt : Optimizer (Nat × Bool) ℝ),
    (updateLayers i ls opt).1 = (updateLayers i ls' opt).1 ∧ (updateLayers i ls opt).2.2 = (updateLayers i ls' opt).2.2 ∧
      (updateLayers i ls opt).2.1.map forgetInput = (updateLayers i ls' opt).2.1.map forgetInput := by
  induction ls with
  | nil =>
    intro ls' h i opt
    obtain rfl : ls' = [] := by simpa using h.symm
    exact ⟨rfl, rfl, rfl⟩
  | cons l ls ih =>
    intro ls' h i opt
    cases ls' with
    | nil => simp at h
    | cons l' ls' =>
      simp only [List.map_cons, List.cons.injEq] at h
      obtain ⟨h1, h2, h3⟩ := update_forget h.1 (i, false) (i, true) opt
      rw [updateLayers_cons, updateLayers_cons]
      rcases e : Layer.updateWeights (i, false) (i, true) (l, opt) with ⟨r, k, o⟩
      rcases e' : Layer.updateWeights (i, false) (i, true) (l', opt) with ⟨r', k', o'⟩
      rw [e, e'] at h1 h2 h3
      simp only at h1 h2 h3
      subst h1 h2
      cases r with
      | error er => exact ⟨rfl, rfl, by simp [h3, h.2]⟩
      | ok u =>
        obtain ⟨g1, g2, g3⟩ := ih h.2 (i + 1) o
        exact ⟨g1, g2, by simp [h3, g3]⟩

/-! ### Models -/

/-- A compiled model of such layers with the mean squared error; the optimizer is fresh or has only been used on this
model. -/
def Spec.RowModel {ρ : Type} (net : Net ρ ℝ) (n m : Nat) : Prop :=
  RowChain net.layers n m ∧ net.loss = some .mse ∧ ∃ opt, net.optimizer = some opt ∧ RemembersFrom opt 0 net.layers

theorem row_last {ls : List (Layer ℝ)} {n m : Nat} (h : RowChain ls n m) : Dims [m] := by
  induction h with
  | nil h => exact h
  | cons _ _ ih => exact ih

/-- `predict` of a sample succeeds and returns the sample whose row `predict` returns for the row. -/
theorem C72_predict {ρ : Type} {n m : Nat} (E : Engine ρ ℝ) (net net' : Net ρ ℝ) (h : RowModel net n m) (ha : Agree net net')
    (x : Nat → ℝ) :
    ∃ y k k', predict E (sample n x) net = (.ok (sample m y), k) ∧ predict E (row n x) net' = (.ok (row m y), k') ∧
      Agree k k' ∧ RowModel k n m := by
  obtain ⟨hc, hl, opt, ho, hr⟩ := h
  obtain ⟨a1, a2, a3, a4⟩ := ha
  obtain ⟨y, ks, ks', h1, h2, h3, h4, h5, -⟩ := row_chain hc E a1 net.rng x
  refine ⟨y, { net with layers := ks }, { net' with layers := ks' }, ?_, ?_, ⟨h4, a2, a3, a4⟩, h3, hl, opt, ho,
    remembersFrom_params h5 hr⟩
  · unfold predict
    rw [h1]
  · unfold predict
    rw [← a4, h2, a4]

theorem mse_rows {m : Nat} (hm : Dims [m]) (p t : Nat → ℝ) :
    ∃ v g, Loss.mse.compute (sample m p) (sample m t) = .ok (ofFn [1] fun _ => v) ∧
      Loss.mse.compute (row m p) (row m t) = .ok (ofFn [1] fun _ => v) ∧
      Loss.mse.gradient (sample m p) (sample m t) = .ok (sample m g) ∧
      Loss.mse.gradient (row m p) (row m t) = .ok (row m g) := by
  refine ⟨_, fun j => (p j - t j) * 2 / ([m].prod : ℝ), C29_compute hm _ _, ?_, mse_gradient_ofFn hm _ _, ?_⟩
  · unfold row
    rw [C29_compute (dims_cons_one hm)]
    refine congrArg (fun v : ℝ => (.ok (ofFn [1] fun _ => v) : Res (Tensor ℝ))) ?_
    unfold mse
    rw [total1, total2, Finset.sum_range_one]
    simp
  · unfold row
    rw [mse_gradient_ofFn (dims_cons_one hm)]
    refine congrArg (fun v => (.ok v : Res (Tensor ℝ))) ?_
    apply ofFn_congr
    intro i hi
    simp

theorem row_trainStep {ρ : Type} {n m : Nat} (E : Engine ρ ℝ) (net net' : Net ρ ℝ) (h : RowModel net n m) (ha : Agree net net')
    (x y : Nat → ℝ) :
    ∃ v k k', StepOk E (sample n x) (sample m y) net k v ∧ StepOk E (row n x) (row m y) net' k' v ∧ Agree k k' ∧
      RowModel k n m := by
  obtain ⟨hc, hl, opt, ho, hr⟩ := h
  obtain ⟨a1, a2, a3, a4⟩ := ha
  obtain ⟨p, ks, ks', h1, h2, h3, h4, h5, h6⟩ := row_chain hc E a1 net.rng x
  obtain ⟨v, g, l1, l2, l3, l4⟩ := mse_rows (row_last hc) p y
  obtain ⟨z, s, js, js', b1, b2, b3, b4, b5, b6, b7⟩ := h6 g (sample m g) (Or.inl rfl)
  let net1 : Net ρ ℝ := { net with layers := ks }
  let net1' : Net ρ ℝ := { net' with layers := ks' }
  let net2 : Net ρ ℝ := { net with layers := js }
  let net2' : Net ρ ℝ := { net' with layers := js' }
  have hready : NetReady net2 := ⟨b6, opt, ho, remembersFrom_params b7 hr⟩
  obtain ⟨u1, u2⟩ := C56_succeeds net2 hready
  obtain ⟨c1, c2, c3⟩ := C56_changes net2
  obtain ⟨-, opt', o1, o2⟩ := u2
  obtain ⟨w1, w2, w3⟩ := updateLayers_forget b5 0 opt
  have e := net_updateWeights_eq net2 opt ho
  have e' := net_updateWeights_eq net2' opt (a3.symm.trans ho)
  refine ⟨v, (updateWeights net2).2, (updateWeights net2').2,
    ⟨sample m p, net1, .mse, sample m g, s, net2, ?_, hl, l1, l3, ?_, Prod.ext u1 rfl⟩,
    ⟨row m p, net1', .mse, row m g, row n z, net2', ?_, a2.symm.trans hl, l2, l4, ?_, Prod.ext ?_ rfl⟩, ⟨?_, ?_, ?_, ?_⟩,
    updated_rowChain c1 b4, c2.trans hl, opt', o1, o2⟩
  · unfold predict
    rw [h1]
  · show backward (sample m g) net1 = _
    unfold backward
    rw [show net1.layers = ks from rfl, b1]
  · unfold predict
    rw [← a4, h2, a4]
  · show backward (row m g) net1' = _
    unfold backward
    rw [show net1'.layers = ks' from rfl, b2]
  · rw [e] at u1
    rw [e']
    rw [show net2.layers = js from rfl] at u1
    rw [show net2'.layers = js' from rfl]
    exact w1.symm.trans u1
  · rw [e, e']
    exact w3
  · rw [c2, (C56_changes net2').2.1]
    exact a2
  · rw [e, e']
    exact congrArg some w2
  · rw [c3, (C56_changes net2').2.2]
    exact a4

theorem row_steps {ρ : Type} {n m : Nat} (E : Engine ρ ℝ) (ps : List ((Nat → ℝ) × (Nat → ℝ))) :
    ∀ (net net' : Net ρ ℝ), RowModel net n m → Agree net net' →
    ∃ vs k k', Steps E (ps.map fun q => (sample n q.1, sample m q.2)) net k vs ∧
      Steps E (ps.map fun q => (row n q.1, row m q.2)) net' k' vs ∧ Agree k k' ∧ RowModel k n m := by
  induction ps with
  | nil => exact fun net net' h ha => ⟨[], net, net', .nil net, .nil net', ha, h⟩
  | cons q ps ih =>
    intro net net' h ha
    obtain ⟨v, k, k', s1, s2, s3, s4⟩ := row_trainStep E net net' h ha q.1 q.2
    obtain ⟨vs, j, j', t1, t2, t3, t4⟩ := ih k k' s4 s3
    exact ⟨v :: vs, j, j', .cons s1 t1, .cons s2 t2, t3, t4⟩

theorem row_epochs {ρ : Type} {n m : Nat} (E : Engine ρ ℝ) (ps : List ((Nat → ℝ) × (Nat → ℝ))) (N : Nat) :
    ∀ (net net' : Net ρ ℝ), RowModel net n m → Agree net net' →
    ∃ rs k k', Epochs E (ps.map fun q => (sample n q.1, sample m q.2)) N net k rs ∧
      Epochs E (ps.map fun q => (row n q.1, row m q.2)) N net' k' rs ∧ rs.length = N ∧ Agree k k' ∧ RowModel k n m := by
  induction N with
  | zero => exact fun net net' h ha => ⟨[], net, net', .zero net, .zero net', rfl, ha, h⟩
  | succ N ih =>
    intro net net' h ha
    obtain ⟨vs, k, k', s1, s2, s3, s4⟩ := row_steps E ps net net' h ha
    obtain ⟨rs, j, j', t1, t2, t3, t4, t5⟩ := ih k k' s4 s3
    have e1 := Epochs.succ s1 t1
    have e2 := Epochs.succ s2 t2
    rw [List.length_map] at e1 e2
    exact ⟨_ :: rs, j, j', e1, e2, by simp [t3], t4, t5⟩

/-- **C72** for dense layers with ReLU, Sigmoid and Tanh.  Training on 1-D samples succeeds, prints the same losses as
training on the one-row batches, and leaves the same model up to the remembered inputs.  Missing for the full property:
LeakyReLU, Swish and Mish, see `C72_activation_refuted`. -/
theorem C72_train_partial {ρ : Type} {n m : Nat} (E : Engine ρ ℝ) (net net' : Net ρ ℝ) (h : RowModel net n m)
    (ha : Agree net net') (data : List ((Nat → ℝ) × (Nat → ℝ))) (hne : data ≠ []) (epochs : Int) :
    ∃ rs k k', trainCall E (data.map fun q => sample n q.1) (data.map fun q => sample m q.2) epochs net = (.ok (), k, rs) ∧
      trainCall E (data.map fun q => row n q.1) (data.map fun q => row m q.2) epochs net' = (.ok (), k', rs) ∧
      rs.length = epochs.toNat ∧ Agree k k' ∧ RowModel k n m := by
  obtain ⟨rs, k, k', h1, h2, h3, h4, h5⟩ := row_epochs E data epochs.toNat net net' h ha
  have hn : (data.length : ℝ) ≠ 0 := by
    rw [Ne, Nat.cast_eq_zero, List.length_eq_zero_iff]
    exact hne
  refine ⟨rs, k, k', (C55_train E _ _ epochs net k rs (by simp) (by simpa using hn)).2 ?_,
    (C55_train E _ _ epochs net' k' rs (by simp) (by simpa using hn)).2 ?_, h3, h4, h5⟩
  · rw [List.zip_map']
    exact h1
  · rw [List.zip_map']
    exact h2

/-! ### The activations and layers that do not accept the row gradients of a dense layer -/

/-- `train` stops at the first sample if `backward` fails there. -/
theorem train_backward_fails {ρ : Type} (E : Engine ρ ℝ) {net net1 net2 : Net ρ ℝ} {x y pred g : Tensor ℝ} {L : Loss ℝ} {v : ℝ}
    {e : Err} (hp : predict E x net = (.ok pred, net1)) (hl : net1.loss = some L)
    (hc : L.compute pred y = .ok (ofFn [1] fun _ => v)) (hg : L.gradient pred y = .ok g)
    (hb : backward g net1 = (.error e, net2)) (xs ys : List (Tensor ℝ)) {epochs : Int} (he : 0 < epochs) :
    trainCall E (x :: xs) (y :: ys) epochs net = (.error e, net2, []) := by
  have h1 : trainSample E x (y :: ys) 0 ⟨net, ofFn [1] fun _ => 0, []⟩ = (.error e, ⟨net2, ofFn [1] fun _ => 0 + v, []⟩) := by
    unfold trainSample
    have h1 : Session.onNet (predict E x) ⟨net, ofFn [1] fun _ => 0, []⟩ = (.ok pred, ⟨net1, ofFn [1] fun _ => 0, []⟩) := by
      unfold Session.onNet
      simp only [hp]
    rw [Mut.bind_apply, h1]
    simp only [Mut.get_bind]
    have h3 : rd (y :: ys) ((0 : Nat) : Int) = .ok y := rd_some rfl
    rw [hl, show derefOpt (some L) = .ok L from rfl, Mut.lift_ok_bind, h3, Mut.lift_ok_bind, hc, Mut.lift_ok_bind,
      addAssign_one, Mut.lift_ok_bind, Mut.modify_bind, hg, Mut.lift_ok_bind, Mut.bind_apply]
    unfold Session.onNet
    simp only [hb]
  have h2 : trainSamples E (y :: ys) 0 (x :: xs) ⟨net, ofFn [1] fun _ => 0, []⟩ =
      (.error e, ⟨net2, ofFn [1] fun _ => 0 + v, []⟩) := by
    show (trainSample E x (y :: ys) 0 >>= fun _ => trainSamples E (y :: ys) (0 + 1) xs) _ = _
    rw [Mut.bind_apply, h1]
  obtain ⟨k, hk⟩ : ∃ k, epochs.toNat = k + 1 := ⟨epochs.toNat - 1, by omega⟩
  unfold trainCall train
  rw [hk, forN_const_succ, Mut.bind_apply, epoch_fails E (x :: xs) (y :: ys) ⟨net, ofFn [1] fun _ => 0, []⟩ h2]

/-- What `backward` of the next dense layer hands back is always a row. -/
theorem dense_backward_row {n m : Nat} (hw : Dims [n, m]) {w bias : List Nat → ℝ} {f : FC ℝ}
    (hlw : f.weights = ofFn [n, m] w) (hlb : f.biases = ofFn [1, m] bias) {x : Nat → ℝ} (hi : f.input = some (sample n x))
    {g : Nat → ℝ} {t : Tensor ℝ} (hg : RowLike m g t) (mode : Bool) :
    ∃ z j, Layer.backward t ⟨.fc f, mode⟩ = (.ok (row n z), j) := by
  have b1 := fc_backward (dims_cons_one (dims_head hw)) hw (dims_cons_one (dims_tail hw)) hlw hlb hi
    (ensure2D_rowLike (dims_head hw) (Or.inl rfl)) (ensure2D_rowLike (dims_tail hw) hg)
  rw [ofFn_as_row n (fun idx => dot m _ _)] at b1
  exact ⟨_, _, congrArg (fun p => (p.1, (⟨.fc p.2, mode⟩ : Layer ℝ))) b1⟩

theorem sample_row_beq (n : Nat) (x g : Nat → ℝ) : (sample n x).shape.beq (row n g).shape = false := by
  unfold sample row
  rw [ofFn_shape, ofFn_shape, beq_shapeOf]
  simp

/-- LeakyReLU, Swish and Mish do not accept a row as the gradient of a sample. -/
theorem act_rejects_row {a : Act ℝ} (ha : (∃ alpha, a = .leakyRelu alpha) ∨ a = .swish ∨ a = .mish) (n : Nat) (x g : Nat → ℝ) :
    a.backward (sample n x) (row n g) = .error .invalidArgument := by
  have h := sample_row_beq n x g
  rcases ha with ⟨alpha, rfl⟩ | rfl | rfl <;>
  · simp only [Act.backward, Tensor.applyPair, h]
    rfl

/-- `StopsRows l n`: a layer on `n` features that maps samples to samples but whose `backward` throws on a row. -/
inductive Spec.StopsRows : Layer ℝ → Nat → Prop where
  | act {n : Nat} {l : ActLayer ℝ} {mode : Bool} (hn : Dims [n])
      (ha : (∃ alpha, l.activation = .leakyRelu alpha) ∨ l.activation = .swish ∨ l.activation = .mish) :
      StopsRows ⟨.activation l, mode⟩ n
  | dropout {n : Nat} {l : Dropout ℝ} (hn : Dims [n]) : StopsRows ⟨.dropout l, true⟩ n

theorem stops_step {ρ : Type} {l : Layer ℝ} {n : Nat} (h : StopsRows l n) (E : Engine ρ ℝ) (r : ρ) (x : Nat → ℝ) :
    ∃ y k r', Layer.forward E (sample n x) (l, r) = (.ok (sample n y), (k, r')) ∧
      ∀ g, ∃ j, Layer.backward (row n g) k = (.error .invalidArgument, j) := by
  cases h with
  | @act n a mode hn ha =>
    have hs : a.activation ≠ .softmax := by
      intro e
      rw [e] at ha
      rcases ha with ⟨_, h⟩ | h | h <;> cases h
    obtain ⟨y, hy⟩ := act_forward_ok a.activation hs [n] (fun i => x (i.getD 0 0))
    rw [ofFn_as_sample n y] at hy
    refine ⟨_, ⟨.activation { a with input := some (sample n x) }, mode⟩, r,
      congrArg (fun y => (y, (⟨⟨.activation { a with input := some (sample n x) }, mode⟩, r⟩ : Layer ℝ × ρ))) hy, fun g => ?_⟩
    exact ⟨_, congrArg (fun y => (y, (⟨.activation { a with input := some (sample n x) }, mode⟩ : Layer ℝ)))
      (act_rejects_row ha n x g)⟩
  | @dropout n l hn =>
    have hf := dropout_forward_training E hn (fun i => x (i.getD 0 0)) l r (createRandom_ofFn E [n] 0 1 r)
    rw [ofFn_as_sample n (fun i => _ * (1 / (1 - l.dropoutRate)))] at hf
    refine ⟨_, _, _, congrArg (fun p => (p.1, ((⟨.dropout p.2.1, true⟩ : Layer ℝ), p.2.2))) hf, fun g => ?_⟩
    simp only [Layer.backward, Layer.onKind, Dropout.backward, Mut.get_bind, derefOpt, Mut.lift_ok_bind, row, ofFn_shape,
      beq_shapeOf]
    rw [if_pos (by simp)]
    exact ⟨_, rfl⟩

theorem rowLayer_forward {ρ : Type} {l : Layer ℝ} {n m : Nat} (h : RowLayer l n m) (E : Engine ρ ℝ) (r : ρ) (x : Nat → ℝ) :
    ∃ y k, Layer.forward E (sample n x) (l, r) = (.ok (sample m y), (k, r)) := by
  obtain ⟨y, k, -, h1, -⟩ := row_step h rfl E r x
  exact ⟨y, k, h1⟩

/-- In front of a dense layer, each of these layers makes every `train` on 1-D samples throw `std::invalid_argument` at
the first sample, whatever the other layers, the numbers, the optimizer and the random stream are. -/
theorem C72_activation_refuted {ρ : Type} {n k p m : Nat} (E : Engine ρ ℝ) (net : Net ρ ℝ)
    {pre post : List (Layer ℝ)} {l d : Layer ℝ} (hpre : RowChain pre n k) (hl : StopsRows l k) (hd : RowLayer d k p)
    (hdense : Trainable d) (hpost : RowChain post p m) (hlayers : net.layers = pre ++ l :: d :: post)
    (hloss : net.loss = some .mse) (x y : Nat → ℝ) (xs ys : List (Tensor ℝ)) {epochs : Int} (he : 0 < epochs) :
    ∃ net', trainCall E (sample n x :: xs) (sample m y :: ys) epochs net = (.error .invalidArgument, net', []) := by
  obtain ⟨u, kpre, -, a1, -⟩ := row_chain hpre E rfl net.rng x
  obtain ⟨v, kl, r', b1, b2⟩ := stops_step hl E net.rng u
  obtain ⟨q, kr, _, c1, -⟩ := row_chain (.cons hd hpost) E rfl r' v
  obtain ⟨w, g, l1, -, l3, -⟩ := mse_rows (row_last hpost) q y
  have hf : forwardLayers E net.layers (sample n x) net.rng = (.ok (sample m q), kpre ++ kl :: kr, r') := by
    rw [hlayers, forwardLayers_append E a1, forwardLayers_cons, b1]
    simp only
    rw [c1]
  have hp : predict E (sample n x) net = (.ok (sample m q), { net with layers := kpre ++ kl :: kr, rng := r' }) := by
    unfold predict
    rw [hf]
  -- the gradient that reaches `l` is a row
  obtain ⟨z, jr, d1⟩ : ∃ z jr, backwardLayers kr (sample m g) = (.ok (row k z), jr) := by
    rw [forwardLayers_cons] at c1
    cases hd with
    | act => exact hdense.elim
    | @dense _ _ w' bias f mode hw hlw hlb =>
      have hs : Layer.forward E (sample k v) (⟨.fc f, mode⟩, r') =
          (.ok (ofFn [p] (affine1 k w' bias fun i => v (i.getD 0 0))),
            (⟨.fc { f with input := some (ofFn [k] fun i => v (i.getD 0 0)) }, mode⟩, r')) := by
        simp only [Layer.forward, Layer.onKind]
        rw [show sample k v = ofFn [k] fun i => v (i.getD 0 0) from rfl, C37_sample (dims_head hw) (dims_tail hw) w' bias _ f hlw hlb]
      rw [hs] at c1
      simp only at c1
      rw [ofFn_as_sample] at c1
      obtain ⟨q', ks, _, e1, _, _, _, _, e2⟩ := row_chain hpost E rfl r'
        (fun j => affine1 k w' bias (fun i => v (i.getD 0 0)) [j])
      rw [e1] at c1
      simp only [Prod.mk.injEq] at c1
      obtain ⟨-, rfl, -⟩ := c1
      obtain ⟨z', s, js, _, f1, _, f2, -⟩ := e2 g (sample m g) (Or.inl rfl)
      obtain ⟨z, j, g1⟩ := dense_backward_row (f := { f with input := some (sample k v) }) hw hlw hlb rfl f2 mode
      refine ⟨z, j :: js, ?_⟩
      unfold backwardLayers
      rw [f1]
      simp only
      rw [show (ofFn [k] fun i => v (i.getD 0 0)) = sample k v from rfl, g1]
  obtain ⟨jl, d2⟩ := b2 z
  have d3 : backwardLayers (kl :: kr) (sample m g) = (.error .invalidArgument, jl :: jr) := by
    unfold backwardLayers
    rw [d1]
    simp only
    rw [d2]
  have d4 : ∀ ls : List (Layer ℝ), backwardLayers (ls ++ kl :: kr) (sample m g) = (.error .invalidArgument, ls ++ jl :: jr) := by
    intro ls
    induction ls with
    | nil => exact d3
    | cons a ls ih =>
      rw [List.cons_append]
      unfold backwardLayers
      rw [ih]
      rfl
  exact ⟨_, train_backward_fails E hp hloss l1 l3
    (show backward (sample m g) _ = (.error .invalidArgument, { net with layers := kpre ++ jl :: jr, rng := r' }) by
      unfold backward
      simp only
      rw [d4]) xs ys he⟩

/-! ### Concrete models -/

noncomputable section

/-- Dense 2 → 3, ReLU, dense 3 → 1. -/
def exRowNet (a : Act ℝ) : Net Unit ℝ where
  layers := [
    ⟨.fc { weights := ofFn [2, 3] (fun i => (i.sum : ℝ)), biases := ofFn [1, 3] (fun _ => 1) }, true⟩,
    ⟨.activation { activation := a }, true⟩,
    ⟨.fc { weights := ofFn [3, 1] (fun i => (i.sum : ℝ)), biases := ofFn [1, 1] (fun _ => 1) }, true⟩]
  rng := ()

/-- With ReLU it meets the hypotheses of `C72_train_partial`. -/
example (o : AdamOptions ℝ) : RowModel ((exRowNet .relu).compile .mse (.newAdam o)) 2 1 := by
  refine ⟨?_, rfl, _, rfl, ?_⟩
  · refine .cons (m := 3) (.dense (by constructor <;> simp) rfl rfl) ?_
    refine .cons (m := 3) (.act (by constructor <;> simp) (Or.inl rfl)) ?_
    exact .cons (m := 1) (.dense (by constructor <;> simp) rfl rfl) (.nil (by constructor <;> simp))
  · intro j l _ p _
    exact ⟨(remembers_new _ _ ⟨0, 0, 0, 0, false⟩ ⟨0, 0, 0, 0, false, 0⟩ o).2.2,
      (remembers_new _ _ ⟨0, 0, 0, 0, false⟩ ⟨0, 0, 0, 0, false, 0⟩ o).2.2⟩

/-- With Swish the first training step throws. -/
example (E : Engine Unit ℝ) (opt : Optimizer (Nat × Bool) ℝ) :
    ∃ net', trainCall E [sample 2 fun _ => 1] [sample 1 fun _ => 1] 1 ((exRowNet .swish).compile .mse opt) =
      (.error .invalidArgument, net', []) := by
  refine C72_activation_refuted (k := 3) (p := 1) (post := []) (pre := [_]) (d := ⟨.fc _, true⟩) E _
    (.cons (.dense (w := fun i => (i.sum : ℝ)) (bias := fun _ => 1) (by constructor <;> simp) rfl rfl) (.nil (by constructor <;> simp)))
    (.act (l := { activation := .swish }) (mode := true) (by constructor <;> simp) (Or.inr (Or.inl rfl)))
    (.dense (w := fun i => (i.sum : ℝ)) (bias := fun _ => 1) (by constructor <;> simp) rfl rfl)
    trivial (.nil (by constructor <;> simp)) rfl rfl _ _ [] [] (by norm_num)

end
end SmartDNN
