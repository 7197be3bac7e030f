import Verif.Props.EvalMode
import Verif.Props.Conv
import Verif.Props.UpdateWeights
import Verif.Props.BatchNorm

/-!
# Replacing parameters (C83)

`setWeights` and `setBiases` of fully connected and convolution layers, and copying the parameters of one model into another with them.
-/

set_option linter.unusedSectionVars false

namespace SmartDNN
open Net Spec

section
variable {ρ T : Type} [Zero T] [One T] [Add T] [Sub T] [Mul T] [Div T] [Neg T] [NatCast T] [IntCast T]
  [LT T] [DecidableLT T] [LE T] [DecidableLE T] [DecidableEq T] [MathFn T]

/-! ### Specification -/

/-- The two layers were constructed with the same arguments.  Batch normalisation layers are left out: their
parameters cannot be read. -/
def Spec.SameBuild (a b : Layer T) : Prop :=
  match a.kind, b.kind with
  | .fc _, .fc _ => True
  | .conv a, .conv b => a.inputChannels = b.inputChannels ∧ a.outputChannels = b.outputChannels ∧ a.kernelHeight = b.kernelHeight ∧
      a.kernelWidth = b.kernelWidth ∧ a.stride = b.stride ∧ a.padding = b.padding ∧ a.dilation = b.dilation
  | .flatten _, .flatten _ => True
  | .maxPool a, .maxPool b => a.poolSize = b.poolSize ∧ a.stride = b.stride ∧ a.padding = b.padding ∧ a.negInf = b.negInf
  | .dropout a, .dropout b => a.dropoutRate = b.dropoutRate
  | .activation a, .activation b => a.activation = b.activation
  | _, _ => False

/-- `to.setWeights(from.getWeights()); to.setBiases(from.getBiases());` where the layers have these members, nothing otherwise. -/
def Spec.load (src dst : Layer T) : Res Unit × Layer T :=
  match src.kind, dst.kind with
  | .fc a, .fc b =>
    let r := (FC.setWeights a.weights >>= fun _ => FC.setBiases a.biases) b
    (r.1, { dst with kind := .fc r.2 })
  | .conv a, .conv b =>
    let r := (Conv.setWeights a.weights >>= fun _ => Conv.setBiases a.biases) b
    (r.1, { dst with kind := .conv r.2 })
  | _, _ => (.ok (), dst)

/-- The biases of a fully connected layer have dimensions `(1, m)`, as after construction. -/
def Spec.RowBiases (l : Layer T) : Prop := ∀ k, l.kind = .fc k → ∃ m b, k.biases = ofFn [1, m] b

/-! ### Fully connected layers -/

theorem setBiases_row (l : FC T) (m : Nat) (b : List Nat → T) : FC.setBiases (ofFn [1, m] b) l = (.ok (), { l with biases := ofFn [1, m] b }) := by
  unfold FC.setBiases
  rw [if_neg (by simp)]
  rw [show (ofFn [1, m] b).shape.get 0 = .ok (1 : Int) from rfl, Mut.lift_ok_bind, if_neg (by simp)]
  rfl

/-- Whatever a fully connected layer was used for before: after `setWeights` and `setBiases` it computes with the new parameters. -/
theorem C83_dense {r n m : Nat} (hr : Dims [r, m]) (w b x : List Nat → T) (l : FC T) :
    ∃ l1 l2, FC.setWeights (ofFn [n, m] w) l = (.ok (), l1) ∧ FC.setBiases (ofFn [1, m] b) l1 = (.ok (), l2) ∧
      l2.weights = ofFn [n, m] w ∧ l2.biases = ofFn [1, m] b ∧ l2.input = l.input ∧ l2.getGradients = l.getGradients ∧
      (FC.forward (ofFn [r, n] x) l2).1 =
        .ok (ofFn [r, m] fun i => dot n (fun k => x [i.getD 0 0, k]) (fun k => w [k, i.getD 1 0]) + b [0, i.getD 1 0]) := by
  refine ⟨_, _, rfl, setBiases_row _ m b, rfl, rfl, rfl, rfl, ?_⟩
  unfold FC.forward
  rw [Mut.modify_bind, Mut.get_bind, Mut.lift_apply, fc_affine_batch hr]
  rfl

/-- Biases are accepted exactly if they have two dimensions, the first of which is 1; otherwise `std::invalid_argument` is thrown and the layer is
unchanged. -/
theorem C83_biases_accepted (l : FC T) (ds : List Nat) (b : List Nat → T) :
    ((∃ m, ds = [1, m]) → FC.setBiases (ofFn ds b) l = (.ok (), { l with biases := ofFn ds b })) ∧
    ((¬ ∃ m, ds = [1, m]) → FC.setBiases (ofFn ds b) l = (.error .invalidArgument, l)) := by
  constructor
  · rintro ⟨m, rfl⟩
    exact setBiases_row l m b
  · intro h
    unfold FC.setBiases
    by_cases hr : (ofFn ds b).shape.rank ≠ 2
    · rw [if_pos hr]
      rfl
    · rw [if_neg hr]
      have hl : ds.length = 2 := by simpa using hr
      match ds, hl with
      | [d, m], _ =>
        rw [show (ofFn [d, m] b).shape.get 0 = .ok (d : Int) from rfl, Mut.lift_ok_bind, if_pos]
        · rfl
        · intro hd
          apply h
          exact ⟨m, by norm_cast at hd; rw [hd]⟩

/-- **C83 is false for biases of the wrong width**: a single bias is accepted by a layer with any number of outputs and silently added to all of
them. -/
theorem C83_single_bias_refuted {r n m : Nat} (hr : Dims [r, m]) (hm : 2 ≤ m) (b x : List Nat → T) (w : List Nat → T) (l : FC T)
    (hw : l.weights = ofFn [n, m] w) :
    ∃ l', FC.setBiases (ofFn [1, 1] b) l = (.ok (), l') ∧
      (FC.forward (ofFn [r, n] x) l').1 =
        .ok (ofFn [r, m] fun i => dot n (fun k => x [i.getD 0 0, k]) (fun k => w [k, i.getD 1 0]) + b [0, 0]) := by
  refine ⟨_, setBiases_row l 1 b, ?_⟩
  unfold FC.forward
  rw [Mut.modify_bind, Mut.get_bind, Mut.lift_apply, hw]
  unfold FC.affine
  rw [ensure2D_mat]
  simp only [Except.bind_ok']
  rw [C15_product r n m hr]
  simp only [Except.bind_ok']
  have h1 : Dims [1, 1] := ⟨by simp, by simp, by decide⟩
  have hrp : 0 < r := hr.pos r (by simp)
  have hb' : bdims [r, m] [1, 1] = [r, m] := by
    simp [bdims, dimR, List.range_succ]; omega
  unfold Tensor.add
  rw [binop_ofFn _ hr h1 ?_, hb']
  · simp only [Except.bind_ok']
    rw [if_neg (by simp)]
    refine congrArg Except.ok (ofFn_congr fun i hi => ?_)
    obtain ⟨p, q, rfl, hp, hq⟩ := valid2_iff.1 hi
    have e1 : proj [r, m] [p, q] = [p, q] := by simp [proj]; omega
    have e2 : proj [1, 1] [p, q] = [0, 0] := by simp [proj]
    simp only [e1, e2]
  · intro i
    rcases i with _ | _ | i
    · right; right; rfl
    · right; right; rfl
    · left; simp [dimR]

/-- **C83 is false for weights of the wrong shape**: they are always accepted.  (A later `forward` throws if the number of rows is not the number of
inputs.) -/
theorem C83_weights_refuted {r n n' m' : Nat} (hx : Dims [r, n]) (hd : Dims [n', m']) (hn : n ≠ n') (w x : List Nat → T) (l : FC T) :
    ∃ l', FC.setWeights (ofFn [n', m'] w) l = (.ok (), l') ∧ (FC.forward (ofFn [r, n] x) l').1 = .error .invalidArgument := by
  refine ⟨_, rfl, ?_⟩
  unfold FC.forward
  rw [Mut.modify_bind, Mut.get_bind, Mut.lift_apply]
  unfold FC.affine
  rw [ensure2D_mat]
  simp only [Except.bind_ok']
  rw [C16_rejects_inner [r, n] [n', m'] hx hd (by simpa [innerL, innerR] using hn)]
  rfl

/-- Two samples, four inputs, three outputs; new weights for five inputs. -/
example : Dims [2, 3] ∧ 2 ≤ 3 ∧ Dims [2, 4] ∧ Dims [5, 3] ∧ (4 : Nat) ≠ 5 :=
  ⟨⟨by simp, by simp, by decide⟩, by omega, ⟨by simp, by simp, by decide⟩, ⟨by simp, by simp, by decide⟩, by omega⟩

/-! ### Updates after replacing parameters or gradients -/

/-- The only failure of `r` is undefined behaviour. -/
def Spec.OnlyUb {α : Type} (r : Res α) : Prop := ∀ e, r = .error e → e = .ub

theorem onlyUb_bind {α β : Type} {r : Res α} {f : α → Res β} (h : OnlyUb r) (hf : ∀ a, OnlyUb (f a)) : OnlyUb (r >>= f) := by
  cases r with
  | error e => intro e' he; cases he; exact h _ rfl
  | ok a => exact hf a

theorem onlyUb_pure {α : Type} (a : α) : OnlyUb (pure a : Res α) := fun _ h => by cases h

theorem onlyUb_ite {α : Type} {c : Prop} [Decidable c] {a b : Res α} (ha : OnlyUb a) (hb : OnlyUb b) : OnlyUb (if c then a else b) := by
  split
  · exact ha
  · exact hb

theorem onlyUb_rd {α : Type} (l : List α) (i : Int) : OnlyUb (rd l i) := by
  intro e h
  unfold rd at h
  split at h
  · split at h
    · cases h
    · cases h; rfl
  · cases h; rfl

theorem onlyUb_set (t : Tensor T) (i : Int) (v : T) : OnlyUb (t.set i v) := by
  unfold Tensor.set
  refine onlyUb_bind ?_ fun _ => onlyUb_pure _
  intro e h
  unfold wr at h
  split at h
  · cases h
  · cases h; rfl

theorem onlyUb_forN {σ : Type} (n : Nat) (s : σ) (f : Nat → σ → Res σ) (h : ∀ i s, OnlyUb (f i s)) : OnlyUb (forN n s f) := by
  unfold forN
  generalize List.range n = L
  induction L generalizing s with
  | nil => exact onlyUb_pure s
  | cons j L ih =>
    rw [List.foldlM_cons]
    exact onlyUb_bind (h j s) fun s => ih s

/-- Every iteration of a loop that completes has succeeded. -/
theorem forN_each {σ : Type} {n : Nat} {s s' : σ} {f : Nat → σ → Res σ} (h : forN n s f = .ok s') (j : Nat) (hj : j < n) :
    ∃ a b, f j a = .ok b := by
  unfold forN at h
  have hm : j ∈ List.range n := List.mem_range.2 hj
  generalize List.range n = L at h hm
  induction L generalizing s with
  | nil => simp at hm
  | cons i L ih =>
    rw [List.foldlM_cons] at h
    obtain ⟨s1, h1, h2⟩ := bind_ok h
    rcases List.mem_cons.1 hm with rfl | hm
    · exact ⟨s, s1, h1⟩
    · exact ih h2 hm

theorem rd_ge {α : Type} {l : List α} {i : Nat} (h : l.length ≤ i) : rd l (i : Int) = .error .ub := by
  unfold rd
  simp [List.getElem?_eq_none h]

theorem rd_ok_lt {α : Type} {l : List α} {j : Nat} {a : α} (h : rd l (j : Int) = .ok a) : j < l.length := by
  by_contra hc
  rw [rd_ge (by omega)] at h
  cases h

theorem sgd_loop_short (o : SGDOptions T) (w b g : Tensor T) (lr : T) (h : g.data.length < w.shape.size) :
    SGD.loop o w b g lr = .error .ub := by
  have hu : OnlyUb (SGD.loop o w b g lr) := by
    refine onlyUb_forN _ _ _ fun j st => onlyUb_bind (onlyUb_rd _ _) fun _ => onlyUb_bind (onlyUb_rd _ _) fun _ => onlyUb_ite ?_ ?_
    · exact onlyUb_bind (onlyUb_rd _ _) fun _ => onlyUb_bind (onlyUb_set _ _ _) fun _ => onlyUb_bind (onlyUb_set _ _ _) fun _ => onlyUb_pure _
    · exact onlyUb_bind (onlyUb_set _ _ _) fun _ => onlyUb_pure _
  rcases hr : SGD.loop o w b g lr with e | r
  · rw [hu e hr]
  · obtain ⟨a, c, hj⟩ := forN_each hr g.data.length h
    obtain ⟨x, hx, -⟩ := bind_ok hj
    exact absurd (rd_ok_lt hx) (lt_irrefl _)

theorem rms_loop_short (o : RMSPropOptions T) (s : RMSState T) (g : Tensor T) (lr : T) (h : g.data.length < s.weight.shape.size) :
    RMSProp.loop o s g lr = .error .ub := by
  have hu : OnlyUb (RMSProp.loop o s g lr) := by
    refine onlyUb_forN _ _ _ fun j st => onlyUb_bind (onlyUb_rd _ _) fun _ => onlyUb_bind (onlyUb_rd _ _) fun _ =>
      onlyUb_bind (onlyUb_rd _ _) fun _ => onlyUb_bind (onlyUb_set _ _ _) fun _ => onlyUb_bind (onlyUb_ite ?_ ?_) fun _ => onlyUb_ite ?_ ?_
    · exact onlyUb_bind (onlyUb_rd _ _) fun _ => onlyUb_bind (onlyUb_set _ _ _) fun _ => onlyUb_pure _
    · exact onlyUb_pure _
    · exact onlyUb_bind (onlyUb_rd _ _) fun _ => onlyUb_bind (onlyUb_set _ _ _) fun _ => onlyUb_bind (onlyUb_set _ _ _) fun _ => onlyUb_pure _
    · exact onlyUb_bind (onlyUb_set _ _ _) fun _ => onlyUb_pure _
  rcases hr : RMSProp.loop o s g lr with e | r
  · rw [hu e hr]
  · obtain ⟨a, c, hj⟩ := forN_each hr g.data.length h
    obtain ⟨x, hx, -⟩ := bind_ok hj
    exact absurd (rd_ok_lt hx) (lt_irrefl _)

theorem adam_loop_short (o : AdamOptions T) (lr : T) (it : Nat) (s : Tensor T × Tensor T × Tensor T) (g : Tensor T)
    (h : g.data.length < s.1.shape.size) : Adam.loop o lr it s g = .error .ub := by
  have hu : OnlyUb (Adam.loop o lr it s g) :=
    onlyUb_forN _ _ _ fun j st => onlyUb_bind (onlyUb_rd _ _) fun _ => onlyUb_bind (onlyUb_rd _ _) fun _ =>
      onlyUb_bind (onlyUb_rd _ _) fun _ => onlyUb_bind (onlyUb_rd _ _) fun _ => onlyUb_bind (onlyUb_set _ _ _) fun _ =>
      onlyUb_bind (onlyUb_set _ _ _) fun _ => onlyUb_bind (onlyUb_set _ _ _) fun _ => onlyUb_pure _
  rcases hr : Adam.loop o lr it s g with e | r
  · rw [hu e hr]
  · obtain ⟨a, c, hj⟩ := forN_each hr g.data.length h
    obtain ⟨y, -, hj⟩ := bind_ok hj
    obtain ⟨x, hx, -⟩ := bind_ok hj
    exact absurd (rd_ok_lt hx) (lt_irrefl _)

theorem stepPair_short {K : Type} [DecidableEq K] (r : T) (w : World K T) (p : K × Tensor T)
    (h : p.2.data.length < (w.mem p.1).shape.size) : stepPair r w p = .error .ub := by
  obtain ⟨mem, o⟩ := w
  cases o with
  | sgd o =>
    unfold stepPair SGD.updateTensor
    dsimp only
    rw [sgd_loop_short _ _ _ _ _ h]
    rfl
  | rmsprop o =>
    unfold stepPair RMSProp.updateTensor
    dsimp only
    rw [rms_loop_short _ _ _ _ h]
    rfl
  | adam o =>
    unfold stepPair Adam.updateTensor
    dsimp only
    rw [adam_loop_short _ _ _ _ _ h]
    rfl

/-- **C83 is false for a gradient with fewer elements than the weights**, which is what a stored gradient becomes when the weights are replaced by
more, or when `setWeightGradient` is given fewer: nothing checks it, and `updateWeights` of every optimizer reads outside of the gradient. -/
theorem C83_short_gradient_refuted {K : Type} [DecidableEq K] {k0 k1 : K} (l : FC T) (mode : Bool) (opt : Optimizer K T) {n m n' m' : Nat}
    (w g bg : List Nat → T) (hd : Dims [n, m]) (hlt : n' * m' < n * m) (db : List Nat) (hb : l.biasGradients = some (ofFn db bg)) :
    -- the weights are replaced after a backward pass
    (l.weightGradients = some (ofFn [n', m'] g) → ∃ l', FC.setWeights (ofFn [n, m] w) l = (.ok (), l') ∧
      (Layer.updateWeights k0 k1 (⟨.fc l', mode⟩, opt)).1 = .error .ub) ∧
    -- the gradient is replaced
    (l.weights = ofFn [n, m] w → ∃ l', FC.setWeightGradient (ofFn [n', m'] g) l = (.ok (), l') ∧
      (Layer.updateWeights k0 k1 (⟨.fc l', mode⟩, opt)).1 = .error .ub) := by
  have key : ∀ p1 : Tensor T, (Layer.optimizePair k0 k1 opt (ofFn [n, m] w) p1 (ofFn [n', m'] g) (ofFn db bg)).1 = .error .ub := by
    intro p1
    have hs : stepPair (-1) (World.begin ⟨fun k => if k = k0 then ofFn [n, m] w else p1, opt⟩ (-1)) (k0, ofFn [n', m'] g) = .error .ub := by
      apply stepPair_short
      rw [begin_mem]
      dsimp only
      rw [if_pos rfl, ofFn_shape, shapeOf_size]
      simpa using hlt
    unfold Layer.optimizePair World.optimizeM
    dsimp only
    rw [if_neg (by simp), updateTensors_eq]
    simp only [List.zip_cons_cons, List.zip_nil_left, List.foldlM_cons]
    rw [hs]
    rfl
  constructor
  · intro hg
    refine ⟨{ l with weights := ofFn [n, m] w }, rfl, ?_⟩
    unfold Layer.updateWeights
    dsimp only
    rw [hg, hb]
    exact key _
  · intro hw
    refine ⟨{ l with weightGradients := some (ofFn [n', m'] g) }, rfl, ?_⟩
    unfold Layer.updateWeights
    dsimp only
    rw [hb, hw]
    exact key _

/-- Weights (4, 3) with a gradient for (2, 3). -/
example (w b g : Tensor T) (f : List Nat → T) : Dims [4, 3] ∧ 2 * 3 < 4 * 3 ∧
    (⟨w, b, none, some (ofFn [2, 3] f), some (ofFn [1, 3] f)⟩ : FC T).weightGradients = some (ofFn [2, 3] f) :=
  ⟨⟨by simp, by simp, by decide⟩, by norm_num, rfl⟩

/-- The gradients are what was set. -/
theorem C83_gradients (l : FC T) (wg bg : Tensor T) :
    ∃ l1 l2, FC.setWeightGradient wg l = (.ok (), l1) ∧ FC.setBiasGradient bg l1 = (.ok (), l2) ∧ l2.getGradients = (.ok wg, .ok bg) ∧
      l2.weights = l.weights ∧ l2.biases = l.biases ∧ l2.input = l.input :=
  ⟨_, _, rfl, rfl, rfl, rfl, rfl, rfl⟩

/-- Reading a gradient before any `backward` (and any setter) is undefined behaviour. -/
theorem C83_gradients_refuted (E : Engine ρ T) {n m : Nat} (r r' : ρ) (l : FC T) (h : FC.new E n m r = .ok (l, r')) :
    l.getGradients = (.error .ub, .error .ub) := by
  unfold FC.new at h
  obtain ⟨s, -, h⟩ := bind_ok h
  obtain ⟨w, -, h⟩ := bind_ok h
  obtain ⟨sb, -, h⟩ := bind_ok h
  cases h
  rfl

/-! ### Copying a model -/

/-- Layers with equal parameters and settings: what `forward` in evaluation mode reads. -/
def Spec.Alike (a b : Layer T) : Prop :=
  match a.kind, b.kind with
  | .fc a, .fc b => a.weights = b.weights ∧ a.biases = b.biases
  | .conv a, .conv b => { a with input := none, weightGradients := none, biasGradients := none } =
      ({ b with input := none, weightGradients := none, biasGradients := none } : Conv T)
  | .flatten _, .flatten _ => True
  | .maxPool a, .maxPool b => { a with input := none } = { b with input := none }
  | .dropout _, .dropout _ => True
  | .activation a, .activation b => a.activation = b.activation
  | _, _ => False

theorem load_alike (a b : Layer T) (hs : SameBuild a b) (hb : RowBiases a) :
    (load a b).1 = .ok () ∧ Alike a (load a b).2 ∧ (load a b).2.trainingMode = b.trainingMode := by
  obtain ⟨ka, ma⟩ := a
  obtain ⟨kb, mb⟩ := b
  unfold SameBuild at hs
  cases ka <;> cases kb <;> try (exact absurd hs id)
  case fc a b =>
    obtain ⟨m, bb, hm⟩ := hb a rfl
    unfold load
    dsimp only
    rw [show FC.setWeights a.weights = Mut.modify (fun l => { l with weights := a.weights }) from rfl, Mut.modify_bind, hm, setBiases_row]
    exact ⟨rfl, ⟨rfl, hm⟩, rfl⟩
  case conv a b =>
    obtain ⟨h1, h2, h3, h4, h5, h6, h7⟩ := hs
    refine ⟨rfl, ?_, rfl⟩
    obtain ⟨⟩ := a
    obtain ⟨⟩ := b
    dsimp only at h1 h2 h3 h4 h5 h6 h7
    subst h1 h2 h3 h4 h5 h6 h7
    rfl
  case flatten a b => exact ⟨rfl, trivial, rfl⟩
  case maxPool a b =>
    obtain ⟨h1, h2, h3, h4⟩ := hs
    refine ⟨rfl, ?_, rfl⟩
    obtain ⟨⟩ := a
    obtain ⟨⟩ := b
    dsimp only at h1 h2 h3 h4
    subst h1 h2 h3 h4
    rfl
  case dropout a b => exact ⟨rfl, trivial, rfl⟩
  case activation a b => exact ⟨rfl, hs, rfl⟩

theorem correlate_congr (a b : Conv T) (x : Tensor T) (h : { a with input := none, weightGradients := none, biasGradients := none } =
      ({ b with input := none, weightGradients := none, biasGradients := none } : Conv T)) : a.correlate x = b.correlate x := by
  have e : ∀ l : Conv T, l.correlate x = Conv.correlate { l with input := none, weightGradients := none, biasGradients := none } x := fun _ => rfl
  rw [e a, e b, h]

theorem channels_congr (a b : Conv T) (h : { a with input := none, weightGradients := none, biasGradients := none } =
      ({ b with input := none, weightGradients := none, biasGradients := none } : Conv T)) : a.inputChannels = b.inputChannels := by
  have := congrArg Conv.inputChannels h
  exact this

theorem alike_forward (E : Engine ρ T) (x : Tensor T) (a b : Layer T) (r r' : ρ) (ha : a.trainingMode = false)
    (hb : b.trainingMode = false) (h : Alike a b) : (Layer.forward E x (a, r)).1 = (Layer.forward E x (b, r')).1 := by
  obtain ⟨ka, ma⟩ := a
  obtain ⟨kb, mb⟩ := b
  subst ha hb
  unfold Alike at h
  cases ka <;> cases kb <;> try (exact absurd h id)
  case fc a b =>
    show (FC.forward x a).1 = (FC.forward x b).1
    show FC.affine a.weights a.biases x = FC.affine b.weights b.biases x
    rw [h.1, h.2]
  case conv a b =>
    show (Conv.forward x a).1 = (Conv.forward x b).1
    rw [(conv_forward_res x a).1, (conv_forward_res x b).1, correlate_congr a b x h, channels_congr a b h]
  case flatten a b =>
    show (Flatten.forward x a).1 = (Flatten.forward x b).1
    rw [(flatten_forward_res x a).1, (flatten_forward_res x b).1]
  case maxPool a b =>
    show (MaxPool.forward x a).1 = (MaxPool.forward x b).1
    rw [(maxPool_forward_res x a).1, (maxPool_forward_res x b).1, h]
  case dropout a b => rfl
  case activation a b =>
    show (ActLayer.forward x a).1 = (ActLayer.forward x b).1
    show a.activation.forward x = b.activation.forward x
    rw [h]

theorem alike_stack (E : Engine ρ T) (as bs : List (Layer T)) (h : List.Forall₂ Alike as bs) (ha : ∀ l ∈ as, l.trainingMode = false)
    (hb : ∀ l ∈ bs, l.trainingMode = false) (x : Tensor T) (r r' : ρ) : (forwardLayers E as x r).1 = (forwardLayers E bs x r').1 := by
  induction h generalizing x r r' with
  | nil => rfl
  | @cons a b as bs hab hrest ih =>
    have h1 := alike_forward E x a b r r' (ha a (by simp)) (hb b (by simp)) hab
    unfold forwardLayers
    rcases hf : Layer.forward E x (a, r) with ⟨res, m, s⟩
    rcases hf' : Layer.forward E x (b, r') with ⟨res', m', s'⟩
    rw [hf, hf'] at h1
    simp only at h1
    subst h1
    cases res with
    | error e => rfl
    | ok y => exact ih (fun l hl => ha l (by simp [hl])) (fun l hl => hb l (by simp [hl])) y s s'

/-- Copying the weights and biases of every layer of a model into a model of the same build (without batch normalisation) succeeds, and then both
predict the same in evaluation mode, for every input, whatever the two models were trained on or used for before. -/
theorem C83_copy_partial (E : Engine ρ T) (src dst : Net ρ T) (hs : List.Forall₂ SameBuild src.layers dst.layers)
    (hb : ∀ l ∈ src.layers, RowBiases l) (he : EvalMode src) (hd : EvalMode dst) :
    (∀ p ∈ src.layers.zip dst.layers, (load p.1 p.2).1 = .ok ()) ∧
    ∀ x, (predict E x { dst with layers := List.zipWith (fun a b => (load a b).2) src.layers dst.layers }).1 = (predict E x src).1 := by
  have key : ∀ as bs : List (Layer T), List.Forall₂ SameBuild as bs → (∀ l ∈ as, RowBiases l) → (∀ l ∈ bs, l.trainingMode = false) →
      (∀ p ∈ as.zip bs, (load p.1 p.2).1 = .ok ()) ∧ List.Forall₂ Alike as (List.zipWith (fun a b => (load a b).2) as bs) ∧
      (∀ l ∈ List.zipWith (fun a b => (load a b).2) as bs, l.trainingMode = false) := by
    intro as bs h
    induction h with
    | nil => intro _ _; exact ⟨by simp, .nil, by simp⟩
    | @cons a b as bs hab hrest ih =>
      intro h1 h2
      obtain ⟨k1, k2, k3⟩ := ih (fun l hl => h1 l (by simp [hl])) (fun l hl => h2 l (by simp [hl]))
      obtain ⟨l1, l2, l3⟩ := load_alike a b hab (h1 a (by simp))
      refine ⟨?_, .cons l2 k2, ?_⟩
      · intro p hp
        rcases List.mem_cons.1 hp with rfl | hp
        · exact l1
        · exact k1 p hp
      · intro l hl
        rcases List.mem_cons.1 hl with rfl | hl
        · rw [l3]; exact h2 b (by simp)
        · exact k3 l hl
  obtain ⟨k1, k2, k3⟩ := key src.layers dst.layers hs hb hd
  exact ⟨k1, fun x => (alike_stack E src.layers _ k2 he k3 x src.rng dst.rng).symm⟩

/-- Two models with a convolution, an activation, a pooling, a flatten, a dense and a dropout layer, one of them used and trained. -/
example (w1 w2 b1 k1 k2 c1 c2 g : Tensor T) (bb : List Nat → T) (neg : T) (r r' : ρ) :
    let src : Net ρ T := setTrainingMode false (addLayer ⟨.dropout ⟨0, some g⟩, true⟩ (addLayer ⟨.fc ⟨w1, ofFn [1, 2] bb, some g, some g, some g⟩, true⟩
      (addLayer ⟨.flatten ⟨some g.shape⟩, true⟩ (addLayer ⟨.maxPool ⟨2, 2, 0, neg, some g⟩, true⟩ (addLayer ⟨.activation ⟨.relu, some g⟩, true⟩
        (addLayer ⟨.conv ⟨1, 2, 3, 3, 1, 0, 1, k1, c1, some g, some g, some g⟩, true⟩ (Net.new r)))))))
    let dst : Net ρ T := setTrainingMode false (addLayer ⟨.dropout ⟨0, none⟩, true⟩ (addLayer ⟨.fc ⟨w2, b1, none, none, none⟩, true⟩
      (addLayer ⟨.flatten ⟨none⟩, true⟩ (addLayer ⟨.maxPool ⟨2, 2, 0, neg, none⟩, true⟩ (addLayer ⟨.activation ⟨.relu, none⟩, true⟩
        (addLayer ⟨.conv ⟨1, 2, 3, 3, 1, 0, 1, k2, c2, none, none, none⟩, true⟩ (Net.new r')))))))
    List.Forall₂ SameBuild src.layers dst.layers ∧ (∀ l ∈ src.layers, RowBiases l) ∧ EvalMode src ∧ EvalMode dst := by
  intro src dst
  refine ⟨?_, ?_, (C53_modes false _).1, (C53_modes false _).1⟩
  · simp [src, dst, setTrainingMode, addLayer, Net.new, SameBuild, Layer.setTrainingMode]
  · intro l hl k hk
    simp only [src, setTrainingMode, addLayer, Net.new, List.nil_append, List.cons_append, List.map_cons, List.map_nil, List.mem_cons,
      List.not_mem_nil, or_false] at hl
    rcases hl with rfl | rfl | rfl | rfl | rfl | rfl <;> cases hk
    exact ⟨2, bb, rfl⟩

/-- A freshly constructed fully connected layer has biases in one row. -/
theorem C83_fresh_biases (E : Engine ρ T) {n m : Nat} (hd : Dims [1, m]) (r r' : ρ) (l : FC T) (h : FC.new E n m r = .ok (l, r')) (mode : Bool) :
    RowBiases (⟨.fc l, mode⟩ : Layer T) := by
  intro k hk
  cases hk
  unfold FC.new at h
  obtain ⟨s, -, h⟩ := bind_ok h
  obtain ⟨w, -, h⟩ := bind_ok h
  obtain ⟨sb, hsb, h⟩ := bind_ok h
  have : sb = shapeOf [1, m] := by
    have := make_dims hd
    rw [show ([1, (m : Int)] : List Int) = ints [1, m] from rfl, this] at hsb
    cases hsb
    rfl
  subst this
  cases h
  exact ⟨m, _, zeros_shapeOf _⟩

/-- `getLayer(i)` is the `i`-th layer that was added; an index that is too large is undefined behaviour. -/
theorem C83_getLayer (ls : List (Layer T)) (r : ρ) (i : Nat) :
    (∀ h : i < ls.length, getLayer (ls.foldl (fun net l => addLayer l net) (Net.new r)) i = .ok ls[i]) ∧
    (ls.length ≤ i → getLayer (ls.foldl (fun net l => addLayer l net) (Net.new r)) i = .error .ub) := by
  have key : ∀ (ls : List (Layer T)) (net : Net ρ T), (ls.foldl (fun net l => addLayer l net) net).layers = net.layers ++ ls := by
    intro ls
    induction ls with
    | nil => intro net; simp
    | cons l ls ih => intro net; rw [List.foldl_cons, ih]; simp [addLayer]
  unfold getLayer
  rw [key, show (Net.new r : Net ρ T).layers = [] from rfl, List.nil_append]
  exact ⟨fun h => rd_lt h, fun h => rd_ge h⟩

end

/-! ### Convolution -/

/-- Whatever a convolution layer was used for before: after `setWeights` and `setBiases` it computes with the new parameters. -/
theorem C83_conv {T : Type} [CommSemiring T] [MathFn T] {n oc ic h w kh kw : Nat} (ht : ∀ x : T, MathFn.toFloat x = x)
    (hd : Dims [n, ic, h, w]) (hdk : Dims [oc, ic, kh, kw]) (hdb : Dims [oc, 1])
    (hk : kh ≤ h) (hkw : kw ≤ w) (ho : n * oc * h * w < 2 ^ 31) (k b x : List Nat → T) (l : Conv T)
    (h0 : l.inputChannels = ic) (h1 : l.outputChannels = oc) (h2 : l.kernelHeight = kh) (h3 : l.kernelWidth = kw) :
    ∃ l1 l2, Conv.setWeights (ofFn [oc, ic, kh, kw] k) l = (.ok (), l1) ∧ Conv.setBiases (ofFn [oc, 1] b) l1 = (.ok (), l2) ∧
      l2.weights = ofFn [oc, ic, kh, kw] k ∧ l2.biases = ofFn [oc, 1] b ∧ l2.weightGradients = l.weightGradients ∧
      l2.biasGradients = l.biasGradients ∧
      (Conv.forward (ofFn [n, ic, h, w] x) l2).1 = .ok (ofFn [n, oc, h - kh + 1, w - kw + 1] (conv 1 kh kw 1 0 1 h w k b x)) := by
  refine ⟨_, _, rfl, rfl, rfl, rfl, rfl, rfl, ?_⟩
  rw [conv_forward ht hd hdk hdb hk hkw ho k b x _ (by exact h0) (by exact h1) (by exact h2) (by exact h3) rfl rfl]

example : Dims [1, 1, 4, 4] ∧ Dims [2, 1, 3, 3] ∧ Dims [2, 1] ∧ 1 * 2 * 4 * 4 < 2 ^ 31 := by
  refine ⟨⟨by simp, by simp, by decide⟩, ⟨by simp, by simp, by decide⟩, ⟨by simp, by simp, by decide⟩, by norm_num⟩

/-! ### Batch normalisation -/

/-- **C83 is false for batch normalisation**: its scale, shift and running statistics can be neither read nor set, so that a model of the same build
keeps predicting something else after everything that can be copied has been copied. -/
theorem C83_batchNorm_refuted :
    ∃ src dst : BatchNorm ℝ, BatchNorm.new 1 1 (1 / 2) 1 = .ok dst ∧
      (BatchNorm.forward true (ofFn [1, 1] fun _ => 1) dst).2 = src ∧
      (load ⟨.batchNorm src, false⟩ ⟨.batchNorm dst, false⟩ : Res Unit × Layer ℝ) = (.ok (), ⟨.batchNorm dst, false⟩) ∧
      (BatchNorm.forward false (ofFn [1, 1] fun _ => 0) src).1 ≠ (BatchNorm.forward false (ofFn [1, 1] fun _ => 0) dst).1 := by
  have h1 : Dims [1, 1] := ⟨by simp, by simp, by decide⟩
  let c : BNCall := ⟨true, [1, 1], fun _ => 1⟩
  obtain ⟨l0, l0', e0, e0', f0⟩ := C46_rank2_partial (F := 1) h1 1 (1 / 2) 1 [] (by simp) (.inl rfl) (.two 1) h1 (fun _ => 0)
  obtain ⟨l1, l1', e1, e1', f1⟩ := C46_rank2_partial (F := 1) h1 1 (1 / 2) 1 [c]
    (by intro d hd; cases List.mem_singleton.1 hd; exact ⟨h1, _, .two 1⟩) (.inl rfl) (.two 1) h1 (fun _ => 0)
  have hl : l1 = l0 := by rw [e0] at e1; cases e1; rfl
  subst hl
  have hl0 : l0' = l1 := by
    have : BNCall.runAll [] l1 = (.ok (), l1) := rfl
    rw [this] at e0'
    cases e0'
    rfl
  subst hl0
  refine ⟨l1', l0', e0, ?_, rfl, ?_⟩
  · have h2 : BNCall.runAll [c] l0' = ((do let _ ← BatchNorm.forward true (ofFn [1, 1] fun _ => 1); pure ()) : Mut (BatchNorm ℝ) Unit) l0' := rfl
    rw [h2] at e1'
    rcases hf : BatchNorm.forward true (ofFn [1, 1] fun _ => (1 : ℝ)) l0' with ⟨r, s⟩
    cases r with
    | error e =>
      have : ((do let _ ← BatchNorm.forward true (ofFn [1, 1] fun _ => 1); pure ()) : Mut (BatchNorm ℝ) Unit) l0' = (.error e, s) := by
        show Mut.bind _ _ _ = _
        unfold Mut.bind
        rw [hf]
      rw [this] at e1'
      cases e1'
    | ok y =>
      have : ((do let _ ← BatchNorm.forward true (ofFn [1, 1] fun _ => 1); pure ()) : Mut (BatchNorm ℝ) Unit) l0' = (.ok (), s) := by
        show Mut.bind _ _ _ = _
        unfold Mut.bind
        rw [hf]
        rfl
      rw [this] at e1'
      cases e1'
      rfl
  · rw [f0, f1]
    intro h
    simp only [Except.ok.injEq] at h
    have hm : featMean [1, 1] (fun _ => 1) 0 = 1 := by
      rw [featMean, show featureIdx [1, 1] 0 = [[0, 0]] by decide]
      norm_num
    have hv : featVar [1, 1] (fun _ => 1) 0 = 0 := by
      rw [featVar, hm, show featureIdx [1, 1] 0 = [[0, 0]] by decide]
      norm_num
    have h2 := ofFn_inj h (idx := [0, 0]) (valid2_iff.2 ⟨0, 0, rfl, by omega, by omega⟩)
    simp only [List.getD_cons_succ, List.getD_cons_zero, BNCall.average, runningAvg, c, List.filter_nil, List.map_nil, List.foldl_nil,
      List.filter_cons_of_pos, List.map_cons, List.foldl_cons, hm, hv] at h2
    norm_num at h2

end SmartDNN
