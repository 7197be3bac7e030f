import Verif.Model.Examples
import Verif.Props.RowSamples
import Verif.Props.Samples
import Verif.Props.Datasets
import Verif.Props.BatchNorm

/-!
# The example programs (C73) and training with batch normalisation (C74)
-/

namespace SmartDNN
open Net Spec

/-! ### C73: the linear regression program -/

theorem Mut.forN_head {σ : Type} (n : Nat) (body : Mut σ Unit) :
    Mut.forN (n + 1) (fun _ => body) = Mut.bind body (fun _ => Mut.forN n fun _ => body) := by
  induction n with
  | zero => rfl
  | succ n ih =>
    conv_lhs => rw [Mut.forN_succ (n + 1), ih]
    conv_rhs => ext s; rw [Mut.forN_succ n]
    funext s
    simp only [Mut.bind]
    rcases body s with ⟨_ | _, s'⟩ <;> rfl

/-- The initial value of `totalLoss` does not matter if there is an epoch. -/
theorem train_total {ρ : Type} (E : Engine ρ ℝ) (inputs targets : List (Tensor ℝ)) {epochs : Int} (he : 0 < epochs)
    (net : Net ρ ℝ) (a b : Tensor ℝ) (pr : List (Tensor ℝ)) :
    train E inputs targets epochs ⟨net, a, pr⟩ = train E inputs targets epochs ⟨net, b, pr⟩ := by
  unfold train
  obtain ⟨n, hn⟩ : ∃ n, epochs.toNat = n + 1 := ⟨epochs.toNat - 1, by omega⟩
  rw [hn, Mut.forN_head]
  have h : trainEpoch E inputs targets ⟨net, a, pr⟩ = trainEpoch E inputs targets ⟨net, b, pr⟩ := by
    unfold trainEpoch
    rw [make_one, Mut.lift_ok_bind, Mut.lift_ok_bind, Mut.modify_bind, Mut.modify_bind]
  simp only [Mut.bind]
  rw [h]

theorem runTrain_eq {ρ : Type} (E : Engine ρ ℝ) (inputs targets : List (Tensor ℝ)) {epochs : Int} (he : 0 < epochs)
    (total : Tensor ℝ) (net : Net ρ ℝ) :
    Net.runTrain E inputs targets epochs total net = trainCall E inputs targets epochs net := by
  unfold Net.runTrain trainCall
  rw [train_total E inputs targets he net total (ofFn [1] fun _ => 0)]

theorem params_setTrainingMode (mode : Bool) (ls : List (Layer ℝ)) :
    (ls.map (Layer.setTrainingMode mode)).map params = ls.map params := by
  rw [List.map_map]
  rfl

theorem rowChain_setTrainingMode (mode : Bool) {ls : List (Layer ℝ)} {n m : Nat} (h : RowChain ls n m) :
    RowChain (ls.map (Layer.setTrainingMode mode)) n m := by
  induction h with
  | nil h => exact .nil h
  | cons hl _ ih =>
    refine .cons ?_ ih
    cases hl with
    | dense hw h1 h2 => exact .dense hw h1 h2
    | act hn ha => exact .act hn ha

/-- Switching the mode keeps a model a row model. -/
theorem rowModel_setTrainingMode {ρ : Type} (mode : Bool) {net : Net ρ ℝ} {n m : Nat} (h : RowModel net n m) :
    RowModel (net.setTrainingMode mode) n m := by
  obtain ⟨hc, hl, opt, ho, hr⟩ := h
  exact ⟨rowChain_setTrainingMode mode hc, hl, opt, ho, remembersFrom_params (params_setTrainingMode mode _) hr⟩

theorem epochs_reports {ρ : Type} {E : Engine ρ ℝ} {ps : List (Tensor ℝ × Tensor ℝ)} {n : Nat} {net net' : Net ρ ℝ}
    {rs : List (Tensor ℝ)} (h : Epochs E ps n net net' rs) : ∀ p ∈ rs, ∃ v : ℝ, p = ofFn [1] fun _ => v := by
  induction h with
  | zero net => simp
  | succ _ _ ih =>
    intro p hp
    rcases List.mem_cons.1 hp with rfl | hp
    · exact ⟨_, rfl⟩
    · exact ih p hp

/-- The program's model, as built by the constructors, is a dense/ReLU/dense row model. -/
theorem linearRegressionModel_ok {ρ : Type} (E : Engine ρ ℝ) (o : AdamOptions ℝ) (r : ρ) :
    ∃ net, linearRegressionModel E o r = .ok net ∧ RowModel net 1 1 := by
  obtain ⟨w1, l1, r1, e1, a1, b1, -⟩ := C37_constructed E (n := 1) (m := 10) (by constructor <;> simp) r
  obtain ⟨w2, l2, r2, e2, a2, b2, -⟩ := C37_constructed E (n := 10) (m := 1) (by constructor <;> simp) r1
  unfold linearRegressionModel
  rw [show ((1 : Int)) = ((1 : Nat) : Int) from rfl, show ((10 : Int)) = ((10 : Nat) : Int) from rfl, e1]
  simp only [Except.bind_ok']
  rw [e2]
  refine ⟨_, rfl, ?_, rfl, _, rfl, ?_⟩
  · refine .cons (m := 10) (.dense (by constructor <;> simp) a1 b1) ?_
    refine .cons (m := 10) (.act (by constructor <;> simp) (Or.inl rfl)) ?_
    exact .cons (m := 1) (.dense (by constructor <;> simp) a2 b2) (.nil (by constructor <;> simp))
  · intro j l _ p _
    exact ⟨(remembers_new _ _ ⟨0, 0, 0, 0, false⟩ ⟨0, 0, 0, 0, false, 0⟩ o).2.2,
      (remembers_new _ _ ⟨0, 0, 0, 0, false⟩ ⟨0, 0, 0, 0, false, 0⟩ o).2.2⟩

/-- **C73.** The linear regression example runs to its end for every random engine, sample source, seed and Adam
options: 100 one-element losses are printed and the prediction has one element. -/
theorem C73_linear_regression {ρ γ : Type} (E : Engine ρ ℝ) (S : Source γ ℝ) (o : AdamOptions ℝ) (ten : ℝ)
    (total : Tensor ℝ) (g : γ) (r : ρ) :
    ∃ (v : ℝ) (losses : List ℝ), losses.length = 100 ∧
      linearRegressionMain E S o ten total g r = (.ok (ofFn [1] fun _ => v), losses.map fun a => ofFn [1] fun _ => a) := by
  obtain ⟨net, hn, hm⟩ := linearRegressionModel_ok E o r
  let data : List ((Nat → ℝ) × (Nat → ℝ)) := (List.range 100).map fun i =>
    (fun _ => inputDraw S g i, fun _ => 2 * inputDraw S g i + 3 + noiseDraw S g i)
  obtain ⟨rs, k, k', t1, -, t3, -, t5⟩ := C72_train_partial E net net hm ⟨rfl, rfl, rfl, rfl⟩ data (by simp [data]) 100
  obtain ⟨y, k2, -, p1, -⟩ := C72_predict E (k.setTrainingMode false) (k.setTrainingMode false)
    (rowModel_setTrainingMode false t5) ⟨rfl, rfl, rfl, rfl⟩ (fun _ => ten)
  have hrep := epochs_reports ((C55_train E _ _ 100 net k rs (by simp) (by simp [data])).1 t1)
  choose! val hval using hrep
  have hdata : generateLinearDataset S 100 g =
      .ok (data.map fun q => sample 1 q.1, data.map fun q => sample 1 q.2) := by
    rw [C60_samples]
    simp only [data, List.map_map]
    rfl
  refine ⟨y 0, rs.map val, by rw [List.length_map, t3]; rfl, ?_⟩
  unfold linearRegressionMain
  rw [hdata, hn, trainLoaded, runTrain_eq E _ _ (by norm_num), t1]
  simp only
  rw [make_one, Except.bind_ok', full_shapeOf, show (ofFn [1] fun _ => ten) = sample 1 fun _ => ten from rfl, p1]
  refine Prod.ext ?_ ?_
  · show (.ok (sample 1 y) : Res (Tensor ℝ)) = _
    congr 1
  · show rs = _
    rw [List.map_map]
    conv_lhs => rw [← List.map_id rs]
    exact List.map_congr_left fun p hp => hval p hp

/-! ### C74: batch normalisation layers -/

/-- Layers that fit together from `ds` to `es`, batch normalisation (in training mode, on `(n,F)` or `(n,F,h,w)`)
included. -/
inductive Spec.Runs : List (Layer ℝ) → List Nat → List Nat → Prop where
  | nil (ds : List Nat) : Runs [] ds ds
  | cons {l : Layer ℝ} {ls : List (Layer ℝ)} {ds es hs : List Nat} (hl : Typed l ds es) (hls : Runs ls es hs) :
      Runs (l :: ls) ds hs
  | norm {F : Nat} {l : BatchNorm ℝ} {ls : List (Layer ℝ)} {ds ch es : List Nat} (hS : BNShape F ds ch) (hd : Dims ds)
      (hl : l.Ready F) (hls : Runs ls ds es) : Runs (⟨.batchNorm l, true⟩ :: ls) ds es

theorem runs_append {pre post : List (Layer ℝ)} {ds ms es : List Nat} (h : Runs pre ds ms) (h2 : Runs post ms es) :
    Runs (pre ++ post) ds es := by
  induction h with
  | nil => exact h2
  | cons hl _ ih => exact .cons hl (ih h2)
  | norm hS hd hl _ ih => exact .norm hS hd hl (ih h2)

/-- Up to the last batch normalisation layer and from there on. -/
theorem runs_split {ls : List (Layer ℝ)} {ds es : List Nat} (h : Runs ls ds es) :
    (Chain ls ds es ∧ ∀ l mode, ⟨.batchNorm l, mode⟩ ∉ ls) ∨
    ∃ pre l post F ms ch, ls = pre ++ ⟨.batchNorm l, true⟩ :: post ∧ Runs pre ds ms ∧ BNShape F ms ch ∧ Dims ms ∧ l.Ready F ∧
      Chain post ms es := by
  induction h with
  | nil ds => exact Or.inl ⟨.nil ds, by simp⟩
  | @cons l ls ds es hs hl hls ih =>
    rcases ih with ⟨h1, h2⟩ | ⟨pre, b, post, F, ms, ch, rfl, h1, h2⟩
    · refine Or.inl ⟨.cons hl h1, fun b mode hb => ?_⟩
      rcases List.mem_cons.1 hb with rfl | hb
      · cases hl
      · exact h2 b mode hb
    · exact Or.inr ⟨l :: pre, b, post, F, ms, ch, rfl, .cons hl h1, h2⟩
  | @norm F l ls ds ch es hS hd hl hls ih =>
    rcases ih with ⟨h1, h2⟩ | ⟨pre, b, post, F', ms, ch', rfl, h1, h2⟩
    · exact Or.inr ⟨[], l, ls, F, ds, ch, rfl, .nil ds, hS, hd, hl, h1⟩
    · exact Or.inr ⟨_ :: pre, b, post, F', ms, ch', rfl, .norm hS hd hl h1, h2⟩

/-- A batch normalisation layer in training mode: forward succeeds, backward does not. -/
theorem bn_step {ρ : Type} {F : Nat} {ds ch : List Nat} (hS : BNShape F ds ch) (hd : Dims ds) {l : BatchNorm ℝ} (hl : l.Ready F)
    (E : Engine ρ ℝ) (r : ρ) (x : List Nat → ℝ) :
    ∃ y l', Layer.forward E (ofFn ds x) (⟨.batchNorm l, true⟩, r) = (.ok (ofFn ds y), (l', r)) ∧
      ∀ g, Layer.backward (ofFn ds g) l' = (.error .ub, l') := by
  obtain ⟨γ, hγ⟩ := hl.gamma
  obtain ⟨β, hβ⟩ := hl.beta
  obtain ⟨rs, m, v, hR, hr, hm, hv⟩ := hl.running
  obtain ⟨y, l', h1, h2⟩ : ∃ y l', BatchNorm.forward true (ofFn ds x) l = (.ok (ofFn ds y), l') ∧
      ∀ g, BatchNorm.backward (ofFn ds g) l' = (.error .ub, l') :=
    ⟨_, _, bn_forward_train hS hd hR hr l γ β m v x hγ hβ hm hv, fun g => bn_backward_ub hS hd _ γ _ _ _ g hγ rfl rfl rfl⟩
  exact ⟨y, ⟨.batchNorm l', true⟩, congrArg (fun p => (p.1, ((⟨.batchNorm p.2, true⟩ : Layer ℝ), r))) h1,
    fun g => congrArg (fun p => (p.1, (⟨.batchNorm p.2, true⟩ : Layer ℝ))) (h2 g)⟩

/-- A failing layer in the backward pass. -/
theorem backwardLayers_fails {post post' : List (Layer ℝ)} {l l' : Layer ℝ} {g h : Tensor ℝ} {e : Err}
    (hp : backwardLayers post g = (.ok h, post')) (hl : Layer.backward h l = (.error e, l')) :
    ∀ pre : List (Layer ℝ), backwardLayers (pre ++ l :: post) g = (.error e, pre ++ l' :: post') := by
  intro pre
  induction pre with
  | nil =>
    rw [List.nil_append]
    unfold backwardLayers
    rw [hp]
    simp only
    rw [hl]
    rfl
  | cons a ls ih =>
    rw [List.cons_append]
    unfold backwardLayers
    rw [ih]
    rfl

theorem runs_forward {ρ : Type} {ls : List (Layer ℝ)} {ds es : List Nat} (h : Runs ls ds es) (E : Engine ρ ℝ) :
    ∀ (r : ρ) (x : List Nat → ℝ), ∃ y ls' r', forwardLayers E ls (ofFn ds x) r = (.ok (ofFn es y), ls', r') := by
  induction h with
  | nil ds => exact fun r x => ⟨x, [], r, rfl⟩
  | @cons l ls ds es hs hl hls ih =>
    intro r x
    obtain ⟨y, l', r', f1, -⟩ := typed_step hl E r x
    obtain ⟨z, ls', r'', k1⟩ := ih r' y
    refine ⟨z, l' :: ls', r'', ?_⟩
    rw [forwardLayers_cons, f1]
    simp only
    rw [k1]
  | @norm F l ls ds ch es hS hd hl hls ih =>
    intro r x
    obtain ⟨y, l', f1, -⟩ := bn_step hS hd hl E r x
    obtain ⟨z, ls', r'', k1⟩ := ih r y
    refine ⟨z, l' :: ls', r'', ?_⟩
    rw [forwardLayers_cons, f1]
    simp only
    rw [k1]

/-- The part of **C74** that holds: a model with batch normalisation layers in training mode can be evaluated; `predict`
returns a tensor of the expected dimensions.  Missing for the full property: training, see `C74_refuted`. -/
theorem C74_predict_partial {ρ : Type} {ds es : List Nat} (E : Engine ρ ℝ) (net : Net ρ ℝ) (h : Runs net.layers ds es)
    (x : Tensor ℝ) (hx : HasDims ds x) : ∃ y net', predict E x net = (.ok y, net') ∧ HasDims es y := by
  obtain ⟨f, rfl⟩ := hx
  obtain ⟨y, ls', r', h1⟩ := runs_forward h E net.rng f
  refine ⟨ofFn es y, { net with layers := ls', rng := r' }, ?_, y, rfl⟩
  unfold predict
  rw [h1]

/-- **C74 refuted.** Training any model that contains a batch normalisation layer runs into undefined behaviour at the
first sample, before any loss is printed, although layers, loss and data fit together. -/
theorem C74_refuted {ρ : Type} {ds es : List Nat} (E : Engine ρ ℝ) (net : Net ρ ℝ) (h : Runs net.layers ds es)
    {b : BatchNorm ℝ} {mode : Bool} (hb : ⟨.batchNorm b, mode⟩ ∈ net.layers) {L : Loss ℝ} (hL : net.loss = some L)
    (hfit : LossFits L es) (x y : Tensor ℝ) (hx : HasDims ds x) (hy : HasDims es y) (xs ys : List (Tensor ℝ)) {epochs : Int}
    (he : 0 < epochs) :
    ∃ net', trainCall E (x :: xs) (y :: ys) epochs net = (.error .ub, net', []) := by
  obtain ⟨f, rfl⟩ := hx
  obtain ⟨t, rfl⟩ := hy
  rcases runs_split h with ⟨-, h2⟩ | ⟨pre, l, post, F, ms, ch, hls, hpre, hS, hd, hl, hpost⟩
  · exact absurd hb (h2 b mode)
  obtain ⟨u, kpre, r1, a1⟩ := runs_forward hpre E net.rng f
  obtain ⟨q, k, b1, b2⟩ := bn_step hS hd hl E r1 u
  obtain ⟨p, kpost, r2, c1, -, -, c2⟩ := chain_step hpost E r1 q
  obtain ⟨w, g, l1, l2⟩ := loss_ok hfit p t
  obtain ⟨z, jpost, d1, -⟩ := c2 g
  have hp : predict E (ofFn ds f) net = (.ok (ofFn es p), { net with layers := kpre ++ k :: kpost, rng := r2 }) := by
    unfold predict
    rw [hls, forwardLayers_append E a1, forwardLayers_cons, b1]
    simp only
    rw [c1]
  exact ⟨_, train_backward_fails E hp hL l1 l2
    (show backward (ofFn es g) _ = (.error .ub, { net with layers := kpre ++ k :: jpost, rng := r2 }) by
      unfold backward
      simp only
      rw [backwardLayers_fails d1 (b2 z)]) xs ys he⟩

/-! ### The MNIST program -/

theorem conv_new {ρ : Type} (E : Engine ρ ℝ) {ic oc kh kw : Nat} (h : Dims [oc, ic, kh, kw]) (hb : Dims [oc, 1])
    (stride padding dilation : Int) (r : ρ) :
    ∃ k l r', Conv.new E ic oc kh kw stride padding dilation r = .ok (l, r') ∧ l.inputChannels = ic ∧ l.outputChannels = oc ∧
      l.kernelHeight = kh ∧ l.kernelWidth = kw ∧ l.weights = ofFn [oc, ic, kh, kw] k ∧ l.biases = ofFn [oc, 1] fun _ => 0 := by
  unfold Conv.new
  rw [show [(oc : Int), (ic : Int), (kh : Int), (kw : Int)] = ints [oc, ic, kh, kw] from rfl, make_dims h,
    show [(oc : Int), (1 : Int)] = ints [oc, 1] from rfl, make_dims hb]
  simp only [Except.bind_ok', Tensor.rand, createRandom_ofFn]
  exact ⟨_, _, _, rfl, rfl, rfl, rfl, rfl, rfl, zeros_shapeOf _⟩

/-- The MNIST model as built by the constructors fits together on batches of eight 28x28 images. -/
theorem mnistModel_ok {ρ : Type} (E : Engine ρ ℝ) (c : MNistConstants ℝ) (r : ρ) :
    ∃ net b, mnistModel E c r = .ok net ∧ Runs net.layers [8, 1, 28, 28] [8, 10] ∧ ⟨.batchNorm b, true⟩ ∈ net.layers ∧
      net.loss = some (.crossEntropy c.lossEpsilon) := by
  have d : ∀ {ds : List Nat}, ds ≠ [] → (∀ a ∈ ds, 0 < a) → ds.prod < 2 ^ 31 → Dims ds := fun a b c => ⟨a, b, c⟩
  obtain ⟨k1, l1, r1, e1, a1, a2, a3, a4, a5, a6⟩ := conv_new E (ic := 1) (oc := 32) (kh := 3) (kw := 3) (by constructor <;> simp)
    (by constructor <;> simp) 1 0 1 r
  obtain ⟨l2, e2, b2, -⟩ := C45_constructed 32 (by constructor <;> simp) c.bnEpsilon c.bnMomentum c.bnRecipEps
  obtain ⟨w7, l7, r7, e7, a7, b7, -⟩ := C37_constructed E (n := 5408) (m := 128) (by constructor <;> simp) r1
  obtain ⟨l8, e8, b8, -⟩ := C45_constructed 128 (by constructor <;> simp) c.bnEpsilon c.bnMomentum c.bnRecipEps
  obtain ⟨w11, l11, r11, e11, a11, b11, -⟩ := C37_constructed E (n := 128) (m := 10) (by constructor <;> simp) r7
  unfold mnistModel
  simp only [Nat.cast_ofNat, Nat.cast_one] at e1 e2 e7 e8 e11
  rw [e1]
  simp only [Except.bind_ok']
  rw [e2]
  simp only [Except.bind_ok']
  rw [e7]
  simp only [Except.bind_ok']
  rw [e8]
  simp only [Except.bind_ok']
  rw [e11]
  refine ⟨_, l2, rfl, ?_, ?_, rfl⟩
  · refine .cons (es := [8, 32, 26, 26]) (.conv (n := 8) (ic := 1) (oc := 32) (h := 28) (w := 28) (kh := 3) (kw := 3)
      (d (by simp) (by simp) (by simp)) (d (by simp) (by simp) (by simp)) (d (by simp) (by simp) (by simp)) (by omega) (by omega)
      (by norm_num) a1 a2 a3 a4 a5 a6) ?_
    refine .norm (.four 8 26 26) (d (by simp) (by simp) (by simp)) b2 ?_
    refine .cons (es := [8, 32, 26, 26]) (.elementwise (d (by simp) (by simp) (by simp)) (by intro h; cases h)) ?_
    refine .cons (es := [8, 32, 13, 13]) (.pool (n := 8) (c := 32) (h := 26) (w := 26) (p := 2) (s := 2)
      (d (by simp) (by simp) (by simp)) (by omega) (by omega) (by omega) (by omega)) ?_
    refine .cons (es := [8, 32, 13, 13]) (.dropout (d (by simp) (by simp) (by simp))) ?_
    refine .cons (es := [8, 5408]) (.flatten (d := 8) (ds := [32, 13, 13]) (d (by simp) (by simp) (by simp)) (by simp)) ?_
    refine .cons (es := [8, 128]) (.dense (d (by simp) (by simp) (by simp)) (d (by simp) (by simp) (by simp))
      (d (by simp) (by simp) (by simp)) a7 b7) ?_
    refine .norm (.two 8) (d (by simp) (by simp) (by simp)) b8 ?_
    refine .cons (es := [8, 128]) (.elementwise (d (by simp) (by simp) (by simp)) (by intro h; cases h)) ?_
    refine .cons (es := [8, 128]) (.dropout (d (by simp) (by simp) (by simp))) ?_
    refine .cons (es := [8, 10]) (.dense (d (by simp) (by simp) (by simp)) (d (by simp) (by simp) (by simp))
      (d (by simp) (by simp) (by simp)) a11 b11) ?_
    exact .cons (es := [8, 10]) (.softmax (d (by simp) (by simp) (by simp)) (by simp) rfl) (.nil _)
  · exact List.mem_cons_of_mem _ List.mem_cons_self

theorem trainLoaded_ub {ρ : Type} (E : Engine ρ ℝ) (net : Net ρ ℝ) (eps : ℝ) {b : BatchNorm ℝ}
    (h2 : Runs net.layers [8, 1, 28, 28] [8, 10]) (h3 : ⟨.batchNorm b, true⟩ ∈ net.layers)
    (h4 : net.loss = some (.crossEntropy eps)) (f t : List Nat → ℝ) (xs ys : List (Tensor ℝ)) (total : Tensor ℝ)
    {epochs : Int} (he : 0 < epochs) :
    trainLoaded E epochs total (.ok net) (.ok (ofFn [8, 1, 28, 28] f :: xs, ofFn [8, 10] t :: ys)) = (.error .ub, []) := by
  obtain ⟨net', h⟩ := C74_refuted E net h2 h3 h4 ⟨8, 10, rfl, by constructor <;> simp⟩ (ofFn [8, 1, 28, 28] f) (ofFn [8, 10] t)
    ⟨f, rfl⟩ ⟨t, rfl⟩ xs ys he
  rw [trainLoaded, runTrain_eq E _ _ he, h]

/-- **C74, the MNIST example.** For every random engine, seed and constants, and every pair of well-formed data files
with at least 1000 images of 28x28 pixels and labels below 10, the program runs into undefined behaviour in the
first training step; no loss is ever printed. -/
theorem C74_mnist_refuted {ρ : Type} (E : Engine ρ ℝ) (c : MNistConstants ℝ) (total : Tensor ℝ) (r : ρ) {n : Nat}
    (hn : n < 2 ^ 31) (pixels labels : List Byte) (hp : 1000 * (28 * 28) ≤ pixels.length) (hl : 1000 ≤ labels.length)
    (hq : ∀ q ∈ labels.take 1000, q.val < 10) :
    mnistMain E c (some (imageFile n 28 28 pixels)) (some (labelFile n labels)) total r = (.error .ub, []) := by
  obtain ⟨net, b, h1, h2, h3, h4⟩ := mnistModel_ok E c r
  have hload := C58_aligned (T := ℝ) (n := n) (r := 28) (c := 28) (b := 8) (N := 1000) (limit := 1000) hn (by norm_num)
    (by norm_num) (by norm_num) (Or.inr rfl) (Or.inr (by norm_num)) (by norm_num) (by norm_num) (by norm_num) (by norm_num)
    pixels labels hp hl hq
  have hb : batchSize 1000 8 0 = 8 := by decide
  rw [show batchCount 1000 8 = 124 + 1 from by decide, List.range_succ_eq_map, List.map_cons, List.map_cons, hb] at hload
  exact (congrArg₂ (trainLoaded E 10 total) h1 hload).trans
    (trainLoaded_ub E net c.lossEpsilon h2 h3 h4 _ _ _ _ total (by norm_num))

/-- There are such files. -/
example : ∃ pixels labels : List Byte, 1000 * (28 * 28) ≤ pixels.length ∧ 1000 ≤ labels.length ∧
    ∀ q ∈ labels.take 1000, q.val < 10 := by
  refine ⟨List.replicate (1000 * (28 * 28)) 7, List.replicate 1000 3, by rw [List.length_replicate], by rw [List.length_replicate],
    fun q hq => ?_⟩
  rw [List.eq_of_mem_replicate (List.mem_of_mem_take hq)]
  decide +kernel

end SmartDNN
