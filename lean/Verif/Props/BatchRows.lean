import Verif.Proofs.BatchRows

/-!
# Predictions do not depend on the rest of the batch (C84)

In evaluation mode a model treats every entry of a batch on its own.  Everything here holds for an arbitrary number
type with arbitrary operations, so the results are the same bit for bit, not only up to rounding.
-/

namespace SmartDNN
open Net Spec

set_option linter.unusedSectionVars false

section
variable {ρ T : Type} [Zero T] [One T] [Add T] [Sub T] [Mul T] [Div T] [Neg T] [NatCast T] [IntCast T]
  [LT T] [DecidableLT T] [LE T] [DecidableLE T] [DecidableEq T] [MathFn T]

/-! ### Specification -/

/-- `EntryFits l ds es M`: the layer `l`, in evaluation mode, accepts batches whose entries have dimensions `ds`, the entries
of the result have dimensions `es`, and `M` bounds the number of values per entry.  Only sizes are constrained: not the
parameters, and not what earlier calls stored. -/
inductive Spec.EntryFits : Layer T → List Nat → List Nat → Nat → Prop where
  | dense {n m M : Nat} {w bias : List Nat → T} {l : FC T} (hw : l.weights = ofFn [n, m] w)
      (hb : l.biases = ofFn [1, m] bias) (hm : 0 < m) (hM : m ≤ M) : EntryFits ⟨.fc l, false⟩ [n] [m] M
  | elementwise {ds : List Nat} {M : Nat} {l : ActLayer T} (ha : l.activation ≠ .softmax) :
      EntryFits ⟨.activation l, false⟩ ds ds M
  | softmax {ds : List Nat} {M : Nat} {l : ActLayer T} (ha : l.activation = .softmax) (hne : ds ≠ [])
      (hp : ∀ d ∈ ds, 0 < d) (hM : ds.prod ≤ M) : EntryFits ⟨.activation l, false⟩ ds ds M
  | flatten {ds : List Nat} {M : Nat} {l : Flatten} (hr : 2 ≤ ds.length) (hp : ∀ d ∈ ds, 0 < d) (hM : ds.prod ≤ M) :
      EntryFits ⟨.flatten l, false⟩ ds [ds.prod] M
  | flattenRow {n M : Nat} {l : Flatten} : EntryFits ⟨.flatten l, false⟩ [n] [n] M
  | conv {ic oc h w kh kw M : Nat} {k b : List Nat → T} {l : Conv T} (hdk : Dims [oc, ic, kh, kw])
      (hk : kh ≤ h) (hkw : kw ≤ w) (h0 : l.inputChannels = ic) (h1 : l.outputChannels = oc)
      (h2 : l.kernelHeight = kh) (h3 : l.kernelWidth = kw) (h4 : l.weights = ofFn [oc, ic, kh, kw] k)
      (h5 : l.biases = ofFn [oc, 1] b) (hM : ic * h * w ≤ M) (hM' : oc * h * w ≤ M) :
      EntryFits ⟨.conv l, false⟩ [ic, h, w] [oc, h - kh + 1, w - kw + 1] M
  | pool {c h w p s M : Nat} {ninf : T} {inp : Option (Tensor T)} (hpos : ∀ d ∈ [c, h, w], 0 < d) (hp : 0 < p) (hs : 0 < s)
      (hph : p ≤ h) (hpw : p ≤ w) (hM : c * h * w ≤ M) :
      EntryFits ⟨.maxPool ⟨p, s, 0, ninf, inp⟩, false⟩ [c, h, w] [c, (h - p) / s + 1, (w - p) / s + 1] M
  | dropout {ds : List Nat} {M : Nat} {l : Dropout T} : EntryFits ⟨.dropout l, false⟩ ds ds M
  | normRow {F M : Nat} {γ β m v : List Nat → T} {l : BatchNorm T} (hF : 0 < F) (hγ : l.gamma = ofFn [1, F] γ)
      (hβ : l.beta = ofFn [1, F] β) (hm : l.runningMean = ofFn [1, F] m) (hv : l.runningVariance = ofFn [1, F] v)
      (hM : F ≤ M) : EntryFits ⟨.batchNorm l, false⟩ [F] [F] M
  | normImage {F h w M : Nat} {γ β m v : List Nat → T} {l : BatchNorm T} (hpos : ∀ d ∈ [F, h, w], 0 < d)
      (hγ : l.gamma = ofFn [1, F] γ) (hβ : l.beta = ofFn [1, F] β) (hm : l.runningMean = ofFn [1, F] m)
      (hv : l.runningVariance = ofFn [1, F] v) (hM : F * h * w ≤ M) : EntryFits ⟨.batchNorm l, false⟩ [F, h, w] [F, h, w] M

/-- Layers that fit together, none of them with more than `M` values per entry. -/
inductive Spec.EntryChain : List (Layer T) → List Nat → List Nat → Nat → Prop where
  | nil {ds : List Nat} {M : Nat} : EntryChain [] ds ds M
  | cons {l : Layer T} {ls : List (Layer T)} {ds es hs : List Nat} {M : Nat} (hl : EntryFits l ds es M)
      (hls : EntryChain ls es hs M) : EntryChain (l :: ls) ds hs M

/-- The batch made of the entries `g 0`, `g 1`, … of another batch (`f` gives the values of that batch). -/
def Spec.pick (g : Nat → Nat) (f : List Nat → T) : List Nat → T := fun i => f (g (i.headD 0) :: i.tail)

/-! ### One layer -/

theorem dims_batch {B M : Nat} {ds : List Nat} (hB : 0 < B) (hBM : B * M < 2 ^ 31) (hp : ∀ d ∈ ds, 0 < d)
    (hM : ds.prod ≤ M) : Dims (B :: ds) := by
  refine ⟨by simp, ?_, ?_⟩
  · intro d hd
    rcases List.mem_cons.1 hd with rfl | hd
    · exact hB
    · exact hp d hd
  · rw [List.prod_cons]
    exact lt_of_le_of_lt (Nat.mul_le_mul_left _ hM) hBM

/-- One entry of the input at a time: `φ` gives the entry of the output from the entry of the input. -/
def Spec.Entrywise (φ : (List Nat → T) → List Nat → T) (f : List Nat → T) : List Nat → T :=
  fun i => φ (fun j => f (i.headD 0 :: j)) i.tail

theorem flat_data (B : Nat) (ds : List Nat) (f : List Nat → T) :
    (indices (B :: ds)).map f = (indices [B, ds.prod]).map (Entrywise (fun x i => x ((indices ds).getD (i.headD 0) [])) f) := by
  have h1 : indices [ds.prod] = (List.range ds.prod).map fun j => [j] := by
    simp [indices, List.flatMap_singleton', List.map_eq_flatMap]
  rw [indices, indices, h1, List.map_flatMap, List.map_flatMap]
  congr 1
  funext a
  rw [List.map_map, List.map_map, List.map_map]
  apply List.ext_getElem (by simp)
  intro k hk hk'
  simp only [List.length_map, List.length_range] at hk hk'
  simp only [List.getElem_map, Function.comp_apply, List.getElem_range, Entrywise, List.headD_cons, List.tail_cons]
  rw [List.getD_eq_getElem?_getD, List.getElem?_eq_getElem (by simpa using hk')]
  rfl

theorem layer_entrywise {l : Layer T} {ds es : List Nat} {M : Nat} (h : EntryFits l ds es M) :
    ∃ φ : (List Nat → T) → List Nat → T, ∀ (E : Engine ρ T) (r : ρ) (B : Nat), 0 < B → B * M < 2 ^ 31 →
      ∀ f : List Nat → T, ∃ l', Layer.forward E (ofFn (B :: ds) f) (l, r) = (.ok (ofFn (B :: es) (Entrywise φ f)), (l', r)) := by
  cases h with
  | @dense n m M w bias l hw hb hm hM =>
    refine ⟨fun x i => dot n (fun k => x [k]) (fun k => w [k, i.headD 0]) + bias [0, i.headD 0], ?_⟩
    intro E r B hB hBM f
    have hd : Dims [B, m] := dims_batch hB hBM (by simpa using hm) (by simpa using hM)
    refine ⟨⟨.fc { l with input := some (ofFn [B, n] f) }, false⟩, ?_⟩
    have hf : FC.forward (ofFn [B, n] f) l = (.ok (ofFn [B, m] (denseRow n w bias f)), { l with input := some (ofFn [B, n] f) }) := by
      unfold FC.forward
      simp only [Mut.modify_bind, Mut.get_bind, Mut.lift_apply]
      rw [hw, hb, fc_affine_batch hd]
    refine (congrArg (fun q : Res (Tensor T) × FC T => (q.1, ((⟨.fc q.2, false⟩ : Layer T), r))) hf).trans ?_
    refine congrArg (fun t => (Except.ok t, _)) (ofFn_congr fun i hi => ?_)
    obtain ⟨a, c, rfl, -, -⟩ := valid2_iff.1 hi
    rfl
  | @elementwise ds M l ha =>
    obtain ⟨a, inp⟩ := l
    have key : ∃ u : T → T, ∀ (es : List Nat) (f : List Nat → T), Act.forward a (ofFn es f) = .ok (ofFn es fun i => u (f i)) := by
      cases a with
      | softmax => exact (ha rfl).elim
      | relu => exact ⟨fun x => cmax 0 x, fun es f => map_ofFn es f _⟩
      | leakyRelu alpha => exact ⟨fun x => if 0 < x then x else alpha * x, fun es f => map_ofFn es f _⟩
      | sigmoid => exact ⟨fun x => Act.sig (MathFn.toFloat x), fun es f => map_ofFn es f _⟩
      | tanh =>
        exact ⟨fun x => (MathFn.exp (x * ((2 : Nat) : T)) - 1) / (MathFn.exp (x * ((2 : Nat) : T)) + 1),
          fun es f => map_ofFn es f _⟩
      | swish => exact ⟨fun x => x * Act.sig x, fun es f => map_ofFn es f _⟩
      | mish => exact ⟨fun x => x * MathFn.tanh (Act.softplus x), fun es f => map_ofFn es f _⟩
    obtain ⟨u, hu⟩ := key
    refine ⟨fun x i => u (x i), ?_⟩
    intro E r B hB hBM f
    refine ⟨⟨.activation ⟨a, some (ofFn (B :: ds) f)⟩, false⟩, ?_⟩
    have hf : ActLayer.forward (ofFn (B :: ds) f) ⟨a, inp⟩ =
        (.ok (ofFn (B :: ds) fun i => u (f i)), ⟨a, some (ofFn (B :: ds) f)⟩) := by
      unfold ActLayer.forward
      simp only [Mut.modify_bind, Mut.get_bind, Mut.lift_apply]
      rw [hu]
    refine (congrArg (fun q : Res (Tensor T) × ActLayer T => (q.1, ((⟨.activation q.2, false⟩ : Layer T), r))) hf).trans ?_
    refine congrArg (fun t => (Except.ok t, _)) (ofFn_congr fun i hi => ?_)
    obtain ⟨a, is, rfl, -, -⟩ := validIdx_cons_iff.1 hi
    rfl
  | @softmax ds M l ha hne hp hM =>
    obtain ⟨a, inp⟩ := l
    simp only at ha
    subst ha
    refine ⟨fun x i => MathFn.exp (x i - foldMax (ds.prod - 1) (fun j => x ((indices ds).getD j []))) /
      lsum ((indices ds).map fun y => MathFn.exp (x y - foldMax (ds.prod - 1) (fun j => x ((indices ds).getD j [])))), ?_⟩
    intro E r B hB hBM f
    refine ⟨⟨.activation ⟨.softmax, some (ofFn (B :: ds) f)⟩, false⟩, ?_⟩
    have hf : ActLayer.forward (ofFn (B :: ds) f) ⟨.softmax, inp⟩ =
        (Act.softmaxForward (ofFn (B :: ds) f), ⟨.softmax, some (ofFn (B :: ds) f)⟩) := rfl
    rw [softmaxForward_ofFn (dims_batch hB hBM hp hM) hne f] at hf
    refine (congrArg (fun q : Res (Tensor T) × ActLayer T => (q.1, ((⟨.activation q.2, false⟩ : Layer T), r))) hf).trans ?_
    refine congrArg (fun t => (Except.ok t, _)) (ofFn_congr fun i hi => ?_)
    obtain ⟨a, is, rfl, -, -⟩ := validIdx_cons_iff.1 hi
    rfl
  | @flatten ds M l hr hp hM =>
    refine ⟨fun x i => x ((indices ds).getD (i.headD 0) []), ?_⟩
    intro E r B hB hBM f
    have hf := flatten_forward (dims_batch hB hBM hp hM) hr f l
    refine ⟨⟨.flatten { l with originalShape := some (shapeOf (B :: ds)) }, false⟩, ?_⟩
    refine (congrArg (fun q : Res (Tensor T) × Flatten => (q.1, ((⟨.flatten q.2, false⟩ : Layer T), r))) hf).trans ?_
    refine congrArg (fun t => (Except.ok t, _)) ?_
    exact congrArg (fun dat => (⟨shapeOf [B, ds.prod], dat⟩ : Tensor T)) (flat_data B ds f)
  | @flattenRow n M l =>
    refine ⟨fun x i => x i, ?_⟩
    intro E r B hB hBM f
    refine ⟨⟨.flatten l, false⟩, ?_⟩
    have hf : Flatten.forward (ofFn [B, n] f) l = (.ok (ofFn [B, n] f), l) := by
      unfold Flatten.forward
      rw [if_neg (by simp), if_pos (by simp)]
      rfl
    refine (congrArg (fun q : Res (Tensor T) × Flatten => (q.1, ((⟨.flatten q.2, false⟩ : Layer T), r))) hf).trans ?_
    refine congrArg (fun t => (Except.ok t, _)) (ofFn_congr fun i hi => ?_)
    obtain ⟨a, is, rfl, -, -⟩ := validIdx_cons_iff.1 hi
    rfl
  | @conv ic oc h w kh kw M k b l hdk hk hkw h0 h1 h2 h3 h4 h5 hM hM' =>
    refine ⟨fun x i => MathFn.toFloat ((indices [kh, kw]).foldl (fun s a => MathFn.toFloat (s +
        x [0, i.getD 1 0 + a.getD 0 0, i.getD 2 0 + a.getD 1 0] *
        k [i.getD 0 0, 0, a.getD 0 0, a.getD 1 0])) 0 + b [i.getD 0 0, 0]), ?_⟩
    intro E r B hB hBM f
    have hic := hdk.pos ic (by simp)
    have hoc := hdk.pos oc (by simp)
    have hkh := hdk.pos kh (by simp)
    have hkw0 := hdk.pos kw (by simp)
    have hd : Dims [B, ic, h, w] := dims_batch hB hBM (by
      intro d hd
      simp only [List.mem_cons, List.not_mem_nil, or_false] at hd
      rcases hd with rfl | rfl | rfl <;> omega) (by simpa [mul_assoc] using hM)
    have hdb : Dims [oc, 1] := by
      refine ⟨by simp, by simpa using hoc, lt_of_le_of_lt ?_ hdk.lt⟩
      simp only [List.prod_cons, List.prod_nil, mul_one]
      exact Nat.le_mul_of_pos_right _ (by positivity)
    have ho : B * oc * h * w < 2 ^ 31 := by
      refine lt_of_le_of_lt ?_ hBM
      rw [mul_assoc, mul_assoc, ← mul_assoc oc]
      exact Nat.mul_le_mul_left _ hM'
    refine ⟨⟨.conv { l with input := some (ofFn [B, ic, h, w] f) }, false⟩, ?_⟩
    have hf : Conv.forward (ofFn [B, ic, h, w] f) l = (l.correlate (ofFn [B, ic, h, w] f), { l with input := some (ofFn [B, ic, h, w] f) }) := by
      unfold Conv.forward
      simp only [Mut.get_bind]
      rw [if_neg (by simp)]
      rw [show (ofFn [B, ic, h, w] f).shape.get 1 = .ok (ic : Int) from rfl]
      simp only [Mut.lift_ok_bind]
      rw [if_neg (by simp [h0])]
      simp only [Mut.modify_bind, Mut.lift_apply]
    rw [conv_correlate_fold hd hdk hdb hk hkw ho k b f l h1 h2 h3 h4 h5] at hf
    refine (congrArg (fun q : Res (Tensor T) × Conv T => (q.1, ((⟨.conv q.2, false⟩ : Layer T), r))) hf).trans ?_
    refine congrArg (fun t => (Except.ok t, _)) (ofFn_congr fun i hi => ?_)
    obtain ⟨a, b, y, z, rfl, -, -, -, -⟩ := valid4_iff.1 hi
    rfl
  | @pool c h w p s M ninf inp hpos hp hs hph hpw hM =>
    refine ⟨fun x i => (poolFold p s h w ninf (fun y z => x [i.getD 0 0, y, z]) (i.getD 1 0) (i.getD 2 0)).1, ?_⟩
    intro E r B hB hBM f
    have hd : Dims [B, c, h, w] := dims_batch hB hBM hpos (by simpa [mul_assoc] using hM)
    have hf := pool_forward_fold hd (dims_poolOut (s := s) hd hp) hs (Or.inl hph) (Or.inl hpw) f ninf inp
    rw [show poolOut p s h = (h - p) / s + 1 from if_pos hph, show poolOut p s w = (w - p) / s + 1 from if_pos hpw] at hf
    refine ⟨⟨.maxPool ⟨p, s, 0, ninf, some (ofFn [B, c, h, w] f)⟩, false⟩, ?_⟩
    refine (congrArg (fun q : Res (Tensor T) × MaxPool T => (q.1, ((⟨.maxPool q.2, false⟩ : Layer T), r))) hf).trans ?_
    refine congrArg (fun t => (Except.ok t, _)) (ofFn_congr fun i hi => ?_)
    obtain ⟨a, b, y, z, rfl, -, -, -, -⟩ := valid4_iff.1 hi
    rfl
  | @dropout ds M l =>
    refine ⟨fun x i => x i, ?_⟩
    intro E r B hB hBM f
    refine ⟨⟨.dropout l, false⟩, ?_⟩
    have hf : Dropout.forward E false (ofFn (B :: ds) f) (l, r) = (.ok (ofFn (B :: ds) f), (l, r)) := rfl
    refine (congrArg (fun q : Res (Tensor T) × Dropout T × ρ => (q.1, ((⟨.dropout q.2.1, false⟩ : Layer T), q.2.2))) hf).trans ?_
    refine congrArg (fun t => (Except.ok t, _)) (ofFn_congr fun i hi => ?_)
    obtain ⟨a, is, rfl, -, -⟩ := validIdx_cons_iff.1 hi
    rfl
  | @normRow F M γ β m v l hF hγ hβ hm hv hM =>
    refine ⟨fun x i => (x i - m [0, i.getD 0 0]) / MathFn.sqrt (v [0, i.getD 0 0] + l.epsilon) *
        γ [0, i.getD 0 0] + β [0, i.getD 0 0], ?_⟩
    intro E r B hB hBM f
    have hd : Dims [B, F] := dims_batch hB hBM (by simpa using hF) (by simpa using hM)
    have hf := bn_eval_fold (.two B) hd l γ β m v f hγ hβ hm hv
    refine ⟨⟨.batchNorm l, false⟩, ?_⟩
    refine (congrArg (fun q : Res (Tensor T) × BatchNorm T => (q.1, ((⟨.batchNorm q.2, false⟩ : Layer T), r))) hf).trans ?_
    refine congrArg (fun t => (Except.ok t, _)) (ofFn_congr fun i hi => ?_)
    obtain ⟨a, b, rfl, -, -⟩ := valid2_iff.1 hi
    rfl
  | @normImage F h w M γ β m v l hpos hγ hβ hm hv hM =>
    refine ⟨fun x i => (x i - m [0, i.getD 0 0]) / MathFn.sqrt (v [0, i.getD 0 0] + l.epsilon) *
        γ [0, i.getD 0 0] + β [0, i.getD 0 0], ?_⟩
    intro E r B hB hBM f
    have hd : Dims [B, F, h, w] := dims_batch hB hBM hpos (by simpa [mul_assoc] using hM)
    have hf := bn_eval_fold (.four B h w) hd l γ β m v f hγ hβ hm hv
    refine ⟨⟨.batchNorm l, false⟩, ?_⟩
    refine (congrArg (fun q : Res (Tensor T) × BatchNorm T => (q.1, ((⟨.batchNorm q.2, false⟩ : Layer T), r))) hf).trans ?_
    refine congrArg (fun t => (Except.ok t, _)) (ofFn_congr fun i hi => ?_)
    obtain ⟨a, b, y, z, rfl, -, -, -, -⟩ := valid4_iff.1 hi
    rfl

/-! ### The model -/

theorem layers_entrywise {ls : List (Layer T)} {ds es : List Nat} {M : Nat} (h : EntryChain ls ds es M) :
    ∃ φ : (List Nat → T) → List Nat → T, ∀ (E : Engine ρ T) (r : ρ) (B : Nat), 0 < B → B * M < 2 ^ 31 →
      ∀ f : List Nat → T, ∃ ls', forwardLayers E ls (ofFn (B :: ds) f) r = (.ok (ofFn (B :: es) (Entrywise φ f)), ls', r) := by
  induction h with
  | nil =>
    refine ⟨fun x i => x i, fun E r B hB hBM f => ⟨[], ?_⟩⟩
    refine congrArg (fun t => (Except.ok t, _)) (ofFn_congr fun i hi => ?_)
    obtain ⟨a, is, rfl, -, -⟩ := validIdx_cons_iff.1 hi
    rfl
  | @cons l ls ds es hs M hl hls ih =>
    obtain ⟨φ, hφ⟩ := layer_entrywise (ρ := ρ) hl
    obtain ⟨ψ, hψ⟩ := ih
    refine ⟨fun x => ψ (φ x), fun E r B hB hBM f => ?_⟩
    obtain ⟨l', h1⟩ := hφ E r B hB hBM f
    obtain ⟨ls', h2⟩ := hψ E r B hB hBM (Entrywise φ f)
    refine ⟨l' :: ls', ?_⟩
    unfold forwardLayers
    rw [h1]
    simp only
    rw [h2]
    rfl

/-- **C84.**  In evaluation mode the model computes one function `φ` of a single entry, whatever the number of entries:
entry `n` of the prediction is `φ` of entry `n` of the batch. -/
theorem C84_one_function {ds es : List Nat} {M : Nat} (net : Net ρ T) (h : EntryChain net.layers ds es M) :
    ∃ φ : (List Nat → T) → List Nat → T, ∀ (E : Engine ρ T) (B : Nat), 0 < B → B * M < 2 ^ 31 → ∀ f : List Nat → T,
      (predict E (ofFn (B :: ds) f) net).1 = .ok (ofFn (B :: es) fun i => φ (fun j => f (i.headD 0 :: j)) i.tail) := by
  obtain ⟨φ, hφ⟩ := layers_entrywise (ρ := ρ) h
  refine ⟨φ, fun E B hB hBM f => ?_⟩
  obtain ⟨ls', h1⟩ := hφ E net.rng B hB hBM f
  unfold predict
  rw [h1]
  rfl

/-- **C84.**  Predicting entries `g 0, …, g (B'-1)` of a batch, in this order, possibly with repetitions and without the
others, gives exactly the entries `g 0, …, g (B'-1)` of the prediction of the whole batch. -/
theorem C84_rows {ds es : List Nat} {M : Nat} (E E' : Engine ρ T) (net : Net ρ T) (h : EntryChain net.layers ds es M)
    (B : Nat) (hB : 0 < B) (hBM : B * M < 2 ^ 31) (f : List Nat → T) :
    ∃ Y : List Nat → T, (predict E (ofFn (B :: ds) f) net).1 = .ok (ofFn (B :: es) Y) ∧
      ∀ (B' : Nat) (g : Nat → Nat), 0 < B' → B' * M < 2 ^ 31 → (∀ k < B', g k < B) →
        (predict E' (ofFn (B' :: ds) (pick g f)) net).1 = .ok (ofFn (B' :: es) (pick g Y)) := by
  obtain ⟨φ, hφ⟩ := C84_one_function net h
  refine ⟨_, hφ E B hB hBM f, fun B' g hB' hBM' _ => ?_⟩
  rw [hφ E' B' hB' hBM']
  rfl

/-- **C84.**  In particular each entry can be predicted alone. -/
theorem C84_alone {ds es : List Nat} {M : Nat} (E E' : Engine ρ T) (net : Net ρ T) (h : EntryChain net.layers ds es M)
    (B : Nat) (hBM : B * M < 2 ^ 31) (f : List Nat → T) (n : Nat) (hn : n < B) :
    ∃ Y : List Nat → T, (predict E (ofFn (B :: ds) f) net).1 = .ok (ofFn (B :: es) Y) ∧
      (predict E' (ofFn (1 :: ds) fun i => f (n :: i.tail)) net).1 = .ok (ofFn (1 :: es) fun i => Y (n :: i.tail)) := by
  obtain ⟨Y, h1, h2⟩ := C84_rows E E' net h B (by omega) hBM f
  refine ⟨Y, h1, h2 1 (fun _ => n) (by omega) ?_ (fun _ _ => hn)⟩
  exact lt_of_le_of_lt (Nat.mul_le_mul_right _ (by omega)) hBM

theorem evalMode_of_fits {ls : List (Layer T)} {ds es : List Nat} {M : Nat} (h : EntryChain ls ds es M) :
    ∀ l ∈ ls, l.trainingMode = false := by
  induction h with
  | nil => simp
  | cons hl _ ih =>
    intro l hm
    rcases List.mem_cons.1 hm with rfl | hm
    · cases hl <;> rfl
    · exact ih l hm

theorem predictAll_eval {ι : Type} (E : Engine ρ T) (net : Net ρ T) (h : EvalMode net) (a y : ι → Tensor T) (ks : List ι)
    (hx : ∀ k ∈ ks, (predict E (a k) net).1 = .ok (y k)) (history : List (Tensor T)) :
    (predictAll E (ks.map a) (afterPredicts E history net)).1 = .ok (ks.map y) := by
  induction ks generalizing history with
  | nil => rfl
  | cons k ks ih =>
    have h1 := (C53_repeatable E history (a k) net h).trans (hx k (by simp))
    have h2 := ih (fun x hx' => hx x (by simp [hx'])) (history ++ [a k])
    have h3 : afterPredicts E (history ++ [a k]) net = (predict E (a k) (afterPredicts E history net)).2 := by
      simp [afterPredicts]
    rw [h3] at h2
    rw [List.map_cons]
    unfold predictAll
    rcases hp : predict E (a k) (afterPredicts E history net) with ⟨res, net1⟩
    rw [hp] at h1 h2
    simp only at h1 h2
    subst h1
    rcases hq : predictAll E (ks.map a) net1 with ⟨res2, net2⟩
    rw [hq] at h2
    simp only at h2
    subst h2
    rw [Mut.bind_apply, hp]
    simp only
    rw [Mut.bind_apply, hq]
    rfl

/-- **C84 (list overload).**  `predict` of the list of the entries, each as a batch of one, returns the list of the
entries of the prediction of the batch. -/
theorem C84_list {ds es : List Nat} {M : Nat} (E E' : Engine ρ T) (net : Net ρ T) (h : EntryChain net.layers ds es M)
    (B : Nat) (hB : 0 < B) (hBM : B * M < 2 ^ 31) (f : List Nat → T) :
    ∃ Y : List Nat → T, (predict E (ofFn (B :: ds) f) net).1 = .ok (ofFn (B :: es) Y) ∧
      (predictAll E' ((List.range B).map fun n => ofFn (1 :: ds) fun i => f (n :: i.tail)) net).1 =
        .ok ((List.range B).map fun n => ofFn (1 :: es) fun i => Y (n :: i.tail)) := by
  obtain ⟨Y, h1, h2⟩ := C84_rows E E' net h B hB hBM f
  refine ⟨Y, h1, predictAll_eval E' net (evalMode_of_fits h) _ _ _ (fun n hn => ?_) []⟩
  have hn := List.mem_range.1 hn
  exact h2 1 (fun _ => n) (by omega) (lt_of_le_of_lt (Nat.mul_le_mul_right _ (by omega)) hBM) (fun _ _ => hn)

/-- Convolution, ReLU, max pooling, flatten, dense, batch normalisation, dropout, softmax, on 4×4 images: up to 2^25
images at a time. -/
example (k b w bias γ β m v : List Nat → T) (ninf eps mom re rate : T) (inp : Option (Tensor T)) :
    EntryChain [⟨.conv ⟨1, 2, 2, 2, 1, 0, 1, ofFn [2, 1, 2, 2] k, ofFn [2, 1] b, inp, none, none⟩, false⟩,
      ⟨.activation ⟨.relu, inp⟩, false⟩, ⟨.maxPool ⟨2, 1, 0, ninf, inp⟩, false⟩, ⟨.flatten ⟨none⟩, false⟩,
      ⟨.fc { weights := ofFn [8, 3] w, biases := ofFn [1, 3] bias }, false⟩,
      ⟨.batchNorm ⟨eps, mom, re, ofFn [1, 3] γ, ofFn [1, 3] β, ofFn [1, 3] m, ofFn [1, 3] v, none, none, none, none, none⟩, false⟩,
      ⟨.dropout ⟨rate, none⟩, false⟩, ⟨.activation ⟨.softmax, none⟩, false⟩] [1, 4, 4] [3] 32 ∧ 2 ^ 25 * 32 < 2 ^ 31 := by
  refine ⟨?_, by norm_num⟩
  refine .cons (.conv (ic := 1) (oc := 2) (kh := 2) (kw := 2) ⟨by simp, by simp, by norm_num⟩ (by norm_num) (by norm_num)
    rfl rfl rfl rfl rfl rfl (by norm_num) (by norm_num)) ?_
  refine .cons (.elementwise (by simp)) ?_
  refine .cons (.pool (by simp) (by norm_num) (by norm_num) (by norm_num) (by norm_num) (by norm_num)) ?_
  refine .cons (.flatten (by simp) (by simp) (by norm_num)) ?_
  refine .cons (.dense (n := 8) rfl rfl (by norm_num) (by norm_num)) ?_
  refine .cons (.normRow (by norm_num) rfl rfl rfl rfl (by norm_num)) ?_
  refine .cons .dropout ?_
  exact .cons (.softmax rfl (by simp) (by simp) (by norm_num)) .nil

end

/-- **C84 (training mode).**  The restriction to evaluation mode is needed: in training mode a batch normalisation layer
gives an entry another value when it is accompanied by a different one. -/
theorem C84_training_differs {ρ : Type} (E : Engine ρ ℝ) (r : ρ) (l : BatchNorm ℝ) (heps : 0 < l.epsilon)
    (hγ : l.gamma = ofFn [1, 1] (fun _ => 1)) (hβ : l.beta = ofFn [1, 1] (fun _ => 0)) (m v : List Nat → ℝ)
    (hm : l.runningMean = ofFn [1, 1] m) (hv : l.runningVariance = ofFn [1, 1] v) (a c : ℝ) (hac : a ≠ c) :
    ∃ Y y : List Nat → ℝ,
      (predict E (ofFn [2, 1] fun i => if i.headD 0 = 0 then a else c) ⟨[⟨.batchNorm l, true⟩], none, none, r⟩).1 =
        .ok (ofFn [2, 1] Y) ∧
      (predict E (ofFn [1, 1] fun _ => a) ⟨[⟨.batchNorm l, true⟩], none, none, r⟩).1 = .ok (ofFn [1, 1] y) ∧
      Y [0, 0] ≠ y [0, 0] := by
  have h1 := bn_forward_train (.two 2) (show Dims [2, 1] from ⟨by simp, by simp, by norm_num⟩) .row
    (show Dims [1, 1] from ⟨by simp, by simp, by norm_num⟩) l (fun _ => 1) (fun _ => 0) m v
    (fun i => if i.headD 0 = 0 then a else c) hγ hβ hm hv
  have h2 := bn_forward_train (.two 1) (show Dims [1, 1] from ⟨by simp, by simp, by norm_num⟩) .row
    (show Dims [1, 1] from ⟨by simp, by simp, by norm_num⟩) l (fun _ => 1) (fun _ => 0) m v
    (fun _ => a) hγ hβ hm hv
  have net1 : ∀ (ds : List Nat) (f Z : List Nat → ℝ) (l' : BatchNorm ℝ),
      BatchNorm.forward true (ofFn ds f) l = (.ok (ofFn ds Z), l') →
      (predict E (ofFn ds f) ⟨[⟨.batchNorm l, true⟩], none, none, r⟩).1 = .ok (ofFn ds Z) := by
    intro ds f Z l' h
    unfold predict forwardLayers Layer.forward Layer.onKind
    simp only [h]
    rfl
  refine ⟨_, _, net1 _ _ _ _ h1, net1 _ _ _ _ h2, ?_⟩
  have e2 : featureIdx [2, 1] 0 = [[0, 0], [1, 0]] := by decide
  have e1 : featureIdx [1, 1] 0 = [[0, 0]] := by decide
  simp only [List.getD_cons_succ, List.getD_cons_zero, featVar, featMean, e1, e2, bnOut]
  norm_num
  constructor
  · intro h
    apply hac
    linarith
  · positivity

end SmartDNN
