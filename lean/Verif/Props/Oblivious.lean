import Verif.Proofs.Oblivious
import Verif.Props.Typed

/-!
# C104: what a call does about errors depends on shapes, not on numbers

The two runs compared may use different number types `T` and `T'`, with any arithmetic whatsoever, provided a whole number is zero in
the one exactly if it is in the other (`SameZeros`).  So a fact about exceptions proved for real numbers holds for floating point
numbers, NaN and infinities included.
-/

namespace SmartDNN
open Net Spec

section
variable {ρ ρ' T T' : Type} [Zero T] [One T] [Add T] [Sub T] [Mul T] [Div T] [Neg T] [NatCast T]
  [IntCast T] [LT T] [DecidableLT T] [LE T] [DecidableLE T] [DecidableEq T] [MathFn T]
  [Zero T'] [One T'] [Add T'] [Sub T'] [Mul T'] [Div T'] [Neg T'] [NatCast T']
  [IntCast T'] [LT T'] [DecidableLT T'] [LE T'] [DecidableLE T'] [DecidableEq T'] [MathFn T']

/-- Tensor operations: on tensors of the same shapes they return tensors of the same shape or throw the same exception. -/
theorem C104_operations {a b : Tensor T} {a' b' : Tensor T'} (ha : SameForm a a') (hb : SameForm b b') :
    SameOutcome SameForm (a.add b) (a'.add b') ∧ SameOutcome SameForm (a.sub b) (a'.sub b') ∧ SameOutcome SameForm (a.mul b) (a'.mul b') ∧
    SameOutcome SameForm (a.div b) (a'.div b') ∧ SameOutcome SameForm (a.matmul b) (a'.matmul b') ∧
    SameOutcome SameForm (a.addAssign (some b)) (a'.addAssign (some b')) ∧
    (∀ f f', SameOutcome SameForm (a.apply f) (a'.apply f')) ∧ (∀ ds, SameOutcome SameForm (a.reshape ds) (a'.reshape ds)) ∧
    (∀ i j, SameOutcome SameForm (a.transpose i j) (a'.transpose i j)) ∧ SameOutcome SameForm a.sumAll a'.sumAll ∧
    (∀ i, SameOutcome SameForm (a.sumAxis i) (a'.sumAxis i)) ∧ (∀ is, SameOutcome SameForm (a.sumAxes is) (a'.sumAxes is)) ∧
    (∀ i, SameOutcome (fun _ _ => True) (a.at_ i) (a'.at_ i)) ∧ (∀ i v v', SameOutcome SameForm (a.setAt i v) (a'.setAt i v')) :=
  ⟨form_binop _ _ ha hb, form_binop _ _ ha hb, form_binop _ _ ha hb, form_binop _ _ ha hb, form_matmul ha hb,
    twin_addAssign (fun _ _ _ _ _ _ => trivial) ha hb, fun _ _ => form_map ha _ _, fun ds => twin_reshape ha ds, fun i j => form_transpose ha i j,
    form_sumAll ha, fun i => form_sumAxis ha i, fun is => form_sumAxes ha is, fun i => twin_at ha i, fun i _ _ => twin_setAt ha i trivial⟩

/-- Activation functions and losses. -/
theorem C104_functions (hz : SameZeros T T') {x g : Tensor T} {x' g' : Tensor T'} (hx : SameForm x x') (hg : SameForm g g') :
    (∀ (a : Act T) (a' : Act T'), SameAct a a' → SameOutcome SameForm (a.forward x) (a'.forward x') ∧ SameOutcome SameForm (a.backward x g) (a'.backward x' g')) ∧
    (∀ (L : Loss T) (L' : Loss T'), SameLoss L L' → SameOutcome SameForm (L.compute x g) (L'.compute x' g') ∧ SameOutcome SameForm (L.gradient x g) (L'.gradient x' g')) :=
  ⟨fun _ _ h => ⟨form_actForward h hx, form_actBackward h hx hg⟩, fun _ _ h => ⟨form_compute hz h hx hg, form_gradient hz h hx hg⟩⟩

/-- Prediction: two models of the same make return predictions of the same shape or throw the same exception, and are of the same make
afterwards. -/
theorem C104_predict (E : Engine ρ T) (E' : Engine ρ' T') {net : Net ρ T} {net' : Net ρ' T'} (hn : SameNet net net')
    {x : Tensor T} {x' : Tensor T'} (hx : SameForm x x') :
    SameOutcome SameForm (Net.predict E x net).1 (Net.predict E' x' net').1 ∧ SameNet (Net.predict E x net).2 (Net.predict E' x' net').2 :=
  ⟨(form_predict E E' hx net net' hn).2, (form_predict E E' hx net net' hn).1⟩

/-- Training: two models of the same make, trained on data of the same shapes, both return or throw the same exception, have printed the
same number of losses, and are of the same make afterwards. -/
theorem C104_train (hz : SameZeros T T') (E : Engine ρ T) (E' : Engine ρ' T') {net : Net ρ T} {net' : Net ρ' T'} (hn : SameNet net net')
    (hi : IntactNet net) {xs ys : List (Tensor T)} {xs' ys' : List (Tensor T')} (hx : List.Forall₂ SameForm xs xs')
    (hy : List.Forall₂ SameForm ys ys') (hxi : ∀ x ∈ xs, Intact x) (epochs : Int) :
    SameOutcome (fun _ _ => True) (trainCall E xs ys epochs net).1 (trainCall E' xs' ys' epochs net').1 ∧
    SameNet (trainCall E xs ys epochs net).2.1 (trainCall E' xs' ys' epochs net').2.1 ∧
    List.Forall₂ SameForm (trainCall E xs ys epochs net).2.2 (trainCall E' xs' ys' epochs net').2.2 := by
  have := form_train hz E E' hy hx hxi epochs ⟨net, ofFn [1] fun _ => 0, []⟩ ⟨net', ofFn [1] fun _ => 0, []⟩
    ⟨hn, ⟨rfl, forall2_true (by simp)⟩, .nil, hi, ⟨make_one, by simp⟩, by simp⟩
  exact ⟨this.2, this.1.net, this.1.printed⟩

/-! ### Histories -/

omit [Zero T] [One T] [Add T] [Sub T] [Mul T] [Div T] [Neg T] [NatCast T]
  [IntCast T] [LT T] [DecidableLT T] [LE T] [DecidableLE T] [DecidableEq T] [MathFn T]
  [Zero T'] [One T'] [Add T'] [Sub T'] [Mul T'] [Div T'] [Neg T'] [NatCast T']
  [IntCast T'] [LT T'] [DecidableLT T'] [LE T'] [DecidableLE T'] [DecidableEq T'] [MathFn T'] in
theorem agree_map {α α' β β' : Type} {P : α → α' → Prop} {Q : β → β' → Prop} {r : Res α} {r' : Res α'} (h : SameOutcome P r r') {f : α → β} {f' : α' → β'}
    (hf : ∀ a a', P a a' → Q (f a) (f' a')) : SameOutcome Q (r.map f) (r'.map f') := by
  cases r <;> cases r'
  · exact h
  · exact h.elim
  · exact h.elim
  · exact hf _ _ h

theorem form_predictAll (E : Engine ρ T) (E' : Engine ρ' T') {xs : List (Tensor T)} {xs' : List (Tensor T')} (hx : List.Forall₂ SameForm xs xs') :
    MAgree SameNet (List.Forall₂ SameForm) (Net.predictAll E xs) (Net.predictAll E' xs') := by
  induction hx with
  | nil => exact magree_pure .nil
  | cons h1 h2 ih =>
    unfold Net.predictAll
    exact magree_bind (form_predict E E' h1) fun y y' hy => magree_bind ih fun ys ys' hys => magree_pure (.cons hy hys)

theorem form_visit (hz : SameZeros T T') (E : Engine ρ T) (E' : Engine ρ' T') {net : Net ρ T} {net' : Net ρ' T'} (hn : SameNet net net')
    (hi : IntactNet net) {v : Visit T} {v' : Visit T'} (hv : SameVisit v v') (hp : v.Proper) :
    SameOutcome (List.Forall₂ SameForm) (v.outcome E net) (v'.outcome E' net') ∧ SameNet (v.apply E net).1 (v'.apply E' net').1 := by
  cases v <;> cases v' <;> first | exact hv.elim | skip
  · next xs ys n xs' ys' n' =>
    obtain ⟨h1, h2, rfl⟩ := hv
    have h := C104_train hz E E' hn hi h1 h2 hp n
    exact ⟨agree_map h.1 fun _ _ _ => h.2.2, h.2.1⟩
  · have h := C104_predict E E' hn hv
    exact ⟨agree_map h.1 fun _ _ h => .cons h .nil, h.2⟩
  · have h := form_predictAll E E' hv net net' hn
    exact ⟨h.2, h.1⟩
  · have h := form_updateWeights net net' hn
    exact ⟨agree_map h.2 fun _ _ _ => .nil, h.1⟩
  · next b b' =>
    have hv : b = b' := hv
    subst hv
    refine ⟨.nil, ?_, hn.loss, hn.optimizer⟩
    show List.Forall₂ SameLayer (net.layers.map _) (net'.layers.map _)
    rw [List.forall₂_map_left_iff, List.forall₂_map_right_iff]
    exact hn.layers.imp fun _ _ h => ⟨h.1, rfl⟩
  · exact ⟨.nil, hn.layers, hv.1, hv.2⟩
  · exact ⟨.nil, List.rel_append hn.layers (.cons hv .nil), hn.loss, hn.optimizer⟩
  · next i l i' l' =>
    obtain ⟨rfl, h⟩ := hv
    exact ⟨.nil, forall2_set hn.layers h i, hn.loss, hn.optimizer⟩

/-- The whole history: two models of the same make, put through the same calls with data of the same shapes, answer every call alike — an
answer with tensors of the same shapes, or the same exception — also the calls after an exception. -/
theorem C104_history (hz : SameZeros T T') (E : Engine ρ T) (E' : Engine ρ' T') {vs : List (Visit T)} {vs' : List (Visit T')}
    (hv : List.Forall₂ SameVisit vs vs') (hp : ∀ v ∈ vs, v.Proper) {net : Net ρ T} {net' : Net ρ' T'} (hn : SameNet net net') (hi : IntactNet net) :
    List.Forall₂ (SameOutcome (List.Forall₂ SameForm)) (outcomes E vs net) (outcomes E' vs' net') := by
  induction hv generalizing net net' with
  | nil => exact .nil
  | cons h1 h2 ih =>
    have h := form_visit hz E E' hn hi h1 (hp _ (by simp))
    exact .cons h.1 (ih (fun v hv => hp v (by simp [hv])) h.2 (intact_visit E hi (hp _ (by simp))).1)

end

/-! ### One model, other data -/

section
variable {ρ T : Type} [Zero T] [One T] [Add T] [Sub T] [Mul T] [Div T] [Neg T] [NatCast T]
  [IntCast T] [LT T] [DecidableLT T] [LE T] [DecidableLE T] [DecidableEq T] [MathFn T]

/-- No pooling layer has a negative padding. -/
def Spec.SoundPadding (net : Net ρ T) : Prop := ∀ l ∈ net.layers, match l.kind with
  | .maxPool p => 0 ≤ p.padding
  | _ => True

omit [Zero T] [One T] [Add T] [Sub T] [Mul T] [Div T] [Neg T] [NatCast T]
  [IntCast T] [LT T] [DecidableLT T] [LE T] [DecidableLE T] [DecidableEq T] [MathFn T] in
theorem form_refl (t : Tensor T) : SameForm t t := ⟨rfl, forall2_true rfl⟩

omit [Zero T] [One T] [Add T] [Sub T] [Mul T] [Div T] [Neg T] [NatCast T]
  [IntCast T] [LT T] [DecidableLT T] [LE T] [DecidableLE T] [DecidableEq T] [MathFn T] in
theorem formOpt_refl (t : Option (Tensor T)) : SameOpt t t := by
  cases t
  · trivial
  · exact form_refl _

omit [One T] [Add T] [Sub T] [Mul T] [Div T] [Neg T] [NatCast T]
  [IntCast T] [DecidableLT T] [LE T] [DecidableLE T] [DecidableEq T] [MathFn T] in
theorem sameNet_refl {net : Net ρ T} (h : SoundPadding net) : SameNet net net := by
  refine ⟨List.forall₂_same.2 fun l hl => ⟨?_, rfl⟩, ?_, ?_⟩
  · have hp := h l hl
    rcases l with ⟨k, md⟩
    cases k with
    | fc l => exact ⟨form_refl _, form_refl _, formOpt_refl _, formOpt_refl _, formOpt_refl _⟩
    | conv l => exact ⟨rfl, rfl, rfl, rfl, form_refl _, form_refl _, formOpt_refl _, formOpt_refl _, formOpt_refl _⟩
    | flatten l => exact rfl
    | maxPool l => exact ⟨⟨rfl, rfl, rfl, formOpt_refl _⟩, hp⟩
    | batchNorm l => exact ⟨form_refl _, form_refl _, form_refl _, form_refl _, formOpt_refl _, formOpt_refl _, formOpt_refl _, formOpt_refl _, formOpt_refl _⟩
    | dropout l => exact formOpt_refl _
    | activation l =>
      refine ⟨?_, formOpt_refl _⟩
      cases l.activation <;> trivial
  · cases net.loss with
    | none => trivial
    | some L => cases L <;> trivial
  · cases net.optimizer with
    | none => trivial
    | some o =>
      cases o with
      | sgd o => exact ⟨Iff.rfl, fun _ => formOpt_refl _⟩
      | rmsprop o => exact ⟨rfl, Iff.rfl, fun _ => formOpt_refl _, fun _ => formOpt_refl _, fun _ => formOpt_refl _⟩
      | adam o => exact ⟨fun _ => formOpt_refl _, fun _ => formOpt_refl _⟩

/-- Bad numbers raise no errors: training the same model on other data of the same shapes ends in the same way, whatever the numbers are
(NaN and infinities included, if `T` has them), and whatever numbers the random engine yields. -/
theorem C104_data (E E' : Engine ρ T) {net : Net ρ T} (hp : SoundPadding net) (hi : IntactNet net) {xs ys xs' ys' : List (Tensor T)}
    (hx : List.Forall₂ SameForm xs xs') (hy : List.Forall₂ SameForm ys ys') (hxi : ∀ x ∈ xs, Intact x) (epochs : Int) :
    (trainCall E xs ys epochs net).1 = (trainCall E' xs' ys' epochs net).1 ∧
    (trainCall E xs ys epochs net).2.2.length = (trainCall E' xs' ys' epochs net).2.2.length := by
  have h := C104_train ⟨fun _ => Iff.rfl, fun _ => Iff.rfl⟩ E E' (sameNet_refl hp) hi hx hy hxi epochs
  refine ⟨?_, h.2.2.length_eq⟩
  rcases e : (trainCall E xs ys epochs net).1 with a | ⟨⟨⟩⟩ <;> rcases e' : (trainCall E' xs' ys' epochs net).1 with a' | ⟨⟨⟩⟩ <;> rw [e, e'] at h
  · exact congrArg _ h.1
  · exact h.1.elim
  · exact h.1.elim

end

/-! ### Well-shaped models in any arithmetic -/

section
variable {ρ ρ' T' : Type} [Zero T'] [One T'] [Add T'] [Sub T'] [Mul T'] [Div T'] [Neg T'] [NatCast T']
  [IntCast T'] [LT T'] [DecidableLT T'] [LE T'] [DecidableLE T'] [DecidableEq T'] [MathFn T']

omit [Zero T'] [One T'] [Add T'] [Sub T'] [Mul T'] [Div T'] [Neg T'] [NatCast T']
  [IntCast T'] [LT T'] [DecidableLT T'] [LE T'] [DecidableLE T'] [DecidableEq T'] [MathFn T'] in
theorem form_zeros {ds : List Nat} {xs : List (Tensor T')} (hx : ∀ x ∈ xs, ∃ f, x = ofFn ds f) :
    List.Forall₂ SameForm (xs.map fun _ => ofFn ds fun _ => (0 : ℝ)) xs := by
  rw [List.forall₂_map_left_iff, List.forall₂_same]
  rintro x hx'
  obtain ⟨f, rfl⟩ := hx x hx'
  exact ⟨rfl, forall2_true (by simp)⟩

/-- What C67 says about exact arithmetic holds in every arithmetic: a model of the same make as a well-shaped one answers every input of
the right dimensions, and every training on data of the right dimensions succeeds and prints one loss per epoch. -/
theorem C104_well_shaped (hz : SameZeros ℝ T') (E : Engine ρ ℝ) (E' : Engine ρ' T') {net : Net ρ ℝ} {net' : Net ρ' T'} (hn : SameNet net net')
    (hi : IntactNet net) {ds es : List Nat} (hd : Dims ds) (hw : WellShaped net ds es) :
    (∀ f, ∃ g, (Net.predict E' (ofFn ds f) net').1 = .ok (ofFn es g)) ∧
    ∀ {xs ys : List (Tensor T')} (epochs : Int), (∀ x ∈ xs, ∃ f, x = ofFn ds f) → (∀ y ∈ ys, ∃ f, y = ofFn es f) → xs ≠ [] → xs.length ≤ ys.length →
      (trainCall E' xs ys epochs net').1 = .ok () ∧ (trainCall E' xs ys epochs net').2.2.length = epochs.toNat := by
  refine ⟨fun f => ?_, fun {xs ys} epochs hx hy hne hlen => ?_⟩
  · obtain ⟨y, n1, h1, ⟨g, rfl⟩, -⟩ := C67_predict E net hw (ofFn ds fun _ => 0) ⟨_, rfl⟩
    have h := (C104_predict E E' hn (x := ofFn ds fun _ => (0 : ℝ)) (x' := ofFn ds f) ⟨rfl, forall2_true (by simp)⟩).1
    rw [h1] at h
    cases e : (Net.predict E' (ofFn ds f) net').1 with
    | error e' => rw [e] at h; exact h.elim
    | ok t =>
      rw [e] at h
      obtain ⟨s, d⟩ := t
      obtain ⟨hs, hl⟩ := h
      have hlen : d.length = es.prod := by have := hl.length_eq; simpa [length_indices] using this.symm
      have he : Dims es := by
        obtain ⟨-, ⟨L, -, hL⟩, -⟩ := hw
        cases L with
        | mse => exact hL
        | crossEntropy eps => obtain ⟨b, k, rfl, h⟩ := hL; exact h
      obtain ⟨g', hg⟩ := exists_ofFn he (t := ⟨s, d⟩) hs.symm hlen
      exact ⟨g', congrArg Except.ok hg⟩
  · obtain ⟨n1, rs, h1, h2, -⟩ := C67_train E net hw (xs.map fun _ => ofFn ds fun _ => (0 : ℝ)) (ys.map fun _ => ofFn es fun _ => (0 : ℝ)) epochs
      (by simpa using hne) (by simpa using hlen) (by simp [HasDims]) (by simp [HasDims])
    have h := C104_train hz E E' hn hi (form_zeros hx) (form_zeros hy) (by
      intro x hx
      obtain ⟨_, -, rfl⟩ := List.mem_map.1 hx
      exact ⟨make_dims hd, by simp⟩) epochs
    rw [h1] at h
    refine ⟨?_, by rw [← h2]; exact h.2.2.length_eq.symm⟩
    cases e : (trainCall E' xs ys epochs net').1 with
    | error e' => rw [e] at h; exact h.1.elim
    | ok u => rfl

end

/-! ### The exception -/

/-- Division of a tensor by a number is the exception: it throws for zero and returns otherwise (on every intact tensor). -/
theorem C104_divide {T : Type} [Zero T] [Div T] [DecidableEq T] {t : Tensor T} (ht : Intact t) (s : T) :
    (s = 0 → t.divScalar s = .error .invalidArgument) ∧ (s ≠ 0 → ∃ r, t.divScalar s = .ok r ∧ SameForm t r) := by
  unfold Tensor.divScalar
  refine ⟨fun h => by rw [if_pos h], fun h => ?_⟩
  rw [if_neg h]
  unfold Tensor.map Tensor.iter
  rw [if_pos (by rw [ht.2])]
  exact ⟨_, rfl, rfl, forall2_true (by simp [ht.2])⟩

/-! ### The hypotheses are met -/

section
variable {T T' : Type} [Zero T] [One T] [Add T] [Sub T] [Mul T] [Div T] [Neg T] [NatCast T]
  [IntCast T] [LT T] [DecidableLT T] [LE T] [DecidableLE T] [DecidableEq T] [MathFn T]
  [Zero T'] [One T'] [Add T'] [Sub T'] [Mul T'] [Div T'] [Neg T'] [NatCast T']
  [IntCast T'] [LT T'] [DecidableLT T'] [LE T'] [DecidableLE T'] [DecidableEq T'] [MathFn T']

omit [Zero T] [One T] [Add T] [Sub T] [Mul T] [Div T] [Neg T] [NatCast T]
  [IntCast T] [LT T] [DecidableLT T] [LE T] [DecidableLE T] [DecidableEq T] [MathFn T]
  [Zero T'] [One T'] [Add T'] [Sub T'] [Mul T'] [Div T'] [Neg T'] [NatCast T']
  [IntCast T'] [LT T'] [DecidableLT T'] [LE T'] [DecidableLE T'] [DecidableEq T'] [MathFn T'] in
theorem form_ofFn (ds : List Nat) (f : List Nat → T) (f' : List Nat → T') : SameForm (ofFn ds f) (ofFn ds f') := ⟨rfl, forall2_true (by simp)⟩

/-- A convolutional classifier: convolution, ReLU, pooling, flattening, dropout, a dense layer, softmax; cross entropy and Adam. -/
def obliviousNet (w b w2 b2 : List Nat → T) (c : T) : Net Unit T :=
  { layers := [⟨.conv ⟨1, 2, 2, 2, 1, 0, 1, ofFn [2, 1, 2, 2] w, ofFn [2, 1, 1] b, none, none, none⟩, true⟩,
      ⟨.activation ⟨.relu, none⟩, true⟩, ⟨.maxPool ⟨2, 2, 0, c, none⟩, true⟩, ⟨.flatten {}, true⟩, ⟨.dropout ⟨c, none⟩, true⟩,
      ⟨.fc ⟨ofFn [2, 3] w2, ofFn [1, 3] b2, none, none, none⟩, true⟩, ⟨.activation ⟨.softmax, none⟩, true⟩]
    loss := some (.crossEntropy c)
    optimizer := some (.adam ⟨⟨c, c, c, c, c, c, c, 1, c⟩, c, 0, fun _ => none, fun _ => none⟩)
    rng := () }

omit [One T] [Add T] [Sub T] [Mul T] [Div T] [Neg T] [NatCast T]
  [IntCast T] [DecidableLT T] [LE T] [DecidableLE T] [DecidableEq T] [MathFn T]
  [One T'] [Add T'] [Sub T'] [Mul T'] [Div T'] [Neg T'] [NatCast T']
  [IntCast T'] [DecidableLT T'] [LE T'] [DecidableLE T'] [DecidableEq T'] [MathFn T'] in
theorem oblivious_same (w b w2 b2 : List Nat → T) (c : T) (w' b' w2' b2' : List Nat → T') (c' : T') :
    SameNet (obliviousNet w b w2 b2 c) (obliviousNet w' b' w2' b2' c') := by
  refine ⟨.cons ⟨⟨rfl, rfl, rfl, rfl, form_ofFn _ _ _, form_ofFn _ _ _, trivial, trivial, trivial⟩, rfl⟩ (.cons ⟨⟨trivial, trivial⟩, rfl⟩
    (.cons ⟨⟨⟨rfl, rfl, rfl, trivial⟩, le_rfl⟩, rfl⟩ (.cons ⟨rfl, rfl⟩ (.cons ⟨trivial, rfl⟩
    (.cons ⟨⟨form_ofFn _ _ _, form_ofFn _ _ _, trivial, trivial, trivial⟩, rfl⟩ (.cons ⟨⟨trivial, trivial⟩, rfl⟩ .nil)))))), trivial, ?_⟩
  exact ⟨fun _ => trivial, fun _ => trivial⟩

omit [Zero T] [One T] [Add T] [Sub T] [Mul T] [Div T] [Neg T] [NatCast T]
  [IntCast T] [LT T] [DecidableLT T] [LE T] [DecidableLE T] [DecidableEq T] [MathFn T] in
theorem intact_ofFn {ds : List Nat} (hd : Dims ds) (f : List Nat → T) : Intact (ofFn ds f) := ⟨make_dims hd, by simp⟩

omit [Zero T] [One T] [Add T] [Sub T] [Mul T] [Div T] [Neg T] [NatCast T]
  [IntCast T] [LT T] [DecidableLT T] [LE T] [DecidableLE T] [DecidableEq T] [MathFn T] in
theorem oblivious_intact (w b w2 b2 : List Nat → T) (c : T) : IntactNet (obliviousNet w b w2 b2 c) := by
  have n : IntactOpt (none : Option (Tensor T)) := intactOpt_none
  refine ⟨fun l hl => ?_, fun o ho => ?_⟩
  · simp only [obliviousNet, List.mem_cons, List.not_mem_nil, or_false] at hl
    rcases hl with rfl | rfl | rfl | rfl | rfl | rfl | rfl
    · exact ⟨intact_ofFn ⟨by simp, by simp, by norm_num⟩ _, intact_ofFn ⟨by simp, by simp, by norm_num⟩ _, n, n, n⟩
    · exact n
    · exact n
    · trivial
    · exact n
    · exact ⟨intact_ofFn ⟨by simp, by simp, by norm_num⟩ _, intact_ofFn ⟨by simp, by simp, by norm_num⟩ _, n, n, n⟩
    · exact n
  · cases ho
    exact ⟨fun _ => n, fun _ => n⟩

end

/-- A training and a prediction of that classifier, over the real and over the rational numbers (with any functions for `exp` and the
like): whatever the weights, the images and the labels are, the two runs end in the same way. -/
example [MathFn ℚ] (w b w2 b2 : List Nat → ℝ) (c : ℝ) (w' b' w2' b2' : List Nat → ℚ) (c' : ℚ) (x y z : List Nat → ℝ) (x' y' z' : List Nat → ℚ)
    (E : Engine Unit ℝ) (E' : Engine Unit ℚ) : List.Forall₂ (SameOutcome (List.Forall₂ SameForm))
      (outcomes E [.train [ofFn [1, 1, 3, 3] x] [ofFn [1, 3] y] 5, .mode false, .predict (ofFn [1, 1, 3, 3] z)] (obliviousNet w b w2 b2 c))
      (outcomes E' [.train [ofFn [1, 1, 3, 3] x'] [ofFn [1, 3] y'] 5, .mode false, .predict (ofFn [1, 1, 3, 3] z')] (obliviousNet w' b' w2' b2' c')) := by
  have hd : Dims [1, 1, 3, 3] := ⟨by simp, by simp, by norm_num⟩
  refine C104_history ⟨fun n => by rw [Nat.cast_eq_zero, Nat.cast_eq_zero], fun n => by rw [Int.cast_eq_zero, Int.cast_eq_zero]⟩ E E' ?_ ?_
    (oblivious_same _ _ _ _ _ _ _ _ _ _) (oblivious_intact _ _ _ _ _)
  · exact .cons ⟨.cons (form_ofFn _ _ _) .nil, .cons (form_ofFn _ _ _) .nil, rfl⟩ (.cons rfl (.cons (form_ofFn _ _ _) .nil))
  · intro v hv
    simp only [List.mem_cons, List.not_mem_nil, or_false] at hv
    rcases hv with rfl | rfl | rfl
    · intro t ht
      rw [List.mem_singleton.1 ht]
      exact intact_ofFn hd _
    · trivial
    · exact intact_ofFn hd _

/-- A dense layer, ReLU and softmax with cross entropy and Adam, in any arithmetic in which no whole number but zero is zero:
whatever the numbers are, every training on batches of two rows succeeds. -/
example {T' : Type} [Zero T'] [One T'] [Add T'] [Sub T'] [Mul T'] [Div T'] [Neg T'] [NatCast T']
    [IntCast T'] [LT T'] [DecidableLT T'] [LE T'] [DecidableLE T'] [DecidableEq T'] [MathFn T'] (hz : SameZeros ℝ T') (E' : Engine Unit T')
    (w b : List Nat → T') (o : AdamOptions T') (eps : T') (x y : List Nat → T') (epochs : Int) :
    (trainCall E' [ofFn [2, 4] x] [ofFn [2, 3] y] epochs
      { layers := [⟨.fc ⟨ofFn [4, 3] w, ofFn [1, 3] b, none, none, none⟩, true⟩, ⟨.activation ⟨.relu, none⟩, true⟩, ⟨.activation ⟨.softmax, none⟩, true⟩]
        loss := some (.crossEntropy eps), optimizer := some (.newAdam o), rng := () }).1 = .ok () := by
  have d1 : Dims [2, 4] := ⟨by simp, by simp, by norm_num⟩
  have d2 : Dims [4, 3] := ⟨by simp, by simp, by norm_num⟩
  have d3 : Dims [2, 3] := ⟨by simp, by simp, by norm_num⟩
  have n : IntactOpt (none : Option (Tensor ℝ)) := intactOpt_none
  let ls : List (Layer ℝ) := [⟨.fc ⟨ofFn [4, 3] fun _ => 0, ofFn [1, 3] fun _ => 0, none, none, none⟩, true⟩, ⟨.activation ⟨.relu, none⟩, true⟩,
    ⟨.activation ⟨.softmax, none⟩, true⟩]
  have hw := (C67_compiled (ρ := Unit) ⟨ls, none, none, ()⟩ (.crossEntropy 0) (ds := [2, 4]) (es := [2, 3])
    (.cons (.dense d1 d2 d3 rfl rfl) (.cons (.elementwise d3 nofun) (.cons (.softmax d3 (by simp) rfl) (.nil _)))) ⟨2, 3, rfl, d3⟩
    ⟨0, 0, 0, 0, false⟩ ⟨0, 0, 0, 0, false, 0⟩ ⟨0, 0, 0, 0, 0, 0, 0, 1, 0⟩).2.2
  refine ((C104_well_shaped hz ⟨fun _ => (), fun _ u => (0, u)⟩ E' ?_ ⟨fun l hl => ?_, fun o ho => ?_⟩ d1 hw).2 epochs (by simp) (by simp) (by simp) (by simp)).1
  · exact ⟨.cons ⟨⟨form_ofFn _ _ _, form_ofFn _ _ _, trivial, trivial, trivial⟩, rfl⟩ (.cons ⟨⟨trivial, trivial⟩, rfl⟩ (.cons ⟨⟨trivial, trivial⟩, rfl⟩ .nil)),
      trivial, fun _ => trivial, fun _ => trivial⟩
  · simp only [Net.compile, ls, List.mem_cons, List.not_mem_nil, or_false] at hl
    rcases hl with rfl | rfl | rfl
    · exact ⟨intact_ofFn d2 _, intact_ofFn ⟨by simp, by simp, by norm_num⟩ _, n, n, n⟩
    · exact n
    · exact n
  · cases ho
    exact ⟨fun _ => n, fun _ => n⟩

/-- Dividing by zero and by one. -/
example : (ofFn [2] fun _ => (1 : ℝ)).divScalar 0 = .error .invalidArgument ∧ ∃ r, (ofFn [2] fun _ => (1 : ℝ)).divScalar 1 = .ok r :=
  have ht : Intact (ofFn [2] fun _ => (1 : ℝ)) := intact_ofFn ⟨by simp, by simp, by norm_num⟩ _
  ⟨(C104_divide ht 0).1 rfl, let ⟨r, h, _⟩ := (C104_divide ht 1).2 one_ne_zero; ⟨r, h⟩⟩

end SmartDNN
