import Verif.Proofs.Intact
import Verif.Props.Linear
import Verif.Props.Activations

/-!
# C101: every tensor that comes out of the library agrees with its shape
-/

namespace SmartDNN
open Net Spec

section
variable {ρ T : Type} [Zero T] [One T] [Add T] [Sub T] [Mul T] [Div T] [Neg T] [NatCast T] [IntCast T]
  [LT T] [DecidableLT T] [LE T] [DecidableLE T] [DecidableEq T] [MathFn T]

/-- **C101 (operations).** Every tensor a program can get hold of has as many elements as its shape says, and its shape is consistent:
at least one dimension, all positive, size and strides computed from them. -/
theorem C101_operations (E : Engine ρ T) {t : Tensor T} (h : Reachable E t) : Intact t := by
  induction h with
  | full h v => exact intact_full (good_make _ _ h) v
  | zeros h => exact intact_zeros (good_make _ _ h)
  | fromList h vs e => exact intact_fromList (good_make _ _ h) vs _ e
  | fromPtr h vs e => exact intact_fromPtr (good_make _ _ h) vs _ e
  | identity h e => exact intact_identity _ h _ e
  | zerosN e => exact gives_bind (P := Intact) (good_make _) (fun s hs => gives_pure (intact_full hs _)) _ e
  | onesN e => exact gives_bind (P := Intact) (good_make _) (fun s hs => gives_pure (intact_full hs _)) _ e
  | rand h e => exact intact_rand E (good_make _ _ h) _ _ e
  | randn h e => exact intact_createRandom E (good_make _ _ h) _ _ _ _ e
  | set _ e ih => exact intact_set ih _ _ _ e
  | setAt _ e ih => exact intact_setAt ih _ _ _ e
  | modifyAt _ e ih => exact intact_modifyAt ih _ _ _ e
  | fill _ e ih => exact intact_fill ih _ _ e
  | @reshape t ds _ ih =>
    rcases hr : Shape.reshapeM ds t.shape with ⟨e | u, s'⟩
    · have : s' = t.shape := by
        rw [reshapeM_eq] at hr
        split at hr
        · cases hr; rfl
        · split at hr
          · cases hr; rfl
          · split at hr <;> cases hr
            rfl
      unfold Tensor.reshapeM
      rw [hr, this]
      exact ih
    · refine intact_reshape ih ds _ ?_
      unfold Tensor.reshape Mut.exec Tensor.reshapeM
      rw [hr]
  | reshaped _ e ih => exact intact_reshaped ih _ _ e
  | slice _ e _ => exact intact_slice _ _ _ _ e
  | add _ _ e _ _ => exact intact_binop _ _ _ _ e
  | sub _ _ e _ _ => exact intact_binop _ _ _ _ e
  | mul _ _ e _ _ => exact intact_binop _ _ _ _ e
  | div _ _ e _ _ => exact intact_binop _ _ _ _ e
  | inPlace op b _ ih => exact (intact_inPlace op b _ ih).1
  | apply _ e ih => exact intact_map ih _ _ e
  | mapInPlace _ e ih => exact intact_mapInPlace ih _ _ e
  | addScalar _ e ih => exact intact_map ih _ _ e
  | subScalar _ e ih => exact intact_map ih _ _ e
  | mulScalar _ e ih => exact intact_map ih _ _ e
  | divScalar _ e ih => exact intact_divScalar ih _ _ e
  | neg _ e ih => exact intact_map ih _ _ e
  | scalarSub _ e ih => exact gives_bind (P := Intact) (intact_map ih _) (fun _ h => intact_map h _) _ e
  | scalarDiv _ e ih => exact intact_scalarDiv _ ih _ e
  | applyPair _ _ e ih _ => exact intact_applyPair ih _ _ _ e
  | reciprocal _ e ih => exact intact_map ih _ _ e
  | sumAll _ e _ => exact intact_sumAll _ _ e
  | sumAxis _ e _ => exact intact_sumAxis _ _ _ e
  | sumAxes _ e _ => exact intact_sumAxes _ _ _ e
  | meanAll _ e _ => exact intact_meanAll _ _ e
  | meanAxes _ e ih => exact intact_meanAxes ih _ _ e
  | varianceAll _ _ e _ _ => exact intact_varianceAll _ _ _ e
  | varianceAxes _ _ e _ ih => exact intact_varianceAxes _ ih _ _ e
  | transpose _ e _ => exact intact_transpose _ _ _ _ e
  | matmul _ _ e _ _ => exact intact_matmul _ _ _ e
  | activate a _ e ih => exact intact_actForward a ih _ e
  | activateBack a _ _ e ih _ => exact intact_actBackward a ih _ _ e
  | loss L _ _ e _ _ => exact intact_compute L _ _ _ e
  | lossBack L _ _ e ih _ => exact intact_gradient L ih _ _ e
  | im2col _ e _ => exact intact_im2col _ _ _ _ _ _ _ e
  | col2im _ hs e _ => exact intact_col2im _ (good_make _ _ hs) _ _ _ _ _ _ e

omit [Zero T] [One T] [Add T] [Sub T] [Mul T] [Div T] [Neg T] [NatCast T] [IntCast T]
  [LT T] [DecidableLT T] [LE T] [DecidableLE T] [DecidableEq T] [MathFn T] in
/-- **C101 (what it means).** A tensor of fewer than 2³¹ elements is intact exactly if it is an array over all the index tuples of some
positive dimensions: the form in which the other theorems take their arguments.  So they speak about every tensor a program can get. -/
theorem C101_form (t : Tensor T) (hs : (t.shape.dims.map Int.toNat).prod < 2 ^ 31) :
    Intact t ↔ ∃ ds f, Dims ds ∧ t = ofFn ds f := by
  constructor
  · intro h
    obtain ⟨hne, hpos⟩ := make_ok_iff.1 ⟨_, h.1⟩
    have hi : ints (t.shape.dims.map Int.toNat) = t.shape.dims := by
      unfold ints
      rw [List.map_map]
      conv_rhs => rw [← List.map_id t.shape.dims]
      exact List.map_congr_left fun d hd => Int.toNat_of_nonneg (hpos d hd).le
    have hd : Dims (t.shape.dims.map Int.toNat) := ⟨by simpa using hne, by
      intro d hd
      obtain ⟨e, he, rfl⟩ := List.mem_map.1 hd
      have := hpos e he
      omega, hs⟩
    have hsh : t.shape = shapeOf (t.shape.dims.map Int.toNat) := by
      have h1 := make_dims hd
      rw [hi] at h1
      exact Except.ok.inj (h.1.symm.trans h1)
    obtain ⟨f, hf⟩ := exists_ofFn hd hsh (by rw [h.2]; exact congrArg Shape.size hsh)
    exact ⟨_, f, hd, hf⟩
  · rintro ⟨ds, f, hd, rfl⟩
    exact ⟨make_dims hd, by simp⟩

/-- **C101 (models).** Through any history of calls of a model (training, prediction in either mode, gradients, updates, changes of mode,
loss, optimizer and layers), with calls that fail in between, every tensor the model owns and every tensor it hands out stays
intact, if the data it is given is. -/
theorem C101_model (E : Engine ρ T) (vs : List (Visit T)) {net : Net ρ T} (h : IntactNet net) (hv : ∀ v ∈ vs, v.Proper) :
    IntactNet (visits E vs net).1 ∧ ∀ t ∈ (visits E vs net).2, Intact t := by
  induction vs generalizing net with
  | nil => exact ⟨h, by simp [visits]⟩
  | cons v vs ih =>
    obtain ⟨a, b⟩ := intact_visit E h (hv v (by simp))
    obtain ⟨c, d⟩ := ih a fun w hw => hv w (by simp [hw])
    exact ⟨c, fun t ht => (List.mem_append.1 ht).elim (b t) (d t)⟩

omit [Add T] [Sub T] [Mul T] [Div T] [Neg T] [NatCast T] [IntCast T] [LE T] [DecidableLE T] [DecidableEq T] [MathFn T] in
/-- **C101 (constructors).** A new model, new layers and new optimizers are intact. -/
theorem C101_new (E : Engine ρ T) (r : ρ) (b : Bool) :
    IntactNet (Net.new r : Net ρ T) ∧
    (∀ n m l r', FC.new E n m r = .ok (l, r') → IntactLayer ⟨.fc l, b⟩) ∧
    (∀ ic oc kh kw s p d l r', Conv.new E ic oc kh kw s p d r = .ok (l, r') → IntactLayer ⟨.conv l, b⟩) ∧
    (∀ n e m re l, BatchNorm.new n e m re = .ok l → IntactLayer (T := T) ⟨.batchNorm l, b⟩) ∧
    (∀ ni ps s p, IntactLayer (T := T) ⟨.maxPool (.new ni ps s p), b⟩) ∧
    (∀ rate, IntactLayer (T := T) ⟨.dropout ⟨rate, none⟩, b⟩) ∧
    (∀ a, IntactLayer (T := T) ⟨.activation ⟨a, none⟩, b⟩) ∧
    IntactLayer (T := T) ⟨.flatten {}, b⟩ ∧
    (∀ o, IntactOptimizer (K := Nat × Bool) (T := T) (.newSGD o)) ∧
    (∀ o, IntactOptimizer (K := Nat × Bool) (T := T) (.newRMSProp o)) ∧
    (∀ o, IntactOptimizer (K := Nat × Bool) (T := T) (.newAdam o)) := by
  refine ⟨⟨by simp [Net.new], by simp [Net.new]⟩, ?_, ?_, ?_, fun _ _ _ _ => intactOpt_none, fun _ => intactOpt_none, fun _ => intactOpt_none, trivial,
    fun _ _ => intactOpt_none, fun _ => ⟨fun _ => intactOpt_none, fun _ => intactOpt_none, fun _ => intactOpt_none⟩,
    fun _ => ⟨fun _ => intactOpt_none, fun _ => intactOpt_none⟩⟩
  · intro n m l r' h
    refine gives_bind (P := fun p : FC T × ρ => IntactFC p.1) (good_make _) (fun s hs => gives_bind (intact_rand E hs r) fun w hw => gives_bind (good_make _) fun sb hsb => gives_pure ?_) (l, r') h
    exact ⟨hw, intact_zeros hsb, intactOpt_none, intactOpt_none, intactOpt_none⟩
  · intro ic oc kh kw st p d l r' h
    refine gives_bind (P := fun p : Conv T × ρ => IntactConv p.1) (good_make _) (fun s hs => gives_bind (intact_rand E hs r) fun w hw => gives_bind (good_make _) fun sb hsb => gives_pure ?_) (l, r') h
    exact ⟨hw, intact_zeros hsb, intactOpt_none, intactOpt_none, intactOpt_none⟩
  · intro n e m re l h
    refine gives_bind (P := fun l : BatchNorm T => IntactBN l) (good_make _) (fun s hs => gives_pure ?_) l h
    exact ⟨intact_full hs _, intact_full hs _, intact_full hs _, intact_full hs _, intactOpt_none, intactOpt_none, intactOpt_none, intactOpt_none, intactOpt_none⟩

omit [Zero T] [One T] [Add T] [Sub T] [Mul T] [Div T] [Neg T] [NatCast T] [IntCast T]
  [LT T] [DecidableLT T] [LE T] [DecidableLE T] [DecidableEq T] [MathFn T] in
/-- **C101 (setters).** The setters of the layers keep a layer intact, if they are given intact tensors; also when they throw. -/
theorem C101_setters {w : Tensor T} (hw : Intact w) :
    (∀ l : FC T, IntactFC l → IntactFC (FC.setWeights w l).2 ∧ IntactFC (FC.setBiases w l).2 ∧ IntactFC (FC.setWeightGradient w l).2 ∧
      IntactFC (FC.setBiasGradient w l).2) ∧
    (∀ l : Conv T, IntactConv l → IntactConv (Conv.setWeights w l).2 ∧ IntactConv (Conv.setBiases w l).2) := by
  refine ⟨fun l h => ⟨{ h with weights := hw }, ?_, { h with weightGradients := intactOpt_some hw }, { h with biasGradients := intactOpt_some hw }⟩,
    fun l h => ⟨{ h with weights := hw }, { h with biases := hw }⟩⟩
  unfold FC.setBiases
  exact (mgives_ite (P := fun _ => True) (mgives_lift (gives_error _)) (mgives_any (mgives_lift gives_true) fun _ =>
    mgives_ite (mgives_lift (gives_error _)) (mgives_modify fun l h => { h with biases := hw })) l h).1

end

/-- A chain of operations: a 2×3 matrix of twos is transposed and multiplied by the original; the result is 3×3. -/
example (E : Engine Unit ℝ) : ∃ t : Tensor ℝ, Reachable E t ∧ t.shape.dims = [3, 3] := by
  have h1 : Reachable E (Tensor.full (shapeOf [2, 3]) (2 : ℝ)) := .full (ds := [2, 3]) rfl 2
  have h2 : Reachable E (ofFn [3, 2] fun _ => (2 : ℝ)) :=
    .transpose (i := 0) (j := 1) h1 (C14_transpose [2, 3] ⟨by simp, by simp, by simp⟩ 0 1 (by simp) (by simp) fun _ => (2 : ℝ))
  exact ⟨_, .matmul h2 h1 (C15_product 3 2 3 ⟨by simp, by simp, by simp⟩ (fun _ => (2 : ℝ)) fun _ => 2), rfl⟩

/-- A history with failing calls: an update before `compile`, training without a target, a gradient through a layer that has
seen no input.  The prediction at the end is handed out. -/
example (E : Engine Unit ℝ) (f : List Nat → ℝ) (loss : Loss ℝ) (o : AdamOptions ℝ) :
    let vs : List (Visit ℝ) := [.addLayer ⟨.activation ⟨.relu, none⟩, true⟩, .backward (ofFn [2] f), .updateWeights, .compile loss (.newAdam o),
      .train [ofFn [2, 2] f] [] 3, .mode false, .predict (ofFn [2] f)]
    (∀ v ∈ vs, v.Proper) ∧ IntactNet (Net.new () : Net Unit ℝ) ∧
      ofFn [2] (fun i => relu (f i)) ∈ (visits E [.addLayer ⟨.activation ⟨.relu, none⟩, true⟩, .predict (ofFn [2] f)] (Net.new ())).2 := by
  have hd : ∀ ds, Dims ds → Intact (ofFn ds f) := fun ds h => ⟨make_dims h, by simp⟩
  have h2 : Intact (ofFn [2] f) := hd _ ⟨by simp, by simp, by simp⟩
  have h22 : Intact (ofFn [2, 2] f) := hd _ ⟨by simp, by simp, by simp⟩
  have hn := C101_new E () true
  refine ⟨?_, hn.1, ?_⟩
  · intro v hv
    simp only [List.mem_cons, List.not_mem_nil, or_false] at hv
    rcases hv with rfl | rfl | rfl | rfl | rfl | rfl | rfl
    · exact hn.2.2.2.2.2.2.1 _
    · exact h2
    · trivial
    · exact hn.2.2.2.2.2.2.2.2.2.2 o
    · intro x hx
      exact List.mem_singleton.1 hx ▸ h22
    · trivial
    · exact h2
  · have : Act.relu.forward (ofFn [2] f) = .ok (ofFn [2] fun i => relu (f i)) := C25_relu_forward [2] f
    have hf : Layer.forward E (ofFn [2] f) ((⟨.activation ⟨.relu, none⟩, true⟩ : Layer ℝ), ()) =
        (Act.relu.forward (ofFn [2] f), ⟨.activation ⟨.relu, some (ofFn [2] f)⟩, true⟩, ()) := rfl
    rw [this] at hf
    simp [visits, Visit.apply, Net.new, Net.addLayer, Net.predict, Net.forwardLayers, hf, handed]

end SmartDNN
