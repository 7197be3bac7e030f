import Verif.Spec.AnswersAll

/-!
# Batch normalisation and padded pooling on data of any shape
-/

namespace SmartDNN
open Net Spec

/-- Batches of vectors and of images with a variable number of features, and the matching dimensions of one value per feature. -/
inductive NormKind : (Nat → List Nat) → (Nat → List Nat) → Prop
  | two (n : Nat) : NormKind (fun k => [n, k]) fun k => [1, k]
  | four (n h w : Nat) : NormKind (fun k => [n, k, h, w]) fun k => [1, k, 1, 1]

section
variable {D C : Nat → List Nat} {G F : Nat}

theorem NormKind.shape (h : NormKind D C) (k : Nat) : BNShape k (D k) (C k) := by
  cases h with
  | two n => exact .two n
  | four n h w => exact .four n h w

theorem NormKind.unit (h : NormKind D C) (k : Nat) : BNShape k (C k) (C k) := by
  cases h with
  | two n => exact .two 1
  | four n h w => exact .four 1 1 1

theorem NormKind.dimsC (h : NormKind D C) (hd : Dims [1, F]) : Dims (C F) := by
  cases h with
  | two n => exact hd
  | four n h w => exact ⟨by simp, by simpa using hd.pos, by simpa using hd.lt⟩

theorem NormKind.compat (h : NormKind D C) : Compat (D G) (C F) ↔ G = F ∨ G = 1 ∨ F = 1 := by
  cases h with
  | two n =>
    constructor
    · intro h; exact h 0
    · intro h i
      rcases i with _ | _ | i
      · exact h
      · right; right; rfl
      · left; rw [dimR_cons_lt _ (by simp), dimR_cons_lt _ (by simp)]
  | four n a b =>
    constructor
    · intro h; exact h 2
    · intro h i
      rcases i with _ | _ | _ | _ | i
      · right; right; rfl
      · right; right; rfl
      · exact h
      · right; right; rfl
      · left; rw [dimR_cons_lt _ (by simp), dimR_cons_lt _ (by simp)]

theorem NormKind.bdims (h : NormKind D C) (hd : Dims (D G)) : bdims (D G) (C F) = D (max G F) := by
  cases h with
  | two n =>
    have hn := hd.pos n (by simp)
    simp [Spec.bdims, dimR, List.range, List.range.loop]
    omega
  | four n a b =>
    have hn := hd.pos n (by simp)
    have hn := hd.pos a (by simp)
    have hn := hd.pos b (by simp)
    simp [Spec.bdims, dimR, List.range, List.range.loop]
    omega

theorem NormKind.ok (h : NormKind D C) (op : ℝ → ℝ → ℝ) (hd : Dims (D G)) (hf : Dims [1, F]) (hc : G = F ∨ G = 1 ∨ F = 1) (f p : List Nat → ℝ) :
    ∃ g, (ofFn (D G) f).binop op (ofFn (C F) p) = .ok (ofFn (D (max G F)) g) := by
  rw [binop_ofFn op hd (h.dimsC hf) (h.compat.2 hc), h.bdims hd]
  exact ⟨_, rfl⟩

theorem NormKind.err (h : NormKind D C) (op : ℝ → ℝ → ℝ) (hc : ¬ (G = F ∨ G = 1 ∨ F = 1)) (f p : List Nat → ℝ) :
    (ofFn (D G) f).binop op (ofFn (C F) p) = .error .invalidArgument := binop_err op (fun hh => hc (h.compat.1 hh)) f p

theorem rfb_rank {t : Tensor ℝ} {a b : List Nat} (h : a.length = b.length) : BatchNorm.reshapeForBroadcast t (shapeOf a) = BatchNorm.reshapeForBroadcast t (shapeOf b) := by
  have : (shapeOf a).rank = (shapeOf b).rank := by simpa using h
  unfold BatchNorm.reshapeForBroadcast
  rw [this]

theorem NormKind.rfb (h : NormKind D C) (hf : Dims [1, F]) (p : List Nat → ℝ) :
    BatchNorm.reshapeForBroadcast (ofFn [1, F] p) (shapeOf (D G)) = .ok (ofFn (C F) fun i => p [0, i.getD 1 0]) := by
  rw [rfb_rank (b := C F) (by cases h <;> rfl)]
  exact rfb_row (h.unit F) (h.dimsC hf) p

theorem NormKind.blend (h : NormKind D C) (hd : Dims (D G)) (hf : Dims [1, F]) (hc : G = F ∨ G = 1 ∨ F = 1) (mom : ℝ) (p q : List Nat → ℝ) :
    ∃ t, BatchNorm.blend mom (ofFn [1, F] p) (ofFn (C G) q) = .ok t := by
  unfold BatchNorm.blend Tensor.add
  rw [mulScalar_ofFn]
  simp only [Except.bind_ok']
  rw [mulScalar_ofFn]
  simp only [Except.bind_ok']
  rw [binop_ofFn _ hf ((h.shape G).dims hd)]
  · exact ⟨_, rfl⟩
  · cases h with
    | two n =>
      intro i
      rcases i with _ | _ | i
      · show F = G ∨ F = 1 ∨ G = 1
        omega
      · right; right; rfl
      · left; rw [dimR_cons_lt _ (by simp), dimR_cons_lt _ (by simp)]
    | four n a b =>
      intro i
      rcases i with _ | _ | _ | _ | i
      · right; right; rfl
      · right; right; rfl
      · right; left; rfl
      · right; left; rfl
      · left; rw [dimR_cons_lt _ (by simp), dimR_cons_lt _ (by simp)]

/-- What batch normalisation does with a batch of `G` features if it is made for `F`. -/
theorem norm_forward (h : NormKind D C) (hd : Dims (D G)) (hf : Dims [1, F]) (hmax : (G = F ∨ G = 1 ∨ F = 1) → Dims (D (max G F))) (mode : Bool) (l : BatchNorm ℝ)
    {γ β m v : List Nat → ℝ} (hγ : l.gamma = ofFn [1, F] γ) (hβ : l.beta = ofFn [1, F] β)
    (hm : l.runningMean = ofFn [1, F] m) (hv : l.runningVariance = ofFn [1, F] v) (f : List Nat → ℝ) :
    ((G = F ∨ G = 1 ∨ F = 1) → ∃ g, (BatchNorm.forward mode (ofFn (D G) f) l).1 = .ok (ofFn (D (max G F)) g)) ∧
    (¬ (G = F ∨ G = 1 ∨ F = 1) → (BatchNorm.forward mode (ofFn (D G) f) l).1 = .error .invalidArgument) := by
  have hS := h.shape G
  have hrank : ¬((ofFn (D G) f).shape.rank ≠ 2 ∧ (ofFn (D G) f).shape.rank ≠ 4) := by
    cases h <;> simp
  have hmm : max (max G F) F = max G F := by omega
  have hcc : (G = F ∨ G = 1 ∨ F = 1) → (max G F = F ∨ max G F = 1 ∨ F = 1) := by
    have := hf.pos F (by simp)
    omega
  cases mode with
  | true =>
    unfold BatchNorm.forward
    rw [if_neg hrank, if_pos rfl, ofFn_shape, Mut.get_bind, bn_mean hS hd, Mut.lift_ok_bind, Mut.modify_bind, bn_var hS hd,
      Mut.lift_ok_bind, Mut.modify_bind, rfb_chan hS hd, Mut.lift_ok_bind, rfb_chan hS hd, Mut.lift_ok_bind, hγ,
      h.rfb hf, Mut.lift_ok_bind, hβ, h.rfb hf, Mut.lift_ok_bind]
    have hn : BatchNorm.normalise (ofFn (D G) f) (ofFn (C G) (fun i => featMean (D G) f (i.getD 1 0)))
        (ofFn (C G) (fun i => featVar (D G) f (i.getD 1 0))) l.epsilon =
        .ok (ofFn (D G) (fun i => (f i - featMean (D G) f (i.getD 1 0)) / Real.sqrt (featVar (D G) f (i.getD 1 0) + l.epsilon))) :=
      bn_normalise hS hd f (fun i => featMean (D G) f (i.getD 1 0)) (fun i => featVar (D G) f (i.getD 1 0)) l.epsilon
    rw [hn, Mut.lift_ok_bind, Mut.modify_bind]
    refine ⟨fun hc => ?_, fun hc => ?_⟩
    · obtain ⟨g1, e1⟩ := h.ok (fun a b => a * b) hd hf hc (fun i => (f i - featMean (D G) f (i.getD 1 0)) / Real.sqrt (featVar (D G) f (i.getD 1 0) + l.epsilon)) fun i => γ [0, i.getD 1 0]
      obtain ⟨g2, e2⟩ := h.ok (fun a b => a + b) (hmax hc) hf (hcc hc) g1 fun i => β [0, i.getD 1 0]
      rw [hmm] at e2
      have e3 : BatchNorm.scaleShift (ofFn (D G) (fun i => (f i - featMean (D G) f (i.getD 1 0)) / Real.sqrt (featVar (D G) f (i.getD 1 0) + l.epsilon)))
          (ofFn (C F) fun i => γ [0, i.getD 1 0]) (ofFn (C F) fun i => β [0, i.getD 1 0]) = .ok (ofFn (D (max G F)) g2) := by
        unfold BatchNorm.scaleShift Tensor.mul Tensor.add
        rw [e1]
        exact e2
      obtain ⟨t1, b1⟩ := h.blend hd hf hc l.momentum m fun i => featMean (D G) f (i.getD 1 0)
      obtain ⟨t2, b2⟩ := h.blend hd hf hc l.momentum v fun i => featVar (D G) f (i.getD 1 0)
      rw [e3, Mut.lift_ok_bind, hm, b1, Mut.lift_ok_bind, Mut.modify_bind, hv, b2, Mut.lift_ok_bind, Mut.modify_bind]
      exact ⟨g2, rfl⟩
    · have e3 : BatchNorm.scaleShift (ofFn (D G) (fun i => (f i - featMean (D G) f (i.getD 1 0)) / Real.sqrt (featVar (D G) f (i.getD 1 0) + l.epsilon)))
          (ofFn (C F) fun i => γ [0, i.getD 1 0]) (ofFn (C F) fun i => β [0, i.getD 1 0]) = .error .invalidArgument := by
        unfold BatchNorm.scaleShift Tensor.mul Tensor.add
        rw [h.err (fun a b => a * b) hc]
        rfl
      rw [e3]
      rfl
  | false =>
    unfold BatchNorm.forward
    rw [if_neg hrank, if_neg (by simp), ofFn_shape, Mut.get_bind, hm, h.rfb hf, Mut.lift_ok_bind, hv, h.rfb hf, Mut.lift_ok_bind, hγ,
      h.rfb hf, Mut.lift_ok_bind, hβ, h.rfb hf, Mut.lift_ok_bind]
    refine ⟨fun hc => ?_, fun hc => ?_⟩
    · obtain ⟨g1, e1⟩ := h.ok (fun a b => a - b) hd hf hc f fun i => m [0, i.getD 1 0]
      obtain ⟨g2, e2⟩ := h.ok (fun a b => a / b) (hmax hc) hf (hcc hc) g1 fun i => Real.sqrt (v [0, i.getD 1 0] + l.epsilon)
      rw [hmm] at e2
      have hn : BatchNorm.normalise (ofFn (D G) f) (ofFn (C F) fun i => m [0, i.getD 1 0]) (ofFn (C F) fun i => v [0, i.getD 1 0]) l.epsilon = .ok (ofFn (D (max G F)) g2) := by
        unfold BatchNorm.normalise Tensor.sub Tensor.addScalar Tensor.apply Tensor.div
        rw [e1]
        simp only [Except.bind_ok']
        rw [map_ofFn]
        simp only [Except.bind_ok']
        rw [map_ofFn]
        simp only [Except.bind_ok']
        exact e2
      obtain ⟨g3, e3⟩ := h.ok (fun a b => a * b) (hmax hc) hf (hcc hc) g2 fun i => γ [0, i.getD 1 0]
      rw [hmm] at e3
      obtain ⟨g4, e4⟩ := h.ok (fun a b => a + b) (hmax hc) hf (hcc hc) g3 fun i => β [0, i.getD 1 0]
      rw [hmm] at e4
      rw [hn, Mut.lift_ok_bind, Mut.lift_apply]
      refine ⟨g4, ?_⟩
      unfold BatchNorm.scaleShift Tensor.mul Tensor.add
      show (((ofFn (D (max G F)) g2).binop (fun a b => a * b) _).bind _) = _
      rw [e3]
      exact e4
    · have hn : BatchNorm.normalise (ofFn (D G) f) (ofFn (C F) fun i => m [0, i.getD 1 0]) (ofFn (C F) fun i => v [0, i.getD 1 0]) l.epsilon = .error .invalidArgument := by
        unfold BatchNorm.normalise Tensor.sub Tensor.addScalar Tensor.apply Tensor.div
        rw [h.err (fun a b => a - b) hc]
        rfl
      rw [hn]
      rfl

end

end SmartDNN
