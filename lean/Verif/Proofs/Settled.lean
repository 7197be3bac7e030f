import Verif.Spec.Settled
import Verif.Props.Range
import Verif.Props.Interrupted
import Verif.Props.Frozen
import Verif.Props.Classifier

/-!
# Zero gradients and what they leave unchanged: helper lemmas for C103
-/

namespace SmartDNN
open Net Spec

/-- All elements are zero. -/
abbrev Zeroed (t : Tensor ℝ) : Prop := Elements (fun x => x = 0) t

section
variable {ρ : Type}

theorem rd_elements {P : ℝ → Prop} {d : List ℝ} (h : ∀ x ∈ d, P x) (i : Int) : Gives P (rd d i) := by
  intro x e
  unfold rd at e
  split at e
  · split at e
    · next z hz =>
      cases e
      exact h _ (List.mem_of_getElem? hz)
    · cases e
  · cases e

theorem wr_elements {P : ℝ → Prop} {d : List ℝ} (h : ∀ x ∈ d, P x) (i : Int) {v : ℝ} (hv : P v) : Gives (fun d' => ∀ x ∈ d', P x) (wr d i v) := by
  intro d' hd
  unfold wr at hd
  split at hd
  · cases hd
    intro x hx
    rcases List.mem_or_eq_of_mem_set hx with h' | rfl
    · exact h x h'
    · exact hv
  · cases hd

theorem at_elements {P : ℝ → Prop} {t : Tensor ℝ} (h : Elements P t) (i : List Int) : Gives P (t.at_ i) := gives_any fun _ => rd_elements h _

theorem get_elements {P : ℝ → Prop} {t : Tensor ℝ} (h : Elements P t) (i : Int) : Gives P (t.get i) := rd_elements h _

theorem setAt_elements {P : ℝ → Prop} {t : Tensor ℝ} (h : Elements P t) (i : List Int) {v : ℝ} (hv : P v) : Gives (Elements P) (t.setAt i v) :=
  gives_any fun _ => gives_bind (wr_elements h _ hv) fun _ hd => gives_pure hd

theorem modifyAt_elements {P : ℝ → Prop} {t : Tensor ℝ} (h : Elements P t) (i : List Int) {f : ℝ → ℝ} (hf : ∀ x, P x → P (f x)) : Gives (Elements P) (t.modifyAt i f) :=
  gives_any fun _ => gives_bind (rd_elements h _) fun x hx => gives_bind (wr_elements h _ (hf x hx)) fun _ hd => gives_pure hd

theorem reshape_buffer (t : Tensor ℝ) (ds : List Int) : Gives (fun y => y.data = t.data) (t.reshape ds) := by
  intro t' e
  unfold Tensor.reshape Mut.exec Tensor.reshapeM at e
  rcases hm : Shape.reshapeM ds t.shape with ⟨e' | u, s'⟩
  · rw [hm] at e
    cases e
  · rw [hm] at e
    cases e
    rfl

theorem reshape_elements {P : ℝ → Prop} {t : Tensor ℝ} (h : Elements P t) (ds : List Int) : Gives (Elements P) (t.reshape ds) :=
  (reshape_buffer t ds).mono fun y hy x hx => h x (hy ▸ hx)

theorem reshaped_elements {P : ℝ → Prop} {t : Tensor ℝ} (h : Elements P t) (ds : List Int) : Gives (Elements P) (t.reshaped ds) :=
  gives_any fun _ => reshape_elements h _

theorem zeros_elements (s : Shape) : Zeroed (Tensor.zeros s) := fun _ hx => List.eq_of_mem_replicate hx

theorem zeroed_full (s : Shape) : Zeroed (Tensor.full s 0) := fun _ hx => List.eq_of_mem_replicate hx

theorem fromList_zero (s : Shape) : Gives Zeroed (Tensor.fromList s [(0 : ℝ)]) := by
  intro t e
  unfold Tensor.fromList at e
  split at e
  · cases e
    intro x hx
    rcases List.mem_append.1 hx with h | h
    · simpa using h
    · exact List.eq_of_mem_replicate h
  · cases e

theorem sumLoop_zero {n : Int} {body : Int → Res ℝ} (h : ∀ i, Gives (fun x => x = 0) (body i)) : Gives (fun x => x = 0) (Tensor.sumLoop n body) :=
  gives_forI rfl fun i s hs => gives_bind (h i) fun x hx => gives_pure (by rw [hs, hx, add_zero])

theorem mul_body {ra rb : Res ℝ} (h : Gives (fun x => x = 0) ra ∨ Gives (fun x => x = 0) rb) : Gives (fun x => x = 0) (do let x ← ra; let y ← rb; return x * y : Res ℝ) := by
  rcases h with h | h
  · exact gives_bind h fun x hx => gives_any fun y => gives_pure (by rw [hx, zero_mul])
  · exact gives_any fun x => gives_bind h fun y hy => gives_pure (by rw [hy, mul_zero])

variable {a b : Tensor ℝ}

theorem zero_dotProduct (h : Zeroed a ∨ Zeroed b) : Gives Zeroed (a.dotProduct b) := by
  unfold Tensor.dotProduct
  refine gives_any fun a0 => gives_any fun b0 => ?_
  by_cases hc : a0 ≠ b0
  · rw [if_pos hc]; exact gives_error _
  · rw [if_neg hc]
    exact gives_bind (sumLoop_zero fun i => mul_body (h.imp (get_elements · _) (get_elements · _))) fun s hs => gives_any fun sh => by rw [hs]; exact fromList_zero sh

theorem zero_matrixVectorMul (h : Zeroed a ∨ Zeroed b) : Gives Zeroed (a.matrixVectorMul b) := by
  unfold Tensor.matrixVectorMul
  refine gives_any fun m => gives_any fun n => gives_any fun b0 => ?_
  by_cases hc : n ≠ b0
  · rw [if_pos hc]; exact gives_error _
  · rw [if_neg hc]
    exact gives_any fun s => gives_forI (zeroed_full _) fun i s hs =>
      gives_bind (sumLoop_zero fun i => mul_body (h.imp (get_elements · _) (get_elements · _))) fun _ hx => elements_set hs _ hx

theorem zero_matrixMatrixMul (h : Zeroed a ∨ Zeroed b) : Gives Zeroed (a.matrixMatrixMul b) := by
  unfold Tensor.matrixMatrixMul
  refine gives_any fun k => gives_any fun b0 => ?_
  by_cases hc : k ≠ b0
  · rw [if_pos hc]; exact gives_error _
  · rw [if_neg hc]
    exact gives_any fun _ => gives_any fun _ => gives_any fun s => gives_forI (zeroed_full _) fun i s hs =>
      gives_forI hs fun j s hs => gives_bind (sumLoop_zero fun i => mul_body (h.imp (get_elements · _) (get_elements · _))) fun _ hx => elements_set hs _ hx

theorem zero_matmul2D3D (h : Zeroed a ∨ Zeroed b) : Gives Zeroed (a.matmul2D3D b) := by
  unfold Tensor.matmul2D3D
  by_cases h0 : a.shape.rank ≠ 2 ∨ b.shape.rank ≠ 3
  · rw [if_pos h0]; exact gives_error _
  · rw [if_neg h0]
    refine gives_any fun k => gives_any fun b0 => ?_
    by_cases hc : k ≠ b0
    · rw [if_pos hc]; exact gives_error _
    · rw [if_neg hc]
      exact gives_any fun _ => gives_any fun _ => gives_any fun _ => gives_any fun s =>
        gives_forI (zeroed_full _) fun i s hs => gives_forI hs fun j s hs => gives_forI hs fun k s hs =>
          gives_bind (sumLoop_zero fun i => mul_body (h.imp (at_elements · _) (at_elements · _))) fun _ hx => setAt_elements hs _ hx

theorem zero_matmul3D2D (h : Zeroed a ∨ Zeroed b) : Gives Zeroed (a.matmul3D2D b) := by
  unfold Tensor.matmul3D2D
  by_cases h0 : a.shape.rank ≠ 3 ∨ b.shape.rank ≠ 2
  · rw [if_pos h0]; exact gives_error _
  · rw [if_neg h0]
    refine gives_any fun k => gives_any fun b0 => ?_
    by_cases hc : k ≠ b0
    · rw [if_pos hc]; exact gives_error _
    · rw [if_neg hc]
      exact gives_any fun _ => gives_any fun _ => gives_any fun _ => gives_any fun s =>
        gives_forI (zeroed_full _) fun i s hs => gives_forI hs fun j s hs => gives_forI hs fun k s hs =>
          gives_bind (sumLoop_zero fun i => mul_body (h.imp (at_elements · _) (at_elements · _))) fun _ hx => setAt_elements hs _ hx

theorem zero_batchedMatmul (h : Zeroed a ∨ Zeroed b) : Gives Zeroed (a.batchedMatmul b) := by
  unfold Tensor.batchedMatmul
  refine gives_ite (zero_matmul3D2D h) (gives_ite (zero_matmul2D3D h) (gives_ite (gives_throw _) (gives_ite (gives_throw _) ?_)))
  refine gives_any fun ka => gives_any fun kb => ?_
  by_cases hc : ka ≠ kb
  · rw [if_pos hc]; exact gives_error _
  · rw [if_neg hc]
    refine gives_any fun m => gives_any fun n => gives_any fun s => gives_bind (Q := fun st : Tensor ℝ × List Int => Zeroed st.1) ?_ fun st hst => gives_pure hst
    refine gives_doWhile (I := fun st : Tensor ℝ × List Int => Zeroed st.1) ?_ _ (zeroed_full _)
    intro st hst
    exact gives_bind (gives_forI hst fun i s hs => gives_forI hs fun j s hs =>
      gives_bind (sumLoop_zero fun i => mul_body (h.imp (at_elements · _) (at_elements · _))) fun _ hx => setAt_elements hs _ hx) fun r hr => gives_pure hr

theorem zero_matmul (h : Zeroed a ∨ Zeroed b) : Gives Zeroed (a.matmul b) := by
  unfold Tensor.matmul
  refine gives_ite (zero_dotProduct h) (gives_ite (zero_matrixMatrixMul h) (gives_ite ?_ (gives_ite (zero_matrixVectorMul h)
    (gives_ite (zero_batchedMatmul h) (gives_throw _)))))
  rcases h with h | h
  · exact gives_any fun _ => gives_bind (reshaped_elements h _) fun ar har => gives_bind (zero_matrixMatrixMul (.inl har)) fun r hr => gives_any fun _ => reshaped_elements hr _
  · exact gives_any fun _ => gives_any fun _ => gives_bind (zero_matrixMatrixMul (.inr h)) fun r hr => gives_any fun _ => reshaped_elements hr _

theorem gives_while {σ : Type} {I : σ → Prop} {cond : σ → Bool} {body : σ → Res σ} (hf : ∀ s, I s → Gives I (body s)) :
    ∀ (n : Nat) {s : σ}, I s → Gives I (whileFuel cond body n s) := by
  intro n
  induction n with
  | zero => intro s h; exact gives_ite (gives_error _) (gives_ok h)
  | succ n ih => intro s h; exact gives_ite (gives_bind (hf s h) fun s' h' => ih h') (gives_ok h)

theorem toList_mem (v : BView) (buf : List ℝ) : Gives (fun ys => ∀ y ∈ ys, y ∈ buf) (v.toList buf) := by
  refine gives_bind (Q := fun st : ViewIter × List ℝ => ∀ y ∈ st.2, y ∈ buf) (gives_while ?_ _ (by simp)) fun st h => gives_pure h
  intro st h
  refine gives_bind (deref_mem v buf st.1) fun x hx => gives_pure ?_
  intro y hy
  rcases List.mem_append.1 hy with h' | h'
  · exact h y h'
  · exact List.mem_singleton.1 h' ▸ hx

theorem zero_mul_right (h : Zeroed b) : Gives Zeroed (a.mul b) := by
  unfold Tensor.mul Tensor.binop
  refine gives_any fun rs => gives_any fun lv => gives_any fun rv => ?_
  dsimp only
  by_cases hc : lv.shape.size ≠ rv.shape.size
  · rw [if_pos hc]
    exact gives_error _
  · rw [if_neg hc]
    refine gives_any fun xs => gives_bind (toList_mem rv b.data) fun ys hy => gives_bind (Q := fun d : List ℝ => ∀ x ∈ d, x = 0) ?_ fun d hd => gives_pure hd
    intro d h6
    unfold Tensor.transform2 at h6
    split at h6
    · cases h6
    · split at h6
      · cases h6
      · cases h6
        intro x hx
        rcases List.mem_append.1 hx with h' | h'
        · obtain ⟨i, hi, rfl⟩ := List.getElem_of_mem h'
          rw [List.getElem_zipWith, h _ (hy _ (List.getElem_mem _)), mul_zero]
        · exact List.eq_of_mem_replicate (List.mem_of_mem_drop h')

theorem zero_sub_self (d : Tensor ℝ) : Gives Zeroed (d.sub d) := by
  unfold Tensor.sub Tensor.binop
  intro y h
  obtain ⟨rs, h1, h⟩ := bind_ok h
  obtain ⟨lv, h2, h⟩ := bind_ok h
  obtain ⟨rv, h3, h⟩ := bind_ok h
  have : rv = lv := Except.ok.inj (h3.symm.trans h2)
  subst this
  dsimp only at h
  rw [if_neg (by simp)] at h
  obtain ⟨xs, h4, h⟩ := bind_ok h
  obtain ⟨ys, h5, h⟩ := bind_ok h
  have : ys = xs := Except.ok.inj (h5.symm.trans h4)
  subst this
  obtain ⟨dd, h6, h⟩ := bind_ok h
  cases h
  unfold Tensor.transform2 at h6
  split at h6
  · cases h6
  · split at h6
    · cases h6
    · cases h6
      intro x hx
      rcases List.mem_append.1 hx with h' | h'
      · rw [List.zipWith_self] at h'
        obtain ⟨z, -, rfl⟩ := List.mem_map.1 h'
        exact sub_self z
      · exact List.eq_of_mem_replicate (List.mem_of_mem_drop h')

theorem zero_map {f : ℝ → ℝ} (hf : f 0 = 0) {t : Tensor ℝ} (h : Zeroed t) : Gives Zeroed (t.map f) := by
  unfold Tensor.map
  refine gives_bind (iter_sub t) fun xs hx => gives_pure fun y hy => ?_
  obtain ⟨x, hx', rfl⟩ := List.mem_map.1 hy
  rw [h x (hx x hx'), hf]

theorem zero_divScalar {t : Tensor ℝ} (h : Zeroed t) (s : ℝ) : Gives Zeroed (t.divScalar s) := by
  unfold Tensor.divScalar
  refine gives_ite (gives_throw _) (gives_bind (iter_sub t) fun xs hx => gives_pure fun y hy => ?_)
  obtain ⟨x, hx', rfl⟩ := List.mem_map.1 hy
  rw [h x (hx x hx'), zero_div]

theorem zero_mulScalar {t : Tensor ℝ} (h : Zeroed t) (s : ℝ) : Gives Zeroed (t.mulScalar s) := by
  unfold Tensor.mulScalar
  refine (gives_bind (iter_sub t) fun xs hx => gives_pure fun y hy => ?_)
  obtain ⟨x, hx', rfl⟩ := List.mem_map.1 hy
  rw [h x (hx x hx'), zero_mul]

theorem zero_applyPair {f : ℝ → ℝ → ℝ} (hf : ∀ x, f x 0 = 0) (h : Zeroed b) : Gives Zeroed (a.applyPair b f) := by
  unfold Tensor.applyPair
  by_cases hc : (!(a.shape.beq b.shape)) = true
  · rw [if_pos hc]; exact gives_error _
  · rw [if_neg hc]
    exact gives_forN (zeros_elements _) fun i s hs => gives_any fun x => gives_bind (get_elements h _) fun y hy => elements_set hs _ (by rw [hy, hf])

theorem zero_softmaxBackward {x g : Tensor ℝ} (h : Zeroed g) : Gives Zeroed (Act.softmaxBackward x g) := by
  unfold Act.softmaxBackward
  by_cases hc : x.shape.rank < 2 ∨ g.shape.rank < 2
  · rw [if_pos hc]; exact gives_error _
  · rw [if_neg hc]
    refine gives_any fun fo => gives_any fun bs => gives_any fun ft => gives_forI (zeros_elements _) fun b s hs => gives_forI hs fun i s hs => gives_bind (Q := fun x : ℝ => x = 0) ?_ fun v hv => elements_set hs _ hv
    refine gives_forI rfl fun j s hs => gives_any fun oi => gives_any fun oj => gives_bind (rd_elements h _) fun g hg => gives_ite (gives_pure ?_) (gives_pure ?_)
    · rw [hs, hg]; ring
    · rw [hs, hg]; ring

theorem zero_actBackward (k : Act ℝ) {x g : Tensor ℝ} (h : Zeroed g) : Gives Zeroed (k.backward x g) := by
  cases k with
  | relu => exact gives_any fun _ => zero_mul_right h
  | leakyRelu alpha => exact zero_applyPair (fun x => by simp) h
  | sigmoid => exact gives_any fun _ => gives_any fun _ => gives_any fun _ => zero_mul_right h
  | tanh => exact gives_any fun _ => zero_mul_right h
  | swish => exact zero_applyPair (fun x => by simp) h
  | mish => exact zero_applyPair (fun x => by simp) h
  | softmax => exact zero_softmaxBackward h

theorem zero_sumAll (h : Zeroed a) : Gives Zeroed a.sumAll := by
  unfold Tensor.sumAll
  refine gives_bind (iter_sub a) fun xs hx => gives_any fun s => gives_pure (elements_full ?_ s)
  have : ∀ (xs : List ℝ), (∀ x ∈ xs, x = 0) → xs.foldl (· + ·) 0 = 0 := by
    intro xs
    induction xs with
    | nil => intro _; rfl
    | cons x xs ih =>
      intro h
      rw [List.foldl_cons, h x (by simp), add_zero]
      exact ih fun y hy => h y (by simp [hy])
  exact this xs fun x hx' => h x (hx x hx')

theorem zero_sumAxis (h : Zeroed a) (k : Nat) : Gives Zeroed (a.sumAxis k) := by
  unfold Tensor.sumAxis
  by_cases hc : k ≥ a.shape.rank
  · rw [if_pos hc]; exact gives_error _
  · rw [if_neg hc]
    refine gives_ite (zero_sumAll h) (gives_any fun s => gives_bind (Q := fun st : Tensor ℝ × List Int => Zeroed st.1) ?_ fun st hst => gives_pure hst)
    exact gives_forN (I := fun st : Tensor ℝ × List Int => Zeroed st.1) (zeroed_full _) fun i st hst => gives_bind (get_elements h _) fun x hx =>
      gives_bind (modifyAt_elements hst _ fun y hy => by rw [hx, hy, add_zero]) fun r hr => gives_pure hr

theorem zero_ensure2D (h : Zeroed a) : Gives Zeroed (FC.ensure2D a) := by
  unfold FC.ensure2D
  exact gives_ite (gives_any fun _ => reshaped_elements h _) (gives_ok h)

end

/-- The gradients a layer has stored are zero. -/
def ZeroGrads (l : Layer ℝ) : Prop :=
  match l.kind with
  | .fc l => (∀ t, l.weightGradients = some t → Zeroed t) ∧ ∀ t, l.biasGradients = some t → Zeroed t
  | .conv l => (∀ t, l.weightGradients = some t → Zeroed t) ∧ ∀ t, l.biasGradients = some t → Zeroed t
  | .batchNorm _ | .dropout _ => False
  | _ => True

/-- No batch normalisation and no dropout. -/
def PlainKind (l : Layer ℝ) : Prop :=
  match l.kind with
  | .batchNorm _ | .dropout _ => False
  | _ => True

section
variable {ρ : Type}

theorem zero_layerBackward {g g' : Tensor ℝ} (hg : Zeroed g) {l : Layer ℝ} (hp : PlainKind l) (h : (Layer.backward g l).1 = .ok g') :
    Zeroed g' ∧ ZeroGrads (Layer.backward g l).2 := by
  obtain ⟨kind, mode⟩ := l
  cases kind with
  | fc k =>
    show Zeroed g' ∧ (∀ t, (FC.backward g k).2.weightGradients = some t → Zeroed t) ∧ ∀ t, (FC.backward g k).2.biasGradients = some t → Zeroed t
    have h : (FC.backward g k).1 = .ok g' := h
    unfold FC.backward at h ⊢
    rw [Mut.get_bind] at h ⊢
    rcases hi : k.input with _ | x
    · rw [hi] at h; cases h
    · rw [hi] at h
      simp only at h ⊢
      obtain ⟨a, -, h, e⟩ := lift_bind_ok h; rw [e]; clear e
      obtain ⟨b, hb, h, e⟩ := lift_bind_ok h; rw [e]; clear e
      obtain ⟨c, hc, h, e⟩ := lift_bind_ok h; rw [e]; clear e
      rw [Mut.modify_bind] at h ⊢
      obtain ⟨d, hd, h, e⟩ := lift_bind_ok h; rw [e]; clear e
      have zb : Zeroed b := zero_ensure2D hg b hb
      refine ⟨?_, ?_, ?_⟩
      · exact gives_any (fun _ => zero_matmul (.inl zb)) g' h
      · intro t ht
        cases ht
        exact gives_any (fun _ => zero_matmul (.inr zb)) c hc
      · intro t ht
        cases ht
        exact gives_bind (zero_sumAxis zb 0) (fun s hs => gives_any fun _ => reshaped_elements hs _) d hd
  | conv k =>
    show Zeroed g' ∧ (∀ t, (Conv.backward g k).2.weightGradients = some t → Zeroed t) ∧ ∀ t, (Conv.backward g k).2.biasGradients = some t → Zeroed t
    have h : (Conv.backward g k).1 = .ok g' := h
    unfold Conv.backward at h ⊢
    rw [Mut.get_bind] at h ⊢
    rcases hi : k.input with _ | x
    · rw [hi] at h; cases h
    · rw [hi] at h
      simp only at h ⊢
      rw [Mut.modify_bind] at h ⊢
      obtain ⟨a, ha, h, e⟩ := lift_bind_ok h; rw [e]; clear e
      rw [Mut.modify_bind] at h ⊢
      obtain ⟨d, hd, h, e⟩ := lift_bind_ok h; rw [e]; clear e
      refine ⟨?_, ?_, ?_⟩
      · refine gives_any (P := Zeroed) (fun _ => gives_forI (zeroed_full _) fun _ o ho => gives_any fun _ => gives_forI ho fun _ o ho =>
          gives_forI ho fun _ o ho => gives_forI ho fun _ o ho => gives_any fun w => gives_bind (at_elements hg _) fun y hy => modifyAt_elements ho _ ?_) g' h
        intro z hz
        rw [hz, hy, mul_zero, add_zero]
      · intro t ht
        cases ht
        refine gives_forI (I := Zeroed) (zeros_elements _) (fun _ o ho => gives_forI ho fun _ o ho => gives_any fun _ => gives_bind (Q := fun s : ℝ => s = 0) ?_ fun s hs => setAt_elements ho _ hs) d hd
        refine gives_forI rfl fun _ s hs => gives_any fun _ => gives_forI hs fun _ s hs => gives_any fun y => gives_bind (at_elements hg _) fun z hz => gives_pure ?_
        show s + y * z = 0
        rw [hs, hz, mul_zero, add_zero]
      · intro t ht
        cases ht
        refine gives_any (P := Zeroed) (fun _ => gives_forI (zeros_elements _) fun _ o ho => gives_any fun _ => gives_forI ho fun _ o ho =>
          gives_bind (at_elements hg _) fun y hy => gives_bind (get_elements ho _) fun z hz => elements_set ho _ ?_) a ha
        rw [hy, hz, add_zero]
  | batchNorm k => exact hp.elim
  | dropout k => exact hp.elim
  | flatten k =>
    refine ⟨?_, trivial⟩
    exact (mgives_bind (I := fun _ : Flatten => True) (Q := fun _ => True) (P := Zeroed) (fun _ _ => ⟨trivial, fun _ _ => trivial⟩) (fun l _ =>
      mgives_any (mgives_lift gives_true) fun s => mgives_lift (reshape_elements hg _)) k trivial).2 g' h
  | maxPool k =>
    refine ⟨?_, trivial⟩
    have h : (MaxPool.backward g k).1 = .ok g' := h
    unfold MaxPool.backward at h
    rw [Mut.get_bind] at h
    rcases hi : k.input with _ | x
    · rw [hi] at h; cases h
    · rw [hi] at h
      refine gives_any (P := Zeroed) (fun _ => gives_any fun _ => gives_any fun _ => gives_any fun _ => gives_forI (zeroed_full _) fun _ o ho => gives_forI ho fun _ o ho =>
          gives_forI ho fun _ o ho => gives_forI ho fun _ o ho => gives_any fun m => gives_bind (at_elements hg _) fun y hy => modifyAt_elements ho _ ?_) g' h
      intro z hz
      rw [hz, hy, add_zero]
  | activation k =>
    refine ⟨?_, trivial⟩
    exact (mgives_bind (I := fun _ : ActLayer ℝ => True) (Q := fun _ => True) (P := Zeroed) (fun _ _ => ⟨trivial, fun _ _ => trivial⟩) (fun l _ =>
      mgives_any (mgives_lift gives_true) fun s => mgives_lift (zero_actBackward _ hg)) k trivial).2 g' h

theorem zero_backwardLayers : ∀ (ls : List (Layer ℝ)) (g g' : Tensor ℝ) (ls' : List (Layer ℝ)), Zeroed g → (∀ l ∈ ls, PlainKind l) →
    backwardLayers ls g = (.ok g', ls') → Zeroed g' ∧ ∀ l ∈ ls', ZeroGrads l := by
  intro ls
  induction ls with
  | nil => intro g g' ls' hg _ h; cases h; exact ⟨hg, by simp⟩
  | cons l ls ih =>
    intro g g' ls' hg hp h
    unfold backwardLayers at h
    rcases hf : backwardLayers ls g with ⟨e | g1, ls1⟩
    · rw [hf] at h; cases h
    · rw [hf] at h
      have h : (((Layer.backward g1 l).1, (Layer.backward g1 l).2 :: ls1) : Res (Tensor ℝ) × List (Layer ℝ)) = (.ok g', ls') := h
      obtain ⟨h1, rfl⟩ := Prod.ext_iff.1 h
      obtain ⟨z1, z2⟩ := ih g g1 ls1 hg (fun m hm => hp m (by simp [hm])) hf
      obtain ⟨z3, z4⟩ := zero_layerBackward z1 (hp l (by simp)) h1
      refine ⟨z3, ?_⟩
      simp only [List.mem_cons]
      rintro m (rfl | hm)
      · exact z4
      · exact z2 m hm

theorem zeroFrom_of {t : Tensor ℝ} (h : Zeroed t) : ZeroFrom 0 t.data := by
  intro j _
  rw [List.getD_eq_getElem?_getD]
  rcases hj : t.data[j]? with _ | x
  · rfl
  · exact h x (List.mem_of_getElem? hj)

theorem same_of {a b : Tensor ℝ} (h1 : SameFrom 0 a.data b.data) (h2 : SameShape a b) : b = a := by
  obtain ⟨as, ad⟩ := a
  obtain ⟨bs, bd⟩ := b
  obtain ⟨h2, -⟩ := h2
  simp only at h1 h2
  subst h2
  congr
  exact List.ext_getElem? fun j => h1 j (Nat.zero_le _)

/-- The optimizer would not move a parameter with a zero gradient. -/
def AllQuiet (opt : Optimizer (Nat × Bool) ℝ) : Prop := ∀ k, Quiet opt k 0

theorem pair_same (i : Nat) {opt : Optimizer (Nat × Bool) ℝ} (ho : AllQuiet opt) {p0 p1 g0 g1 : Tensor ℝ} (h0 : Zeroed g0) (h1 : Zeroed g1) :
    (Layer.optimizePair (i, false) (i, true) opt p0 p1 g0 g1).2.1 = p0 ∧ (Layer.optimizePair (i, false) (i, true) opt p0 p1 g0 g1).2.2.1 = p1 ∧
    AllQuiet (Layer.optimizePair (i, false) (i, true) opt p0 p1 g0 g1).2.2.2 := by
  obtain ⟨q0, q1, s0, s1⟩ := optimizePair_frozen (addr_ne i) opt p0 p1 g0 g1 (ho _) (ho _) (zeroFrom_of h0) (zeroFrom_of h1)
  obtain ⟨t0, t1⟩ := optimizePair_shape (addr_ne i) opt p0 p1 g0 g1
  refine ⟨same_of s0 t0, same_of s1 t1, fun k => ?_⟩
  by_cases e0 : k = (i, false)
  · rw [e0]; exact q0
  · by_cases e1 : k = (i, true)
    · rw [e1]; exact q1
    · exact optimizePair_other e0 e1 opt p0 p1 g0 g1 (ho k)

theorem update_same (i : Nat) {l : Layer ℝ} {opt : Optimizer (Nat × Bool) ℝ} (hl : ZeroGrads l) (ho : AllQuiet opt) :
    (Layer.updateWeights (i, false) (i, true) (l, opt)).2.1 = l ∧ AllQuiet (Layer.updateWeights (i, false) (i, true) (l, opt)).2.2 := by
  obtain ⟨kind, mode⟩ := l
  unfold Layer.updateWeights
  cases kind with
  | fc l =>
    obtain ⟨h0, h1⟩ := hl
    dsimp only
    split
    · next wg bg hw hb =>
      obtain ⟨a, b, c⟩ := pair_same i ho (p0 := l.weights) (p1 := l.biases) (h0 wg hw) (h1 bg hb)
      refine ⟨?_, c⟩
      dsimp only
      rw [a, b]
    · exact ⟨rfl, ho⟩
  | conv l =>
    obtain ⟨h0, h1⟩ := hl
    dsimp only
    split
    · next wg bg hw hb =>
      obtain ⟨a, b, c⟩ := pair_same i ho (p0 := l.weights) (p1 := l.biases) (h0 wg hw) (h1 bg hb)
      refine ⟨?_, c⟩
      dsimp only
      rw [a, b]
    · exact ⟨rfl, ho⟩
  | batchNorm l => exact hl.elim
  | dropout l => exact hl.elim
  | _ => exact ⟨rfl, ho⟩

theorem updateLayers_same : ∀ (ls : List (Layer ℝ)) (i : Nat) {opt : Optimizer (Nat × Bool) ℝ}, (∀ l ∈ ls, ZeroGrads l) → AllQuiet opt →
    (updateLayers i ls opt).2.1 = ls ∧ AllQuiet (updateLayers i ls opt).2.2 := by
  intro ls
  induction ls with
  | nil => intro i opt _ ho; exact ⟨rfl, ho⟩
  | cons l ls ih =>
    intro i opt hl ho
    obtain ⟨h1, h2⟩ := update_same i (hl l (by simp)) ho
    unfold updateLayers
    rcases hf : Layer.updateWeights (i, false) (i, true) (l, opt) with ⟨e | ⟨⟨⟩⟩, l', opt'⟩
    · rw [hf] at h1 h2
      simp only at h1 h2
      subst h1
      exact ⟨rfl, h2⟩
    · rw [hf] at h1 h2
      simp only at h1 h2
      subst h1
      obtain ⟨h3, h4⟩ := ih (i + 1) (fun m hm => hl m (by simp [hm])) h2
      exact ⟨by simp only [h3], h4⟩

/-- The model is still what it was, apart from caches and optimizer state, and the optimizer is quiet. -/
structure Still (net0 net : Net ρ ℝ) : Prop where
  layers : net.layers.map sansCaches = net0.layers.map sansCaches
  loss : net.loss = net0.loss
  rng : net.rng = net0.rng
  quiet : ∀ opt, net.optimizer = some opt → AllQuiet opt

theorem plain_of_stateless : ∀ (ls : List (Layer ℝ)) (im : Bool), Stateless im ls → ∀ l ∈ ls, PlainKind l := by
  intro ls
  induction ls with
  | nil => intro _ _ l hl; cases hl
  | cons a ls ih =>
    intro im h l hl
    rcases List.mem_cons.1 hl with rfl | hl
    · obtain ⟨kind, mode⟩ := l
      unfold PlainKind
      unfold Stateless at h
      cases kind with
      | batchNorm k => exact h.elim
      | dropout k => exact h.elim
      | _ => trivial
    · exact ih _ (plain_tail h) l hl

theorem still_predict (E : Engine ρ ℝ) (x : Tensor ℝ) {net0 net : Net ρ ℝ} (hs : Stateless false net0.layers) (h : Still net0 net) :
    (predict E x net).1 = (predict E x net0).1 ∧ Still net0 (predict E x net).2 ∧ Stateless false (predict E x net).2.layers := by
  obtain ⟨k1, k2, k3, k4, k5, k6⟩ := forwardLayers_caches E net0.rng net0.layers net.layers false x (fun h => by cases h) h.layers hs
  have e : predict E x net = ((forwardLayers E net.layers x net0.rng).1, { net with
      layers := (forwardLayers E net.layers x net0.rng).2.1, rng := (forwardLayers E net.layers x net0.rng).2.2 }) := by rw [← h.rng]; rfl
  rw [e]
  refine ⟨k1, ⟨k3, h.loss, k5, h.quiet⟩, ?_⟩
  show Stateless false (forwardLayers E net.layers x net0.rng).2.1
  rw [← plain_caches, k3, plain_caches]
  exact hs

theorem still_step {net0 net : Net ρ ℝ} (hs : Stateless false net.layers) (h : Still net0 net) {g : Tensor ℝ} (hg : Zeroed g) :
    Still net0 (backward g net).2 ∧ ∀ g', (backward g net).1 = .ok g' → Still net0 (updateWeights (backward g net).2).2 := by
  obtain ⟨k1, k2, k3, k4⟩ := backwardLayers_caches (as := net.layers) (bs := net.layers) (List.forall₂_same.2 fun l hl => by
    have := plain_of_stateless net.layers false hs l hl
    obtain ⟨kind, mode⟩ := l
    refine ⟨rfl, ?_⟩
    cases kind with
    | batchNorm k => exact this.elim
    | dropout k => exact this.elim
    | fc k => exact ⟨rfl, rfl, rfl⟩
    | conv k => rfl
    | flatten k => rfl
    | maxPool k => rfl
    | activation k => rfl) g
  have h1 : Still net0 (backward g net).2 := ⟨k2.trans h.layers, h.loss, h.rng, h.quiet⟩
  refine ⟨h1, fun g' hg' => ?_⟩
  rcases hb : backwardLayers net.layers g with ⟨r, ls'⟩
  have hr : r = .ok g' := by
    have : (backward g net).1 = r := by unfold backward; rw [hb]
    rw [← this, hg']
  subst hr
  obtain ⟨-, z⟩ := zero_backwardLayers net.layers g g' ls' hg (plain_of_stateless net.layers false hs) hb
  have e : (backward g net).2.layers = ls' := by unfold backward; rw [hb]
  unfold updateWeights
  split
  · exact h1
  · exact h1
  · next l ls opt hl ho =>
    obtain ⟨u1, u2⟩ := updateLayers_same (l :: ls) 0 (opt := opt) (by rw [← hl, e]; exact z) (h1.quiet opt ho)
    refine ⟨?_, h1.loss, h1.rng, fun opt' ho' => ?_⟩
    · show (updateLayers 0 (l :: ls) opt).2.1.map sansCaches = _
      rw [u1, ← hl]
      exact h1.layers
    · cases ho'
      exact u2

end

section
variable {ρ : Type}

theorem mseTarget_self (p : Tensor ℝ) : Loss.mseTarget p p = .ok p := by
  unfold Loss.mseTarget
  rw [show p.shape.beq p.shape = true by simp [Shape.beq]]
  rfl

theorem zero_gradient {l : Loss ℝ} {p : Tensor ℝ} (h : Undistorted l p) : Gives Zeroed (l.gradient p p) := by
  cases l with
  | mse =>
    show Gives Zeroed (do
      let t' ← Loss.mseTarget p p
      let diff ← p.sub t'
      let d2 ← diff.mulScalar ((2 : Nat) : ℝ)
      d2.divScalar (p.shape.size : ℝ))
    rw [mseTarget_self]
    show Gives Zeroed (do
      let diff ← p.sub p
      let d2 ← diff.mulScalar ((2 : Nat) : ℝ)
      d2.divScalar (p.shape.size : ℝ))
    exact gives_bind (zero_sub_self p) fun d hd => gives_bind (zero_mulScalar hd _) fun d hd => zero_divScalar hd _
  | crossEntropy eps =>
    have h : Elements (fun y => eps ≤ y ∧ y ≤ 1 - eps) p := h
    show Gives Zeroed (do
      if !(p.shape.beq p.shape) then throw .invalidArgument
      let batchSize ← p.shape.get 0
      let numClasses ← p.shape.get 1
      let grad ← forI batchSize (Tensor.zeros p.shape) (fun i grad =>
        forI numClasses grad (fun j grad => do
          let x ← p.at_ [i, j]
          let y ← p.at_ [i, j]
          grad.setAt [i, j] (Loss.clamp eps x - y)))
      grad.divScalar (batchSize : ℝ) : Res (Tensor ℝ))
    rw [if_neg (by simp [Shape.beq])]
    refine gives_any fun b => gives_any fun k => gives_bind (Q := Zeroed) ?_ fun g hg => zero_divScalar hg _
    refine gives_forI (zeros_elements _) fun i o ho => gives_forI ho fun j o ho => ?_
    intro z hz
    rcases hx : p.at_ [i, j] with e | x
    · rw [hx] at hz; cases hz
    · rw [hx] at hz
      have := at_elements h [i, j] x hx
      refine setAt_elements ho _ ?_ z hz
      unfold Loss.clamp
      rw [cmax_eq_max, max_eq_left this.1]
      unfold cmin
      rw [if_neg (not_lt.2 this.2), sub_self]

theorem zero_mse (p : Tensor ℝ) : Gives Zeroed (Loss.mse.compute p p) := by
  show Gives Zeroed (do
    let t ← Loss.mseTarget p p
    let diff ← p.sub t
    let sq ← diff.mul diff
    let s ← sq.sumAll
    s.divScalar (diff.shape.size : ℝ))
  rw [mseTarget_self]
  show Gives Zeroed (do
    let diff ← p.sub p
    let sq ← diff.mul diff
    let s ← sq.sumAll
    s.divScalar (diff.shape.size : ℝ))
  exact gives_bind (zero_sub_self p) fun d hd => gives_bind (zero_mul_right hd) fun s hs => gives_bind (zero_sumAll hs) fun _ hz => zero_divScalar hz _

theorem zero_addAssign {t v : Tensor ℝ} (ht : Zeroed t) (hv : Zeroed v) : Gives Zeroed (t.addAssign (some v)) := by
  refine MGives.exec (I := Zeroed) ?_ ht
  intro l hl
  refine ⟨?_, gives_true⟩
  unfold Tensor.binopInPlaceM
  split
  · exact hl
  · next rv _ =>
    refine (mgives_forN (I := fun st : Tensor ℝ × ViewIter => Zeroed st.1) (fun k => ?_) l.shape.size (l, ViewIter.begin rv.shape) hl).1
    refine mgives_bind mgives_get fun st hst => mgives_bind (mgives_lift (rd_elements hst _)) fun x hx =>
      mgives_bind (mgives_lift ((deref_mem rv v.data st.2).mono fun y hy => hv y hy)) fun y hy => mgives_bind (mgives_lift (wr_elements hst _ ?_)) fun d hd => mgives_set hd
    rw [hx, hy]
    exact add_zero _

/-- The losses are zero, if it is the squared error. -/
def NoLoss (L : Option (Loss ℝ)) (t : Tensor ℝ) : Prop := L = some .mse → Zeroed t

/-- The invariant of training. -/
def Rest (net0 : Net ρ ℝ) (s : Session ρ ℝ) : Prop := Still net0 s.net ∧ NoLoss net0.loss s.total ∧ ∀ p ∈ s.printed, NoLoss net0.loss p

theorem still_stateless {net0 net : Net ρ ℝ} (hs : Stateless false net0.layers) (h : Still net0 net) : Stateless false net.layers := by
  rw [← plain_caches, h.layers, plain_caches]
  exact hs

theorem rest_sample (E : Engine ρ ℝ) {net0 : Net ρ ℝ} (hs : Stateless false net0.layers) {x : Tensor ℝ} {ys : List (Tensor ℝ)} {i : Nat}
    (hf : ∀ y p, ys[i]? = some y → (predict E x net0).1 = .ok p → p = y ∧ ∀ l, net0.loss = some l → Undistorted l y) :
    MGives (Rest net0) (fun _ => True) (trainSample E x ys i) := by
  unfold trainSample
  refine mgives_bind (Q := fun p => ∀ y, ys[i]? = some y → p = y ∧ ∀ l, net0.loss = some l → Undistorted l y) ?_ fun p hp =>
    mgives_bind mgives_get fun s hR => mgives_bind (mgives_lift (P := fun l => net0.loss = some l) ?_) fun l hl =>
    mgives_bind (mgives_lift (P := fun t => ys[i]? = some t) ?_) fun t ht => ?_
  · intro s hR
    obtain ⟨k1, k2, -⟩ := still_predict E x hs hR.1
    refine ⟨⟨k2, hR.2⟩, fun p hp y hy => hf y p hy (k1 ▸ hp)⟩
  · intro l h
    rw [← hR.1.loss]
    cases hl : s.net.loss with
    | none => rw [hl] at h; cases h
    | some l' => rw [hl] at h; cases h; rfl
  · intro t h
    unfold rd at h
    split at h
    · split at h
      · next y hy =>
        cases h
        simpa using hy
      · cases h
    · cases h
  · obtain ⟨rfl, hu⟩ := hp t ht
    refine mgives_bind (mgives_lift (P := NoLoss net0.loss) ?_) fun v hv => mgives_bind (mgives_lift (P := NoLoss net0.loss) ?_) fun tot htot =>
      mgives_any (mgives_modify fun s h => ⟨h.1, htot, h.2.2⟩) fun _ => mgives_bind (mgives_lift (zero_gradient (hu l hl))) fun g hg => ?_
    · intro v hv hm
      rw [hl] at hm
      cases hm
      exact zero_mse _ v hv
    · intro tot h hm
      exact zero_addAssign (hR.2.1 hm) (hv hm) tot h
    · intro s hR
      obtain ⟨k1, k2⟩ := still_step (still_stateless hs hR.1) hR.1 hg
      refine ⟨?_, gives_true⟩
      show Rest net0 (Mut.bind (Session.onNet (backward g)) (fun _ => Session.onNet updateWeights) s).2
      unfold Mut.bind Session.onNet
      dsimp only
      rcases hb : backward g s.net with ⟨e | g', n'⟩
      · rw [hb] at k1
        exact ⟨k1, hR.2⟩
      · rw [hb] at k1 k2
        exact ⟨k2 g' rfl, hR.2⟩

theorem rest_train (E : Engine ρ ℝ) {net0 : Net ρ ℝ} (hs : Stateless false net0.layers) {xs ys : List (Tensor ℝ)} (hf : FitsData E net0 xs ys) (epochs : Int) :
    MGives (Rest net0) (fun _ => True) (Net.train E xs ys epochs) := by
  unfold Net.train
  refine mgives_forN (fun _ => ?_) _
  unfold trainEpoch
  have hsamples : ∀ zs i, (∀ j, zs[j]? = xs[i + j]?) → MGives (Rest net0) (fun _ => True) (trainSamples E ys i zs) := by
    intro zs
    induction zs with
    | nil => intro i _; exact mgives_pure trivial
    | cons z zs ih =>
      intro i hz
      exact mgives_any (rest_sample E hs fun y p => hf i z y p (hz 0).symm) fun _ => ih (i + 1) fun j => by
        rw [show i + 1 + j = i + (j + 1) by omega, ← hz (j + 1), List.getElem?_cons_succ]
  exact mgives_any (mgives_lift gives_true) fun s => mgives_any (mgives_modify fun _ h => ⟨h.1, fun _ => zeroed_full s, h.2.2⟩) fun _ =>
    mgives_any (hsamples xs 0 fun j => by rw [Nat.zero_add]) fun _ => mgives_bind mgives_get fun s hR =>
    mgives_bind (mgives_lift (P := NoLoss net0.loss) fun r hr hm => zero_divScalar (hR.2.1 hm) _ r hr) fun r hr => mgives_modify fun s h => ⟨h.1, h.2.1, fun p hp =>
      (List.mem_append.1 hp).elim (h.2.2 p) fun h' => List.mem_singleton.1 h' ▸ hr⟩

theorem still_train (E : Engine ρ ℝ) {net0 net : Net ρ ℝ} (hs : Stateless false net0.layers) {xs ys : List (Tensor ℝ)} (hf : FitsData E net0 xs ys) (epochs : Int)
    (h : Still net0 net) : Still net0 (trainCall E xs ys epochs net).2.1 ∧ ∀ p ∈ (trainCall E xs ys epochs net).2.2, NoLoss net0.loss p := by
  have h1 := (rest_train E hs hf epochs ⟨net, ofFn [1] fun _ => 0, []⟩ ⟨h, fun _ => zeroed_full (shapeOf [1]), by simp⟩).1
  exact ⟨h1.1, h1.2.2⟩

end

section
variable {ρ : Type}

theorem still_refl {net : Net ρ ℝ} (ho : ∀ opt, net.optimizer = some opt → Unregularised opt) : Still net net :=
  ⟨rfl, rfl, rfl, fun opt h k => quiet_fresh (ho opt h) k 0⟩

theorem still_predictAll (E : Engine ρ ℝ) {net0 : Net ρ ℝ} (hs : Stateless false net0.layers) (xs : List (Tensor ℝ)) :
    MGives (Still net0) (fun _ => True) (Net.predictAll E xs : Mut (Net ρ ℝ) _) := by
  induction xs with
  | nil => exact mgives_pure trivial
  | cons x xs ih => exact mgives_any (fun net h => ⟨(still_predict E x hs h).2.1, gives_true⟩) fun y => mgives_any ih fun ys => mgives_pure trivial

theorem still_visits (E : Engine ρ ℝ) {net0 : Net ρ ℝ} (hs : Stateless false net0.layers) (vs : List (Visit ℝ)) (hv : ∀ v ∈ vs, v.Calm E net0) :
    ∀ {net : Net ρ ℝ}, Still net0 net → Still net0 (visits E vs net).1 := by
  induction vs with
  | nil => exact fun h => h
  | cons v vs ih =>
    intro net h
    refine ih (fun w hw => hv w (by simp [hw])) ?_
    have := hv v (by simp)
    cases v with
    | train xs ys n => exact (still_train E hs this n h).1
    | predict x => exact (still_predict E x hs h).2.1
    | predictAll xs => exact (still_predictAll E hs xs net h).1
    | _ => exact this.elim

/-- A model with the squared error fits its own predictions. -/
theorem fits_own (E : Engine ρ ℝ) {net : Net ρ ℝ} (hm : net.loss = some .mse) {xs ys : List (Tensor ℝ)}
    (hy : ∀ (i : Nat) x y, xs[i]? = some x → ys[i]? = some y → (Net.predict E x net).1 = .ok y) : FitsData E net xs ys := by
  intro i x y p hx hy' hp
  have := hy i x y hx hy'
  rw [hp] at this
  refine ⟨Except.ok.inj this, fun l hl => ?_⟩
  rw [hm] at hl
  cases hl
  trivial

theorem fits_two (E : Engine ρ ℝ) {net : Net ρ ℝ} (hm : net.loss = some .mse) {x1 x2 y1 y2 : Tensor ℝ} (h1 : (Net.predict E x1 net).1 = .ok y1)
    (h2 : (Net.predict E x2 net).1 = .ok y2) : FitsData E net [x1, x2] [y1, y2] := by
  refine fits_own E hm fun i x y hx hy => ?_
  rcases i with _ | _ | i
  · cases hx; cases hy
    exact h1
  · cases hx; cases hy
    exact h2
  · simp at hx

theorem chain_predict (E : Engine ρ ℝ) {net : Net ρ ℝ} {ds es : List Nat} (h : Chain net.layers ds es) (x : List Nat → ℝ) :
    ∃ y, (Net.predict E (ofFn ds x) net).1 = .ok (ofFn es y) := by
  obtain ⟨y, ls, r, f, -⟩ := chain_step h E net.rng x
  refine ⟨y, ?_⟩
  unfold Net.predict
  rw [f]

end

/-! ### One dense layer with the cross entropy -/

theorem single_answer {ρ : Type} {b n k : Nat} (hx : Dims [b, n]) (hw : Dims [n, k]) (hd : Dims [b, k]) (w bias x : List Nat → ℝ)
    (rng : ρ) (E : Engine ρ ℝ) (L : Loss ℝ) (opt : Optimizer (Nat × Bool) ℝ) :
    (predict E (ofFn [b, n] x) ((single n k w bias rng).compile L opt)).1 = .ok (ofFn [b, k] (affine n w bias x)) := by
  obtain ⟨l', f1, -⟩ := dense_joint (x := x) (mode := true) (l := { weights := ofFn [n, k] w, biases := ofFn [1, k] bias }) hx hw hd rfl rfl
  unfold predict
  simp only [Net.compile, single, forwardLayers_cons, f1, forwardLayers]

theorem single_train {ρ : Type} {b n k : Nat} (hx : Dims [b, n]) (hw : Dims [n, k]) (hd : Dims [b, k]) (w bias x t : List Nat → ℝ)
    (rng : ρ) (E : Engine ρ ℝ) (eps : ℝ) (o : SGDOptions ℝ) (hm : o.momentum = 0) (hwd : o.weightDecay = 0) :
    ∃ net' net'', trainCall E [ofFn [b, n] x] [ofFn [b, k] t] 1 ((single n k w bias rng).compile (.crossEntropy eps) (.newSGD o)) =
        (.ok (), net', [ofFn [1] fun _ => crossEntropy eps b k (affine n w bias x) t]) ∧
      predict E (ofFn [b, n] x) net' = (.ok (ofFn [b, k] (affine n
        (fun idx => w idx - o.learningRate * ∑ i ∈ Finset.range b, x [i, idx.getD 0 0] *
          ((clampTo eps (affine n w bias x [i, idx.getD 1 0]) - t [i, idx.getD 1 0]) / b))
        (fun idx => bias idx - o.learningRate * ∑ i ∈ Finset.range b, (clampTo eps (affine n w bias x [i, idx.getD 1 0]) - t [i, idx.getD 1 0]) / b) x)), net'') := by
  set z := affine n w bias x with hz
  let g : List Nat → ℝ := fun i => (clampTo eps (z i) - t i) / (b : ℝ)
  obtain ⟨l', f1, j1⟩ := dense_joint (x := x) (mode := true) (l := { weights := ofFn [n, k] w, biases := ofFn [1, k] bias }) hx hw hd rfl rfl
  obtain ⟨S, ⟨l2, b1, -, u1⟩, -⟩ := j1 g
  obtain ⟨l3, opt', e1, -, -, w1⟩ := u1 o.learningRate 0 (.newSGD o) ⟨_, rfl, rfl, hm, hwd⟩
  obtain ⟨l4, k1⟩ := w1 ρ E rng x
  refine ⟨⟨[l3], some (.crossEntropy eps), some opt', rng⟩, ⟨[l4], some (.crossEntropy eps), some opt', rng⟩, ?_, ?_⟩
  rotate_left
  · unfold predict
    simp only [k1, forwardLayers]
    rfl
  · refine (C55_train E _ _ 1 _ _ _ (by simp) (by simp)).2 ?_
    have hs : StepOk E (ofFn [b, n] x) (ofFn [b, k] t) ((single n k w bias rng).compile (.crossEntropy eps) (.newSGD o))
        ⟨[l3], some (.crossEntropy eps), some opt', rng⟩ (crossEntropy eps b k z t) := by
      refine ⟨ofFn [b, k] z, ⟨[l'], some (.crossEntropy eps), some (.newSGD o), rng⟩, .crossEntropy eps, _,
        ofFn [b, n] (fun idx => ∑ j ∈ Finset.range k, g [idx.getD 0 0, j] * w [idx.getD 1 0, j]),
        ⟨[l2], some (.crossEntropy eps), some (.newSGD o), rng⟩, ?_, rfl,
        C30_compute hd eps _ t, C31_value hd eps _ t, ?_, ?_⟩
      · unfold predict
        simp only [Net.compile, single, forwardLayers_cons, f1, ← hz, forwardLayers]
      · unfold backward
        simp only [backwardLayers]
        rw [b1]
      · rw [net_updateWeights_eq _ _ rfl]
        simp only [updateLayers_cons, e1]
        rfl
    have h := Epochs.succ (E := E) (Steps.cons (E := E) (ps := []) hs (.nil _)) (.zero _)
    simpa using h

end SmartDNN
