import Verif.Model.Optimizers
import Verif.Spec.Optimizers
import Verif.Proofs.Losses

/-!
# Lemmas about the optimizers
-/

namespace SmartDNN
open Spec

/-- A loop over all elements whose iteration for `idx` only touches the entries at `idx` of a family of
arrays computes every entry independently. -/
theorem forN_pointwise {σ S : Type} {ds : List Nat} (mk : (List Nat → S) → σ) (body : Nat → σ → Res σ)
    (step : List Nat → S → S) (s0 : List Nat → S)
    (hmk : ∀ s s', (∀ idx, ValidIdx ds idx → s idx = s' idx) → mk s = mk s')
    (h : ∀ idx, ValidIdx ds idx → ∀ s, body (ravel ds idx) (mk s) = .ok (mk (upd s idx (step idx (s idx))))) :
    forN ds.prod (mk s0) body = .ok (mk (fun idx => step idx (s0 idx))) := by
  rw [forN_prod, foldlM_inv mk (fun s idx => upd s idx (step idx (s idx))) s0
    (fun idx hi s => h idx (mem_indices.1 hi) s)]
  congr 1
  apply hmk
  intro idx hv
  have := foldl_upd_acc (indices ds) (fun x => x) (fun (a : S) x => step x a) s0 idx
  rw [this, filter_eq_of_nodup (nodup_indices ds) (mem_indices.2 hv)]
  rfl

theorem rdData_ofFn {T : Type} {ds idx : List Nat} (f : List Nat → T) (hv : ValidIdx ds idx) :
    rd (ofFn ds f).data (ravel ds idx : Nat) = .ok (f idx) := get_ofFn f hv

@[simp] theorem assign_same {K V : Type} [DecidableEq K] (m : K → V) (k : K) (v : V) : assign m k v k = v := by simp [assign]
theorem assign_ne {K V : Type} [DecidableEq K] (m : K → V) {k j : K} (v : V) (h : j ≠ k) : assign m k v j = m j := by
  simp [assign, h]

theorem upd_comp {A B : Type} (p : A → B) (s : List Nat → A) (idx : List Nat) (a : A) :
    (fun i => p (upd s idx a i)) = upd (fun i => p (s i)) idx (p a) := by
  funext i; unfold upd; split <;> rfl

theorem upd_self {A : Type} (s : List Nat → A) (idx : List Nat) : upd s idx (s idx) = s := by
  funext i; unfold upd; split
  · next h => rw [h]
  · rfl

section
variable {K T : Type} [DecidableEq K] [Zero T] [One T] [Add T] [Sub T] [Mul T] [Div T] [Neg T] [NatCast T]
  [IntCast T] [LT T] [DecidableLT T] [LE T] [DecidableLE T] [DecidableEq T] [MathFn T]

/-! ### SGD -/

/-- One element of the SGD loop: (weight, velocity). -/
def sgdCell (o : SGDOptions T) (lr : T) (g : T) (s : T × T) : T × T :=
  let grad := if o.weightDecay ≠ 0 then g + o.weightDecay * s.1 else g
  if o.momentum ≠ 0 then
    let v' := o.momentum * s.2 + (1 - o.dampening) * grad
    (s.1 - lr * (if o.nesterov then grad + o.momentum * v' else v'), v')
  else (s.1 - lr * grad, s.2)

theorem sgd_loop_ofFn (o : SGDOptions T) (ds : List Nat) (w v g : List Nat → T) (lr : T) :
    SGD.loop o (ofFn ds w) (ofFn ds v) (ofFn ds g) lr =
      .ok (ofFn ds (fun i => (sgdCell o lr (g i) (w i, v i)).1),
           ofFn ds (fun i => (sgdCell o lr (g i) (w i, v i)).2)) := by
  unfold SGD.loop
  rw [ofFn_shape, shapeOf_size]
  refine (forN_pointwise (S := T × T)
    (fun s => ((ofFn ds (fun i => (s i).1), ofFn ds (fun i => (s i).2)) : Tensor T × Tensor T)) _
    (fun idx s => sgdCell o lr (g idx) s) (fun i => (w i, v i)) ?_ ?_)
  · intro s s' h
    exact Prod.ext (ofFn_congr fun i hi => by rw [h i hi]) (ofFn_congr fun i hi => by rw [h i hi])
  · intro idx hv s
    simp only [rdData_ofFn _ hv, Except.bind_ok', get_ofFn _ hv, setFlat_ofFn _ hv, Except.pure_eq']
    rw [upd_comp Prod.fst, upd_comp Prod.snd]
    unfold sgdCell
    by_cases hm : o.momentum = 0
    · simp only [hm, ne_eq, not_true_eq_false, if_false]
      rw [upd_self (fun i => (s i).2)]
    · simp only [hm, ne_eq, not_false_eq_true, if_true]

/-! ### RMSProp -/

/-- One element of the RMSProp loop: (weight, square average, mean average, velocity). -/
def rmsCell (o : RMSPropOptions T) (lr : T) (g : T) (s : T × T × T × T) : T × T × T × T :=
  let grad := if o.weightDecay ≠ 0 then g + o.weightDecay * s.1 else g
  let q' := o.alpha * s.2.1 + (1 - o.alpha) * grad * grad
  let m' := if o.centered then o.alpha * s.2.2.1 + (1 - o.alpha) * grad else s.2.2.1
  let denom := if o.centered then MathFn.sqrt (q' - m' * m' + o.epsilon) else MathFn.sqrt (q' + o.epsilon)
  let update := grad / denom
  let v' := if 0 < o.momentum then o.momentum * s.2.2.2 + update else s.2.2.2
  (s.1 - lr * (if 0 < o.momentum then v' else update), q', m', v')

theorem rms_loop_ofFn (o : RMSPropOptions T) (ds : List Nat) (w q m v g : List Nat → T) (lr : T) :
    RMSProp.loop o ⟨ofFn ds w, ofFn ds q, ofFn ds m, ofFn ds v⟩ (ofFn ds g) lr =
      .ok ⟨ofFn ds (fun i => (rmsCell o lr (g i) (w i, q i, m i, v i)).1),
           ofFn ds (fun i => (rmsCell o lr (g i) (w i, q i, m i, v i)).2.1),
           ofFn ds (fun i => (rmsCell o lr (g i) (w i, q i, m i, v i)).2.2.1),
           ofFn ds (fun i => (rmsCell o lr (g i) (w i, q i, m i, v i)).2.2.2)⟩ := by
  unfold RMSProp.loop
  rw [ofFn_shape, shapeOf_size]
  refine (forN_pointwise (S := T × T × T × T)
    (fun s => (⟨ofFn ds (fun i => (s i).1), ofFn ds (fun i => (s i).2.1), ofFn ds (fun i => (s i).2.2.1),
      ofFn ds (fun i => (s i).2.2.2)⟩ : RMSState T)) _
    (fun idx s => rmsCell o lr (g idx) s) (fun i => (w i, q i, m i, v i)) ?_ ?_)
  · intro s s' h
    congr 1 <;> exact ofFn_congr fun i hi => by rw [h i hi]
  · intro idx hv s
    simp only [rdData_ofFn _ hv, Except.bind_ok', get_ofFn _ hv, setFlat_ofFn _ hv, Except.pure_eq']
    rw [upd_comp Prod.fst, upd_comp (fun p : T × T × T × T => p.2.1), upd_comp (fun p : T × T × T × T => p.2.2.1),
      upd_comp (fun p : T × T × T × T => p.2.2.2)]
    unfold rmsCell
    by_cases hc : o.centered = true <;> by_cases hm : 0 < o.momentum <;>
      simp only [hc, hm, if_true, if_false, Bool.false_eq_true, Except.bind_ok', upd_self, get_ofFn _ hv,
        setFlat_ofFn _ hv]

/-! ### Adam -/

/-- One element of the Adam loop: (weight, m, v). -/
def adamCell (o : AdamOptions T) (lr : T) (it : Nat) (g : T) (s : T × T × T) : T × T × T :=
  Adam.updateParameter o lr it s.1 g s.2.1 s.2.2 (Adam.alphaT o lr it)

theorem adam_loop_ofFn (o : AdamOptions T) (lr : T) (it : Nat) (ds : List Nat) (w m v g : List Nat → T) :
    Adam.loop o lr it (ofFn ds w, ofFn ds m, ofFn ds v) (ofFn ds g) =
      .ok (ofFn ds (fun i => (adamCell o lr it (g i) (w i, m i, v i)).1),
           ofFn ds (fun i => (adamCell o lr it (g i) (w i, m i, v i)).2.1),
           ofFn ds (fun i => (adamCell o lr it (g i) (w i, m i, v i)).2.2)) := by
  unfold Adam.loop
  rw [ofFn_shape, shapeOf_size]
  refine (forN_pointwise (S := T × T × T)
    (fun s => ((ofFn ds (fun i => (s i).1), ofFn ds (fun i => (s i).2.1), ofFn ds (fun i => (s i).2.2)) :
      Tensor T × Tensor T × Tensor T)) _
    (fun idx s => adamCell o lr it (g idx) s) (fun i => (w i, m i, v i)) ?_ ?_)
  · intro s s' h
    exact Prod.ext (ofFn_congr fun i hi => by rw [h i hi])
      (Prod.ext (ofFn_congr fun i hi => by rw [h i hi]) (ofFn_congr fun i hi => by rw [h i hi]))
  · intro idx hv s
    simp only [rdData_ofFn _ hv, Except.bind_ok', get_ofFn _ hv, setFlat_ofFn _ hv, Except.pure_eq']
    rw [upd_comp Prod.fst, upd_comp (fun p : T × T × T => p.2.1), upd_comp (fun p : T × T × T => p.2.2)]
    rfl

/-! ### Calls -/

theorem run_nil (w : World K T) : w.run [] = .ok w := rfl

theorem run_append (w : World K T) (as bs : List (Call K T)) :
    w.run (as ++ bs) = (w.run as).bind (fun w' => w'.run bs) := by
  unfold World.run
  rw [List.foldlM_append]
  rfl

theorem run_single (w : World K T) (c : Call K T) : w.run [c] = (World.optimizeM c).exec w := by
  unfold World.run
  simp only [List.foldlM_cons, List.foldlM_nil]
  cases (World.optimizeM c).exec w <;> rfl

theorem run_cons (w : World K T) (c : Call K T) (cs : List (Call K T)) :
    w.run (c :: cs) = ((World.optimizeM c).exec w).bind (fun w' => w'.run cs) := rfl

theorem exec_optimize (w : World K T) (c : Call K T) (h : c.weights.length = c.gradients.length) :
    (World.optimizeM c).exec w = (w.begin c.lr).updateTensors c.lr (c.weights.zip c.gradients) := by
  unfold Mut.exec World.optimizeM
  simp only [h, ne_eq, not_true_eq_false, if_false]
  cases (w.begin c.lr).updateTensors c.lr (c.weights.zip c.gradients) <;> rfl


/-- Body of the loop over the tensors of one call. -/
def stepPair (override : T) (w : World K T) (p : K × Tensor T) : Res (World K T) :=
  match w.opt with
  | .sgd o => do
    let r ← o.updateTensor w.mem p.1 p.2 (currentLR o.opts.learningRate override)
    return ⟨r.2, .sgd r.1⟩
  | .rmsprop o => do
    let r ← o.updateTensor w.mem p.1 p.2 (currentLR o.opts.learningRate override)
    return ⟨r.2, .rmsprop r.1⟩
  | .adam o => do
    let r ← o.updateTensor w.mem p.1 p.2
    return ⟨r.2, .adam r.1⟩

theorem updateTensors_eq (w : World K T) (override : T) (ps : List (K × Tensor T)) :
    w.updateTensors override ps = ps.foldlM (stepPair override) w := rfl

/-- Two worlds agree on everything that concerns the tensor at `k`. -/
def Same (k : K) (w1 w2 : World K T) : Prop :=
  w1.mem k = w2.mem k ∧
  match w1.opt, w2.opt with
  | .sgd a, .sgd b => a.opts = b.opts ∧ a.momentumBuffers k = b.momentumBuffers k
  | .rmsprop a, .rmsprop b => a.opts = b.opts ∧ a.squaredGrads k = b.squaredGrads k ∧
      a.meanGrads k = b.meanGrads k ∧ a.velocityBuffers k = b.velocityBuffers k
  | .adam a, .adam b => a.opts = b.opts ∧ a.learningRate = b.learningRate ∧ a.iterations = b.iterations ∧
      a.m k = b.m k ∧ a.v k = b.v k
  | _, _ => False

theorem Same.rfl' (k : K) (w : World K T) : Same k w w := by
  refine ⟨rfl, ?_⟩
  cases w.opt <;> simp

theorem Same.trans {k : K} {a b c : World K T} (h1 : Same k a b) (h2 : Same k b c) : Same k a c := by
  obtain ⟨ma, oa⟩ := a
  obtain ⟨mb, ob⟩ := b
  obtain ⟨mc, oc⟩ := c
  unfold Same at *
  refine ⟨h1.1.trans h2.1, ?_⟩
  cases oa <;> cases ob <;> cases oc <;> simp_all

theorem Same.symm {k : K} {a b : World K T} (h1 : Same k a b) : Same k b a := by
  obtain ⟨ma, oa⟩ := a
  obtain ⟨mb, ob⟩ := b
  unfold Same at *
  refine ⟨h1.1.symm, ?_⟩
  cases oa <;> cases ob <;> simp_all

theorem Same.begin {k : K} {a b : World K T} (h : Same k a b) (r : T) : Same k (a.begin r) (b.begin r) := by
  obtain ⟨ma, oa⟩ := a
  obtain ⟨mb, ob⟩ := b
  unfold Same World.begin at *
  cases oa <;> cases ob <;> simp_all [Adam.updateLearningRate]

/-- An update of another tensor leaves everything about `k` alone. -/
theorem stepPair_frame {k : K} {r : T} {w w' : World K T} {p : K × Tensor T} (hp : k ≠ p.1)
    (h : stepPair r w p = .ok w') : Same k w w' := by
  obtain ⟨mem, o⟩ := w
  cases o with
  | sgd o =>
    unfold stepPair SGD.updateTensor at h
    dsimp only at h
    cases hl : SGD.loop o.opts (mem p.1) (lookupOrZero o.momentumBuffers p.1 (mem p.1).shape) p.2
      (currentLR o.opts.learningRate r) with
    | error e => rw [hl] at h; cases h
    | ok x =>
      rw [hl] at h
      cases h
      exact ⟨(assign_ne _ _ hp).symm, rfl, (assign_ne _ _ hp).symm⟩
  | rmsprop o =>
    unfold stepPair RMSProp.updateTensor at h
    dsimp only at h
    cases hl : RMSProp.loop o.opts ⟨mem p.1, lookupOrZero o.squaredGrads p.1 (mem p.1).shape,
        lookupOrZero o.meanGrads p.1 (mem p.1).shape, lookupOrZero o.velocityBuffers p.1 (mem p.1).shape⟩ p.2
      (currentLR o.opts.learningRate r) with
    | error e => rw [hl] at h; cases h
    | ok x =>
      rw [hl] at h
      cases h
      refine ⟨(assign_ne _ _ hp).symm, rfl, (assign_ne _ _ hp).symm, ?_, ?_⟩
      · dsimp only; split
        · exact (assign_ne _ _ hp).symm
        · rfl
      · dsimp only; split
        · exact (assign_ne _ _ hp).symm
        · rfl
  | adam o =>
    unfold stepPair Adam.updateTensor at h
    dsimp only at h
    cases hl : Adam.loop o.opts o.learningRate o.iterations (mem p.1, lookupOrZero o.m p.1 (mem p.1).shape,
        lookupOrZero o.v p.1 (mem p.1).shape) p.2 with
    | error e => rw [hl] at h; cases h
    | ok x =>
      rw [hl] at h
      cases h
      exact ⟨(assign_ne _ _ hp).symm, rfl, rfl, rfl, (assign_ne _ _ hp).symm, (assign_ne _ _ hp).symm⟩

/-- An update of `k` only uses what concerns `k`. -/
theorem stepPair_local {k : K} {r : T} {a b a' : World K T} {g : Tensor T} (hs : Same k a b)
    (h : stepPair r a (k, g) = .ok a') : ∃ b', stepPair r b (k, g) = .ok b' ∧ Same k a' b' := by
  obtain ⟨ma, oa⟩ := a
  obtain ⟨mb, ob⟩ := b
  cases oa with
  | sgd o =>
    cases ob with
    | rmsprop _ => exact hs.2.elim
    | adam _ => exact hs.2.elim
    | sgd o2 =>
      obtain ⟨hm, ho, hb⟩ := hs
      dsimp only at hm ho hb
      unfold stepPair SGD.updateTensor lookupOrZero at h ⊢
      dsimp only at h ⊢
      rw [← hm, ← ho, ← hb]
      generalize hl : SGD.loop o.opts (ma k) _ g _ = L at h ⊢
      cases L with
      | error e => cases h
      | ok x => cases h; exact ⟨_, rfl, by simp [Same]⟩
  | rmsprop o =>
    cases ob with
    | sgd _ => exact hs.2.elim
    | adam _ => exact hs.2.elim
    | rmsprop o2 =>
      obtain ⟨hm, ho, h1, h2, h3⟩ := hs
      dsimp only at hm ho h1 h2 h3
      unfold stepPair RMSProp.updateTensor lookupOrZero at h ⊢
      dsimp only at h ⊢
      rw [← hm, ← ho, ← h1, ← h2, ← h3]
      generalize hl : RMSProp.loop o.opts _ g _ = L at h ⊢
      cases L with
      | error e => cases h
      | ok x =>
        cases h
        refine ⟨_, rfl, by simp, rfl, by simp, ?_, ?_⟩
        · dsimp only; split <;> simp [h2]
        · dsimp only; split <;> simp [h3]
  | adam o =>
    cases ob with
    | sgd _ => exact hs.2.elim
    | rmsprop _ => exact hs.2.elim
    | adam o2 =>
      obtain ⟨hm, ho, h1, h2, h3, h4⟩ := hs
      dsimp only at hm ho h1 h2 h3 h4
      unfold stepPair Adam.updateTensor lookupOrZero at h ⊢
      dsimp only at h ⊢
      rw [← hm, ← ho, ← h1, ← h2, ← h3, ← h4]
      generalize hl : Adam.loop o.opts _ _ _ g = L at h ⊢
      cases L with
      | error e => cases h
      | ok x => cases h; exact ⟨_, rfl, by simp [Same, h1, h2]⟩

theorem updateTensors_same {k : K} {r : T} (ps : List (K × Tensor T)) : ∀ {a b a' : World K T}, Same k a b →
    a.updateTensors r ps = .ok a' →
    ∃ b', b.updateTensors r (ps.filter (fun p => decide (p.1 = k))) = .ok b' ∧ Same k a' b' := by
  induction ps with
  | nil =>
    intro a b a' hs h
    cases h
    exact ⟨b, rfl, hs⟩
  | cons p ps ih =>
    intro a b a' hs h
    rw [updateTensors_eq, List.foldlM_cons] at h
    cases h1 : stepPair r a p with
    | error e => rw [h1] at h; cases h
    | ok a1 =>
      rw [h1] at h
      have h2 : a1.updateTensors r ps = .ok a' := h
      by_cases hp : p.1 = k
      · obtain ⟨pk, pg⟩ := p
        subst hp
        obtain ⟨b1, hb1, hs1⟩ := stepPair_local hs h1
        obtain ⟨b', hb', hs'⟩ := ih hs1 h2
        refine ⟨b', ?_, hs'⟩
        rw [List.filter_cons_of_pos (by simp), updateTensors_eq, List.foldlM_cons, hb1]
        exact hb'
      · obtain ⟨b', hb', hs'⟩ := ih ((stepPair_frame (fun h => hp h.symm) h1).symm.trans hs) h2
        refine ⟨b', ?_, hs'⟩
        rw [List.filter_cons_of_neg (by simpa using hp)]
        exact hb'

end

end SmartDNN
