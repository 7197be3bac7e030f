import Verif.Spec.Columns

/-!
# Optimizers and one column (for C120)
-/

namespace SmartDNN
open Net Spec

section
variable {K : Type} [DecidableEq K]

theorem mapAligned_assign {j : Nat} {fr : K → Option (List Nat)} {M M' : TMap K ℝ} (h : MapAligned j fr M M') {k : K} {t t' : Tensor ℝ} (ht : TensorAligned j (fr k) t t') :
    MapAligned j fr (assign M k (some t)) (assign M' k (some t')) := by
  intro x
  by_cases hj : x = k
  · subst hj
    exact Or.inr ⟨t, t', assign_same _ _ _, assign_same _ _ _, ht⟩
  · rw [assign_ne _ _ hj, assign_ne _ _ hj]
    exact h x

theorem lookup_aligned {j : Nat} {fr : K → Option (List Nat)} {M M' : TMap K ℝ} (h : MapAligned j fr M M') (k : K) {t t' : Tensor ℝ} (ht : TensorAligned j (fr k) t t') :
    TensorAligned j (fr k) (lookupOrZero M k t.shape) (lookupOrZero M' k t'.shape) := by
  unfold lookupOrZero
  rcases h k with ⟨h1, h2⟩ | ⟨a, a', h1, h2, h3⟩
  · rw [h1, h2]
    rcases hf : fr k with _ | ds
    · rw [hf] at ht
      exact congrArg (fun s => Tensor.full s 0) (congrArg Tensor.shape ht)
    · rw [hf] at ht
      obtain ⟨v, v', rfl, rfl, -⟩ := ht
      exact ⟨fun _ => 0, fun _ => 0, full_shapeOf ds 0, full_shapeOf ds 0, fun _ _ _ => rfl⟩
  · rw [h1, h2]
    exact h3

theorem sgd_aligned {j : Nat} (F : Option (List Nat)) (o : SGDOptions ℝ) (lr : ℝ) {w w' b b' g g' : Tensor ℝ} (hw : TensorAligned j F w w') (hb : TensorAligned j F b b')
    (hg : TensorAligned j F g g') :
    Both (fun p q => TensorAligned j F p.1 q.1 ∧ TensorAligned j F p.2 q.2) (SGD.loop o w b g lr) (SGD.loop o w' b' g' lr) := by
  rcases F with _ | ds
  · cases hw
    cases hb
    cases hg
    exact both_refl (fun _ => ⟨rfl, rfl⟩) _
  · obtain ⟨w, w', rfl, rfl, ew⟩ := hw
    obtain ⟨b, b', rfl, rfl, eb⟩ := hb
    obtain ⟨g, g', rfl, rfl, eg⟩ := hg
    exact Or.inl ⟨_, _, sgd_loop_ofFn o ds w b g lr, sgd_loop_ofFn o ds _ _ _ lr, ⟨_, _, rfl, rfl, fun i hv hi => by beta_reduce; rw [ew i hv hi, eb i hv hi, eg i hv hi]⟩, ⟨_, _, rfl, rfl, fun i hv hi => by beta_reduce; rw [ew i hv hi, eb i hv hi, eg i hv hi]⟩⟩

theorem rms_aligned {j : Nat} (F : Option (List Nat)) (o : RMSPropOptions ℝ) (lr : ℝ) {w w' q q' m m' v v' g g' : Tensor ℝ} (hw : TensorAligned j F w w')
    (hq : TensorAligned j F q q') (hm : TensorAligned j F m m') (hv : TensorAligned j F v v') (hg : TensorAligned j F g g') :
    Both (fun p q => TensorAligned j F p.weight q.weight ∧ TensorAligned j F p.sq q.sq ∧ TensorAligned j F p.mean q.mean ∧ TensorAligned j F p.vel q.vel)
      (RMSProp.loop o ⟨w, q, m, v⟩ g lr) (RMSProp.loop o ⟨w', q', m', v'⟩ g' lr) := by
  rcases F with _ | ds
  · cases hw
    cases hq
    cases hm
    cases hv
    cases hg
    exact both_refl (fun _ => ⟨rfl, rfl, rfl, rfl⟩) _
  · obtain ⟨w, w', rfl, rfl, ew⟩ := hw
    obtain ⟨q, q', rfl, rfl, eq⟩ := hq
    obtain ⟨m, m', rfl, rfl, em⟩ := hm
    obtain ⟨v, v', rfl, rfl, ev⟩ := hv
    obtain ⟨g, g', rfl, rfl, eg⟩ := hg
    exact Or.inl ⟨_, _, rms_loop_ofFn o ds w q m v g lr, rms_loop_ofFn o ds _ _ _ _ _ lr, ⟨_, _, rfl, rfl, fun i hv hi => by beta_reduce; rw [ew i hv hi, eq i hv hi, em i hv hi, ev i hv hi, eg i hv hi]⟩, ⟨_, _, rfl, rfl, fun i hv hi => by beta_reduce; rw [ew i hv hi, eq i hv hi, em i hv hi, ev i hv hi, eg i hv hi]⟩, ⟨_, _, rfl, rfl, fun i hv hi => by beta_reduce; rw [ew i hv hi, eq i hv hi, em i hv hi, ev i hv hi, eg i hv hi]⟩, ⟨_, _, rfl, rfl, fun i hv hi => by beta_reduce; rw [ew i hv hi, eq i hv hi, em i hv hi, ev i hv hi, eg i hv hi]⟩⟩

theorem adam_aligned {j : Nat} (F : Option (List Nat)) (o : AdamOptions ℝ) (lr : ℝ) (it : Nat) {w w' m m' v v' g g' : Tensor ℝ} (hw : TensorAligned j F w w')
    (hm : TensorAligned j F m m') (hv : TensorAligned j F v v') (hg : TensorAligned j F g g') :
    Both (fun p q => TensorAligned j F p.1 q.1 ∧ TensorAligned j F p.2.1 q.2.1 ∧ TensorAligned j F p.2.2 q.2.2)
      (Adam.loop o lr it (w, m, v) g) (Adam.loop o lr it (w', m', v') g') := by
  rcases F with _ | ds
  · cases hw
    cases hm
    cases hv
    cases hg
    exact both_refl (fun _ => ⟨rfl, rfl, rfl⟩) _
  · obtain ⟨w, w', rfl, rfl, ew⟩ := hw
    obtain ⟨m, m', rfl, rfl, em⟩ := hm
    obtain ⟨v, v', rfl, rfl, ev⟩ := hv
    obtain ⟨g, g', rfl, rfl, eg⟩ := hg
    exact Or.inl ⟨_, _, adam_loop_ofFn o lr it ds w m v g, adam_loop_ofFn o lr it ds _ _ _ _, ⟨_, _, rfl, rfl, fun i hv hi => by beta_reduce; rw [ew i hv hi, em i hv hi, ev i hv hi, eg i hv hi]⟩, ⟨_, _, rfl, rfl, fun i hv hi => by beta_reduce; rw [ew i hv hi, em i hv hi, ev i hv hi, eg i hv hi]⟩, ⟨_, _, rfl, rfl, fun i hv hi => by beta_reduce; rw [ew i hv hi, em i hv hi, ev i hv hi, eg i hv hi]⟩⟩

/-- One parameter. -/
theorem stepPair_aligned {j : Nat} {fr : K → Option (List Nat)} (r : ℝ) {w w' : World K ℝ} (ho : OptAligned j fr w.opt w'.opt) {k : K} {g g' : Tensor ℝ}
    (hm : TensorAligned j (fr k) (w.mem k) (w'.mem k)) (hg : TensorAligned j (fr k) g g') :
    Both (fun u u' => OptAligned j fr u.opt u'.opt ∧ TensorAligned j (fr k) (u.mem k) (u'.mem k) ∧ (∀ x, x ≠ k → u.mem x = w.mem x) ∧
      ∀ x, x ≠ k → u'.mem x = w'.mem x) (stepPair r w (k, g)) (stepPair r w' (k, g')) := by
  obtain ⟨mem, o⟩ := w
  obtain ⟨mem', o'⟩ := w'
  simp only at hm ho
  have side : ∀ (m : K → Tensor ℝ) (t : Tensor ℝ) (x : K), x ≠ k → assign m k t x = m x := fun m t x hj => assign_ne _ _ hj
  cases o with
  | sgd o =>
    cases o' with
    | sgd o' =>
      obtain ⟨h1, h2⟩ := ho
      unfold stepPair SGD.updateTensor
      simp only [bind_assoc]
      rw [← h1]
      refine both_bind (sgd_aligned (fr k) o.opts _ hm (lookup_aligned h2 k hm) hg) fun a b hab => Or.inl ⟨_, _, rfl, rfl, ?_⟩
      refine ⟨⟨rfl, mapAligned_assign h2 hab.2⟩, ?_, side _ _, side _ _⟩
      simp only [assign_same]
      exact hab.1
    | rmsprop o' => exact ho.elim
    | adam o' => exact ho.elim
  | rmsprop o =>
    cases o' with
    | sgd o' => exact ho.elim
    | rmsprop o' =>
      obtain ⟨h1, h2, h3, h4⟩ := ho
      unfold stepPair RMSProp.updateTensor
      simp only [bind_assoc]
      rw [← h1]
      refine both_bind (rms_aligned (fr k) o.opts _ hm (lookup_aligned h2 k hm) (lookup_aligned h3 k hm) (lookup_aligned h4 k hm) hg)
        fun a b hab => Or.inl ⟨_, _, rfl, rfl, ?_⟩
      refine ⟨⟨rfl, mapAligned_assign h2 hab.2.1, ?_, ?_⟩, ?_, side _ _, side _ _⟩
      · dsimp only
        split
        · exact mapAligned_assign h3 hab.2.2.1
        · exact h3
      · dsimp only
        split
        · exact mapAligned_assign h4 hab.2.2.2
        · exact h4
      · simp only [assign_same]
        exact hab.1
    | adam o' => exact ho.elim
  | adam o =>
    cases o' with
    | sgd o' => exact ho.elim
    | rmsprop o' => exact ho.elim
    | adam o' =>
      obtain ⟨h1, h2, h3, h4, h5⟩ := ho
      unfold stepPair Adam.updateTensor
      simp only [bind_assoc]
      rw [← h1, ← h2, ← h3]
      refine both_bind (adam_aligned (fr k) o.opts _ _ hm (lookup_aligned h4 k hm) (lookup_aligned h5 k hm) hg)
        fun a b hab => Or.inl ⟨_, _, rfl, rfl, ?_⟩
      refine ⟨⟨rfl, rfl, rfl, mapAligned_assign h4 hab.2.1, mapAligned_assign h5 hab.2.2⟩, ?_, side _ _, side _ _⟩
      simp only [assign_same]
      exact hab.1

/-- One call of the optimizer with the two parameters of a layer. -/
theorem optimizePair_aligned {j : Nat} {fr : K → Option (List Nat)} {k0 k1 : K} (hk : k0 ≠ k1) {opt opt' : Optimizer K ℝ} (ho : OptAligned j fr opt opt')
    {p0 p0' p1 p1' g0 g0' g1 g1' : Tensor ℝ} (hp0 : TensorAligned j (fr k0) p0 p0') (hp1 : TensorAligned j (fr k1) p1 p1')
    (hg0 : TensorAligned j (fr k0) g0 g0') (hg1 : TensorAligned j (fr k1) g1 g1') :
    let r := Layer.optimizePair k0 k1 opt p0 p1 g0 g1
    let r' := Layer.optimizePair k0 k1 opt' p0' p1' g0' g1'
    r.1 = r'.1 ∧ TensorAligned j (fr k0) r.2.1 r'.2.1 ∧ TensorAligned j (fr k1) r.2.2.1 r'.2.2.1 ∧ OptAligned j fr r.2.2.2 r'.2.2.2 := by
  intro r r'
  let w : World K ℝ := ⟨fun k => if k = k0 then p0 else p1, opt⟩
  let w' : World K ℝ := ⟨fun k => if k = k0 then p0' else p1', opt'⟩
  have hm0 : ∀ v, (World.begin w v).mem = w.mem := by intro v; unfold World.begin; split <;> rfl
  have hm0' : ∀ v, (World.begin w' v).mem = w'.mem := by intro v; unfold World.begin; split <;> rfl
  have hb : OptAligned j fr (World.begin w (-1)).opt (World.begin w' (-1)).opt := by
    rcases opt with o | o | o <;> rcases opt' with o' | o' | o' <;> first | exact ho | exact ho.elim | skip
    obtain ⟨h1, h2, h3, h4, h5⟩ := ho
    refine ⟨h1, ?_, ?_, h4, h5⟩
    · show (Adam.updateLearningRate o _).learningRate = (Adam.updateLearningRate o' _).learningRate
      unfold Adam.updateLearningRate
      simp only [h1, h3]
    · show (Adam.updateLearningRate o _).iterations = (Adam.updateLearningRate o' _).iterations
      unfold Adam.updateLearningRate
      simp only [h3]
  have e0 : w.mem k0 = p0 := if_pos rfl
  have e1 : w.mem k1 = p1 := if_neg hk.symm
  have e0' : w'.mem k0 = p0' := if_pos rfl
  have e1' : w'.mem k1 = p1' := if_neg hk.symm
  have key : Both (fun u u' => OptAligned j fr u.opt u'.opt ∧ TensorAligned j (fr k0) (u.mem k0) (u'.mem k0) ∧
      TensorAligned j (fr k1) (u.mem k1) (u'.mem k1)) ((World.begin w (-1)).updateTensors (-1) [(k0, g0), (k1, g1)])
      ((World.begin w' (-1)).updateTensors (-1) [(k0, g0'), (k1, g1')]) := by
    rw [updateTensors_eq, updateTensors_eq, List.foldlM_cons, List.foldlM_cons]
    refine both_bind (stepPair_aligned (-1) hb (by rw [hm0, hm0', e0, e0']; exact hp0) hg0) fun a a' ha => ?_
    rw [List.foldlM_cons, List.foldlM_cons]
    obtain ⟨a1, a2, a3, a4⟩ := ha
    refine both_bind (stepPair_aligned (-1) a1 (by rw [a3 k1 hk.symm, a4 k1 hk.symm, hm0, hm0', e1, e1']; exact hp1) hg1) fun b b' hb => ?_
    obtain ⟨b1, b2, b3, b4⟩ := hb
    refine Or.inl ⟨b, b', rfl, rfl, b1, ?_, b2⟩
    rw [b3 k0 hk, b4 k0 hk]
    exact a2
  have hr : r = ((World.optimizeM ⟨[k0, k1], [g0, g1], -1⟩ w).1, (World.optimizeM ⟨[k0, k1], [g0, g1], -1⟩ w).2.mem k0,
    (World.optimizeM ⟨[k0, k1], [g0, g1], -1⟩ w).2.mem k1, (World.optimizeM ⟨[k0, k1], [g0, g1], -1⟩ w).2.opt) := rfl
  have hr' : r' = ((World.optimizeM ⟨[k0, k1], [g0', g1'], -1⟩ w').1, (World.optimizeM ⟨[k0, k1], [g0', g1'], -1⟩ w').2.mem k0,
    (World.optimizeM ⟨[k0, k1], [g0', g1'], -1⟩ w').2.mem k1, (World.optimizeM ⟨[k0, k1], [g0', g1'], -1⟩ w').2.opt) := rfl
  rw [hr, hr']
  rcases key with ⟨u, u', h1, h2, h3, h4, h5⟩ | ⟨e, h1, h2⟩
  · have q1 : World.optimizeM ⟨[k0, k1], [g0, g1], -1⟩ w = (.ok (), u) := by
      simp [World.optimizeM, h1]
    have q2 : World.optimizeM ⟨[k0, k1], [g0', g1'], -1⟩ w' = (.ok (), u') := by
      simp [World.optimizeM, h2]
    rw [q1, q2]
    exact ⟨rfl, h4, h5, h3⟩
  · have q1 : World.optimizeM ⟨[k0, k1], [g0, g1], -1⟩ w = (.error e, w) := by
      simp [World.optimizeM, h1]
    have q2 : World.optimizeM ⟨[k0, k1], [g0', g1'], -1⟩ w' = (.error e, w') := by
      simp [World.optimizeM, h2]
    rw [q1, q2]
    refine ⟨rfl, ?_, ?_, ho⟩
    · show TensorAligned j _ (w.mem k0) (w'.mem k0)
      rw [e0, e0']
      exact hp0
    · show TensorAligned j _ (w.mem k1) (w'.mem k1)
      rw [e1, e1']
      exact hp1

end

end SmartDNN
