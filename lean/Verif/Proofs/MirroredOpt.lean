import Verif.Spec.Mirrored

/-!
# Optimizers and signs (for C119)
-/

namespace SmartDNN
open Net Spec

/-! ### One number -/

theorem sgdCell_mirror (o : SGDOptions ℝ) (lr g w v : ℝ) {s d : ℝ} (hs : s = 1 ∨ s = -1) (h : o.weightDecay = 0 ∨ d = 0) :
    sgdCell o lr (s * g + 0) (s * w + d, s * v + 0) = (s * (sgdCell o lr g (w, v)).1 + d, s * (sgdCell o lr g (w, v)).2 + 0) := by
  have e : (if o.weightDecay ≠ 0 then (s * g + 0) + o.weightDecay * (s * w + d) else s * g + 0) =
      s * (if o.weightDecay ≠ 0 then g + o.weightDecay * w else g) := by
    rcases h with h | rfl
    · simp [h]
    · split <;> ring
  unfold sgdCell
  dsimp only
  rw [e]
  generalize (if o.weightDecay ≠ 0 then g + o.weightDecay * w else g) = G
  split
  · refine Prod.ext ?_ ?_
    · dsimp only
      split <;> ring
    · dsimp only
      ring
  · exact Prod.ext (by dsimp only; ring) rfl

theorem rmsCell_mirror (o : RMSPropOptions ℝ) (lr g w q m v : ℝ) {s d : ℝ} (hs : s = 1 ∨ s = -1) (h : o.weightDecay = 0 ∨ d = 0) :
    rmsCell o lr (s * g + 0) (s * w + d, 1 * q + 0, s * m + 0, s * v + 0) =
      (s * (rmsCell o lr g (w, q, m, v)).1 + d, 1 * (rmsCell o lr g (w, q, m, v)).2.1 + 0, s * (rmsCell o lr g (w, q, m, v)).2.2.1 + 0,
        s * (rmsCell o lr g (w, q, m, v)).2.2.2 + 0) := by
  have hss : s * s = 1 := by rcases hs with rfl | rfl <;> norm_num
  have e : (if o.weightDecay ≠ 0 then (s * g + 0) + o.weightDecay * (s * w + d) else s * g + 0) =
      s * (if o.weightDecay ≠ 0 then g + o.weightDecay * w else g) := by
    rcases h with h | rfl
    · simp [h]
    · split <;> ring
  unfold rmsCell
  dsimp only
  rw [e]
  generalize (if o.weightDecay ≠ 0 then g + o.weightDecay * w else g) = G
  have eq : o.alpha * (1 * q + 0) + (1 - o.alpha) * (s * G) * (s * G) = o.alpha * q + (1 - o.alpha) * G * G := by
    linear_combination ((1 - o.alpha) * G * G) * hss
  have em : (if o.centered = true then o.alpha * (s * m + 0) + (1 - o.alpha) * (s * G) else s * m + 0) =
      s * (if o.centered = true then o.alpha * m + (1 - o.alpha) * G else m) := by
    split <;> ring
  rw [eq, em]
  generalize o.alpha * q + (1 - o.alpha) * G * G = Q
  generalize (if o.centered = true then o.alpha * m + (1 - o.alpha) * G else m) = M
  have ed : Q - s * M * (s * M) + o.epsilon = Q - M * M + o.epsilon := by linear_combination (-(M * M)) * hss
  rw [ed]
  generalize (if o.centered = true then MathFn.sqrt (Q - M * M + o.epsilon) else MathFn.sqrt (Q + o.epsilon)) = D
  refine Prod.ext ?_ (Prod.ext ?_ (Prod.ext ?_ ?_))
  · dsimp only
    split <;> ring
  · dsimp only
    ring
  · dsimp only
    ring
  · dsimp only
    split <;> ring

theorem adamCell_mirror (o : AdamOptions ℝ) (lr : ℝ) (it : Nat) (g w m v : ℝ) {s d : ℝ} (hs : s = 1 ∨ s = -1)
    (h : (o.l1Strength ≤ 0 ∧ o.l2Strength ≤ 0) ∨ d = 0) :
    adamCell o lr it (s * g + 0) (s * w + d, s * m + 0, 1 * v + 0) =
      (s * (adamCell o lr it g (w, m, v)).1 + d, s * (adamCell o lr it g (w, m, v)).2.1 + 0, 1 * (adamCell o lr it g (w, m, v)).2.2 + 0) := by
  have hss : s * s = 1 := by rcases hs with rfl | rfl <;> norm_num
  unfold adamCell Adam.updateParameter
  dsimp only
  have ev : o.beta2 * (1 * v + 0) + (1 - o.beta2) * ((s * g + 0) / (o.batchSize : ℝ)) * ((s * g + 0) / (o.batchSize : ℝ)) =
      o.beta2 * v + (1 - o.beta2) * (g / (o.batchSize : ℝ)) * (g / (o.batchSize : ℝ)) := by
    linear_combination ((1 - o.beta2) * (g / (o.batchSize : ℝ)) * (g / (o.batchSize : ℝ))) * hss
  have em : o.beta1 * (s * m + 0) + (1 - o.beta1) * ((s * g + 0) / (o.batchSize : ℝ)) = s * (o.beta1 * m + (1 - o.beta1) * (g / (o.batchSize : ℝ))) := by ring
  rw [ev, em]
  generalize o.beta2 * v + (1 - o.beta2) * (g / (o.batchSize : ℝ)) * (g / (o.batchSize : ℝ)) = V
  generalize o.beta1 * m + (1 - o.beta1) * (g / (o.batchSize : ℝ)) = M
  generalize MathFn.sqrt (V / (1 - MathFn.powi o.beta2 it)) + o.epsilon = D
  refine Prod.ext ?_ (Prod.ext ?_ ?_)
  · dsimp only
    rcases h with h | rfl
    · simp only [not_lt.2 h.1, not_lt.2 h.2, if_false]
      ring
    · have es : (if 0 < s * w + 0 then (1 : ℝ) else if s * w + 0 < 0 then -1 else 0) = s * (if 0 < w then 1 else if w < 0 then -1 else 0) := by
        rcases hs with rfl | rfl
        · simp
        · rcases lt_trichotomy w 0 with h | h | h
          · simp [h, not_lt.2 h.le]
          · simp [h]
          · simp [h, not_lt.2 h.le]
      rw [es]
      split <;> split <;> ring
  · dsimp only
    ring
  · dsimp only
    ring

/-! ### One tensor -/

section
variable {K : Type} [DecidableEq K]

/-- The frame has signs, and if something pulls the parameters towards zero it adds nothing. -/
def GoodFrame (free : Prop) : MFrame → Prop
  | none => True
  | some (_, s, d) => (∀ i, s i = 1 ∨ s i = -1) ∧ (free ∨ ∀ i, d i = 0)

theorem sgd_mirror_tensor (F : MFrame) (o : SGDOptions ℝ) (hF : GoodFrame (o.weightDecay = 0) F) (lr : ℝ) {w w' b b' g g' : Tensor ℝ} (hw : TensorMirror F w w')
    (hb : TensorMirror F.signs b b') (hg : TensorMirror F.signs g g') :
    Both (fun p q => TensorMirror F p.1 q.1 ∧ TensorMirror F.signs p.2 q.2) (SGD.loop o w b g lr) (SGD.loop o w' b' g' lr) := by
  rcases F with _ | ⟨ds, s, d⟩
  · cases hw
    cases hb
    cases hg
    exact both_refl (fun _ => ⟨rfl, rfl⟩) _
  · obtain ⟨w, rfl, rfl⟩ := hw
    obtain ⟨b, rfl, rfl⟩ := hb
    obtain ⟨g, rfl, rfl⟩ := hg
    have e := fun i => sgdCell_mirror o lr (g i) (w i) (b i) (hF.1 i) (hF.2.imp id fun h => h i)
    refine Or.inl ⟨_, _, sgd_loop_ofFn o ds w b g lr, sgd_loop_ofFn o ds _ _ _ lr, ⟨_, rfl, ?_⟩, ⟨_, rfl, ?_⟩⟩
    · exact congrArg (ofFn ds) (funext fun i => congrArg (fun p : ℝ × ℝ => p.1) (e i))
    · exact congrArg (ofFn ds) (funext fun i => congrArg (fun p : ℝ × ℝ => p.2) (e i))

theorem rms_mirror_tensor (F : MFrame) (o : RMSPropOptions ℝ) (hF : GoodFrame (o.weightDecay = 0) F) (lr : ℝ) {w w' q q' m m' v v' g g' : Tensor ℝ}
    (hw : TensorMirror F w w') (hq : TensorMirror F.same q q') (hm : TensorMirror F.signs m m') (hv : TensorMirror F.signs v v')
    (hg : TensorMirror F.signs g g') :
    Both (fun p q => TensorMirror F p.weight q.weight ∧ TensorMirror F.same p.sq q.sq ∧ TensorMirror F.signs p.mean q.mean ∧
      TensorMirror F.signs p.vel q.vel) (RMSProp.loop o ⟨w, q, m, v⟩ g lr) (RMSProp.loop o ⟨w', q', m', v'⟩ g' lr) := by
  rcases F with _ | ⟨ds, s, d⟩
  · cases hw
    cases hq
    cases hm
    cases hv
    cases hg
    exact both_refl (fun _ => ⟨rfl, rfl, rfl, rfl⟩) _
  · obtain ⟨w, rfl, rfl⟩ := hw
    obtain ⟨q, rfl, rfl⟩ := hq
    obtain ⟨m, rfl, rfl⟩ := hm
    obtain ⟨v, rfl, rfl⟩ := hv
    obtain ⟨g, rfl, rfl⟩ := hg
    have e := fun i => rmsCell_mirror o lr (g i) (w i) (q i) (m i) (v i) (hF.1 i) (hF.2.imp id fun h => h i)
    refine Or.inl ⟨_, _, rms_loop_ofFn o ds w q m v g lr, rms_loop_ofFn o ds _ _ _ _ _ lr, ⟨_, rfl, ?_⟩, ⟨_, rfl, ?_⟩, ⟨_, rfl, ?_⟩, ⟨_, rfl, ?_⟩⟩
    · exact congrArg (ofFn ds) (funext fun i => congrArg (fun p : ℝ × ℝ × ℝ × ℝ => p.1) (e i))
    · exact congrArg (ofFn ds) (funext fun i => congrArg (fun p : ℝ × ℝ × ℝ × ℝ => p.2.1) (e i))
    · exact congrArg (ofFn ds) (funext fun i => congrArg (fun p : ℝ × ℝ × ℝ × ℝ => p.2.2.1) (e i))
    · exact congrArg (ofFn ds) (funext fun i => congrArg (fun p : ℝ × ℝ × ℝ × ℝ => p.2.2.2) (e i))

theorem adam_mirror_tensor (F : MFrame) (o : AdamOptions ℝ) (hF : GoodFrame (o.l1Strength ≤ 0 ∧ o.l2Strength ≤ 0) F) (lr : ℝ) (it : Nat)
    {w w' m m' v v' g g' : Tensor ℝ} (hw : TensorMirror F w w') (hm : TensorMirror F.signs m m') (hv : TensorMirror F.same v v')
    (hg : TensorMirror F.signs g g') :
    Both (fun p q => TensorMirror F p.1 q.1 ∧ TensorMirror F.signs p.2.1 q.2.1 ∧ TensorMirror F.same p.2.2 q.2.2)
      (Adam.loop o lr it (w, m, v) g) (Adam.loop o lr it (w', m', v') g') := by
  rcases F with _ | ⟨ds, s, d⟩
  · cases hw
    cases hm
    cases hv
    cases hg
    exact both_refl (fun _ => ⟨rfl, rfl, rfl⟩) _
  · obtain ⟨w, rfl, rfl⟩ := hw
    obtain ⟨m, rfl, rfl⟩ := hm
    obtain ⟨v, rfl, rfl⟩ := hv
    obtain ⟨g, rfl, rfl⟩ := hg
    have e := fun i => adamCell_mirror o lr it (g i) (w i) (m i) (v i) (hF.1 i) (hF.2.imp id fun h => h i)
    refine Or.inl ⟨_, _, adam_loop_ofFn o lr it ds w m v g, adam_loop_ofFn o lr it ds _ _ _ _, ⟨_, rfl, ?_⟩, ⟨_, rfl, ?_⟩, ⟨_, rfl, ?_⟩⟩
    · exact congrArg (ofFn ds) (funext fun i => congrArg (fun p : ℝ × ℝ × ℝ => p.1) (e i))
    · exact congrArg (ofFn ds) (funext fun i => congrArg (fun p : ℝ × ℝ × ℝ => p.2.1) (e i))
    · exact congrArg (ofFn ds) (funext fun i => congrArg (fun p : ℝ × ℝ × ℝ => p.2.2) (e i))

theorem mapMirror_assign {fr : K → MFrame} {M M' : TMap K ℝ} (h : MapMirror fr M M') {k : K} {t t' : Tensor ℝ} (ht : TensorMirror (fr k) t t') :
    MapMirror fr (assign M k (some t)) (assign M' k (some t')) := by
  intro j
  by_cases hj : j = k
  · subst hj
    exact Or.inr ⟨t, t', assign_same _ _ _, assign_same _ _ _, ht⟩
  · rw [assign_ne _ _ hj, assign_ne _ _ hj]
    exact h j

theorem lookup_mirror_signs {fr : K → MFrame} {M M' : TMap K ℝ} (h : MapMirror (fun k => (fr k).signs) M M') (k : K) {t t' : Tensor ℝ}
    (ht : TensorMirror (fr k) t t') : TensorMirror (fr k).signs (lookupOrZero M k t.shape) (lookupOrZero M' k t'.shape) := by
  unfold lookupOrZero
  rcases h k with ⟨h1, h2⟩ | ⟨a, a', h1, h2, h3⟩
  · rw [h1, h2]
    rcases hf : fr k with _ | ⟨ds, s, d⟩
    · rw [hf] at ht
      exact congrArg (fun s => Tensor.full s 0) (congrArg Tensor.shape ht)
    · rw [hf] at ht
      obtain ⟨v, rfl, rfl⟩ := ht
      refine ⟨fun _ => 0, full_shapeOf ds 0, (full_shapeOf ds 0).trans ?_⟩
      exact congrArg (ofFn ds) (funext fun i => by simp)
  · rw [h1, h2]
    exact h3

theorem lookup_mirror_same {fr : K → MFrame} {M M' : TMap K ℝ} (h : MapMirror (fun k => (fr k).same) M M') (k : K) {t t' : Tensor ℝ}
    (ht : TensorMirror (fr k) t t') : TensorMirror (fr k).same (lookupOrZero M k t.shape) (lookupOrZero M' k t'.shape) := by
  unfold lookupOrZero
  rcases h k with ⟨h1, h2⟩ | ⟨a, a', h1, h2, h3⟩
  · rw [h1, h2]
    rcases hf : fr k with _ | ⟨ds, s, d⟩
    · rw [hf] at ht
      exact congrArg (fun s => Tensor.full s 0) (congrArg Tensor.shape ht)
    · rw [hf] at ht
      obtain ⟨v, rfl, rfl⟩ := ht
      refine ⟨fun _ => 0, full_shapeOf ds 0, (full_shapeOf ds 0).trans ?_⟩
      exact congrArg (ofFn ds) (funext fun i => by simp)
  · rw [h1, h2]
    exact h3

/-- One parameter. -/
theorem stepPair_mirror {fr : K → MFrame} (r : ℝ) {w w' : World K ℝ} (ho : OptMirror fr w.opt w'.opt) {k : K} (hF : GoodFrame (NoDecay w.opt) (fr k))
    {g g' : Tensor ℝ} (hm : TensorMirror (fr k) (w.mem k) (w'.mem k)) (hg : TensorMirror (fr k).signs g g') :
    Both (fun u u' => OptMirror fr u.opt u'.opt ∧ (NoDecay w.opt → NoDecay u.opt) ∧ TensorMirror (fr k) (u.mem k) (u'.mem k) ∧
      (∀ j, j ≠ k → u.mem j = w.mem j) ∧ ∀ j, j ≠ k → u'.mem j = w'.mem j) (stepPair r w (k, g)) (stepPair r w' (k, g')) := by
  obtain ⟨mem, o⟩ := w
  obtain ⟨mem', o'⟩ := w'
  simp only at hm ho
  have side : ∀ (m : K → Tensor ℝ) (t : Tensor ℝ) (j : K), j ≠ k → assign m k t j = m j := fun m t j hj => assign_ne _ _ hj
  cases o with
  | sgd o =>
    cases o' with
    | sgd o' =>
      obtain ⟨h1, h2⟩ := ho
      unfold stepPair SGD.updateTensor
      simp only [bind_assoc]
      rw [← h1]
      refine both_bind (sgd_mirror_tensor (fr k) o.opts hF _ hm (lookup_mirror_signs h2 k hm) hg) fun a b hab => Or.inl ⟨_, _, rfl, rfl, ?_⟩
      refine ⟨⟨rfl, mapMirror_assign h2 hab.2⟩, fun h => h, ?_, side _ _, side _ _⟩
      simp only [assign_same]
      exact hab.1
    | rmsprop o' => exact ho.elim
    | adam o' => exact ho.elim
  | rmsprop o =>
    cases o' with
    | sgd o' => exact ho.elim
    | rmsprop o' =>
      obtain ⟨h1, h2, h3, h4⟩ := ho
      unfold stepPair RMSProp.updateTensor
      simp only [bind_assoc]
      rw [← h1]
      refine both_bind (rms_mirror_tensor (fr k) o.opts hF _ hm (lookup_mirror_same h2 k hm) (lookup_mirror_signs h3 k hm) (lookup_mirror_signs h4 k hm) hg)
        fun a b hab => Or.inl ⟨_, _, rfl, rfl, ?_⟩
      refine ⟨⟨rfl, mapMirror_assign h2 hab.2.1, ?_, ?_⟩, fun h => h, ?_, side _ _, side _ _⟩
      · dsimp only
        split
        · exact mapMirror_assign h3 hab.2.2.1
        · exact h3
      · dsimp only
        split
        · exact mapMirror_assign h4 hab.2.2.2
        · exact h4
      · simp only [assign_same]
        exact hab.1
    | adam o' => exact ho.elim
  | adam o =>
    cases o' with
    | sgd o' => exact ho.elim
    | rmsprop o' => exact ho.elim
    | adam o' =>
      obtain ⟨h1, h2, h3, h4, h5⟩ := ho
      unfold stepPair Adam.updateTensor
      simp only [bind_assoc]
      rw [← h1, ← h2, ← h3]
      refine both_bind (adam_mirror_tensor (fr k) o.opts hF _ _ hm (lookup_mirror_signs h4 k hm) (lookup_mirror_same h5 k hm) hg)
        fun a b hab => Or.inl ⟨_, _, rfl, rfl, ?_⟩
      refine ⟨⟨rfl, rfl, rfl, mapMirror_assign h4 hab.2.1, mapMirror_assign h5 hab.2.2⟩, fun h => h, ?_, side _ _, side _ _⟩
      simp only [assign_same]
      exact hab.1

theorem goodFrame_imp {A B : Prop} (h : A → B) {F : MFrame} (hF : GoodFrame A F) : GoodFrame B F := by
  rcases F with _ | ⟨ds, s, d⟩
  · trivial
  · exact ⟨hF.1, hF.2.imp h id⟩

/-- One call of the optimizer with the two parameters of a layer. -/
theorem optimizePair_mirror {fr : K → MFrame} {k0 k1 : K} (hk : k0 ≠ k1) {opt opt' : Optimizer K ℝ} (ho : OptMirror fr opt opt')
    (hF0 : GoodFrame (NoDecay opt) (fr k0)) (hF1 : GoodFrame (NoDecay opt) (fr k1))
    {p0 p0' p1 p1' g0 g0' g1 g1' : Tensor ℝ} (hp0 : TensorMirror (fr k0) p0 p0') (hp1 : TensorMirror (fr k1) p1 p1')
    (hg0 : TensorMirror (fr k0).signs g0 g0') (hg1 : TensorMirror (fr k1).signs g1 g1') :
    let r := Layer.optimizePair k0 k1 opt p0 p1 g0 g1
    let r' := Layer.optimizePair k0 k1 opt' p0' p1' g0' g1'
    r.1 = r'.1 ∧ TensorMirror (fr k0) r.2.1 r'.2.1 ∧ TensorMirror (fr k1) r.2.2.1 r'.2.2.1 ∧ OptMirror fr r.2.2.2 r'.2.2.2 ∧
      (NoDecay opt → NoDecay r.2.2.2) := by
  intro r r'
  let w : World K ℝ := ⟨fun k => if k = k0 then p0 else p1, opt⟩
  let w' : World K ℝ := ⟨fun k => if k = k0 then p0' else p1', opt'⟩
  have hm0 : ∀ v, (World.begin w v).mem = w.mem := by intro v; unfold World.begin; split <;> rfl
  have hm0' : ∀ v, (World.begin w' v).mem = w'.mem := by intro v; unfold World.begin; split <;> rfl
  have hn : NoDecay opt → NoDecay (World.begin w (-1)).opt := by
    intro h
    rcases opt with o | o | o <;> exact h
  have hb : OptMirror fr (World.begin w (-1)).opt (World.begin w' (-1)).opt := by
    rcases opt with o | o | o <;> rcases opt' with o' | o' | o' <;> first | exact ho | exact ho.elim | skip
    obtain ⟨h1, h2, h3, h4, h5⟩ := ho
    refine ⟨h1, ?_, ?_, h4, h5⟩
    · show (Adam.updateLearningRate o _).learningRate = (Adam.updateLearningRate o' _).learningRate
      unfold Adam.updateLearningRate
      simp only [h1, h3]
    · show (Adam.updateLearningRate o _).iterations = (Adam.updateLearningRate o' _).iterations
      unfold Adam.updateLearningRate
      simp only [h3]
  have e0 : w.mem k0 = p0 := if_pos rfl
  have e1 : w.mem k1 = p1 := if_neg hk.symm
  have e0' : w'.mem k0 = p0' := if_pos rfl
  have e1' : w'.mem k1 = p1' := if_neg hk.symm
  have key : Both (fun u u' => OptMirror fr u.opt u'.opt ∧ (NoDecay opt → NoDecay u.opt) ∧ TensorMirror (fr k0) (u.mem k0) (u'.mem k0) ∧
      TensorMirror (fr k1) (u.mem k1) (u'.mem k1)) ((World.begin w (-1)).updateTensors (-1) [(k0, g0), (k1, g1)])
      ((World.begin w' (-1)).updateTensors (-1) [(k0, g0'), (k1, g1')]) := by
    rw [updateTensors_eq, updateTensors_eq, List.foldlM_cons, List.foldlM_cons]
    refine both_bind (stepPair_mirror (-1) hb (goodFrame_imp hn hF0) (by rw [hm0, hm0', e0, e0']; exact hp0) hg0) fun a a' ha => ?_
    rw [List.foldlM_cons, List.foldlM_cons]
    obtain ⟨a1, an, a2, a3, a4⟩ := ha
    refine both_bind (stepPair_mirror (-1) a1 (goodFrame_imp (fun h => an (hn h)) hF1)
      (by rw [a3 k1 hk.symm, a4 k1 hk.symm, hm0, hm0', e1, e1']; exact hp1) hg1) fun b b' hb => ?_
    obtain ⟨b1, bn, b2, b3, b4⟩ := hb
    refine Or.inl ⟨b, b', rfl, rfl, b1, fun h => bn (an (hn h)), ?_, b2⟩
    rw [b3 k0 hk, b4 k0 hk]
    exact a2
  have hr : r = ((World.optimizeM ⟨[k0, k1], [g0, g1], -1⟩ w).1, (World.optimizeM ⟨[k0, k1], [g0, g1], -1⟩ w).2.mem k0,
    (World.optimizeM ⟨[k0, k1], [g0, g1], -1⟩ w).2.mem k1, (World.optimizeM ⟨[k0, k1], [g0, g1], -1⟩ w).2.opt) := rfl
  have hr' : r' = ((World.optimizeM ⟨[k0, k1], [g0', g1'], -1⟩ w').1, (World.optimizeM ⟨[k0, k1], [g0', g1'], -1⟩ w').2.mem k0,
    (World.optimizeM ⟨[k0, k1], [g0', g1'], -1⟩ w').2.mem k1, (World.optimizeM ⟨[k0, k1], [g0', g1'], -1⟩ w').2.opt) := rfl
  rw [hr, hr']
  rcases key with ⟨u, u', h1, h2, h3, h6, h4, h5⟩ | ⟨e, h1, h2⟩
  · have q1 : World.optimizeM ⟨[k0, k1], [g0, g1], -1⟩ w = (.ok (), u) := by
      simp [World.optimizeM, h1]
    have q2 : World.optimizeM ⟨[k0, k1], [g0', g1'], -1⟩ w' = (.ok (), u') := by
      simp [World.optimizeM, h2]
    rw [q1, q2]
    exact ⟨rfl, h4, h5, h3, h6⟩
  · have q1 : World.optimizeM ⟨[k0, k1], [g0, g1], -1⟩ w = (.error e, w) := by
      simp [World.optimizeM, h1]
    have q2 : World.optimizeM ⟨[k0, k1], [g0', g1'], -1⟩ w' = (.error e, w') := by
      simp [World.optimizeM, h2]
    rw [q1, q2]
    refine ⟨rfl, ?_, ?_, ho, fun h => h⟩
    · show TensorMirror _ (w.mem k0) (w'.mem k0)
      rw [e0, e0']
      exact hp0
    · show TensorMirror _ (w.mem k1) (w'.mem k1)
      rw [e1, e1']
      exact hp1

end

end SmartDNN
