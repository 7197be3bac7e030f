import Verif.Spec.Thinned
import Verif.Props.Descent

/-!
# Training with dropout (C112)
-/

namespace SmartDNN
open Net Spec

theorem HasVJP.smul {ds es : List Nat} {F : (List Nat → ℝ) → List Nat → ℝ} {x : List Nat → ℝ} {A : (List Nat → ℝ) → List Nat → ℝ} (h : HasVJP ds es F x A)
    (κ : ℝ) (g : List Nat → ℝ) {i : List Nat} (hi : ValidIdx ds i) : A (fun j => κ * g j) i = κ * A g i := by
  refine (h fun j => κ * g j).unique (r' := fun i => κ * A g i) ?_ hi
  intro c v hc
  have h1 := (h g c v hc).const_mul κ
  have e1 : total ds (fun i => κ * A g i * v i) = κ * total ds fun i => A g i * v i := by
    rw [← total_mul_left]
    exact total_congr fun i _ => by ring
  rw [e1]
  refine h1.congr_of_eventuallyEq (Filter.Eventually.of_forall fun t => ?_)
  beta_reduce
  rw [← total_mul_left]
  exact total_congr fun i _ => by ring

theorem dropout_vjp (p : ℝ) (ds : List Nat) (u x : List Nat → ℝ) :
    HasVJP ds ds (Spec.dropout p u) x fun g i => g i * if p < u i then 1 / (1 - p) else 0 := by
  intro g c v hc
  have : total ds (fun i => g i * (if p < u i then 1 / (1 - p) else 0) * v i) = total ds (fun i => g i * (if p < u i then v i / (1 - p) else 0)) :=
    total_congr fun i _ => by split <;> ring
  rw [this]
  apply hasDerivAt_total (f := fun i t => g i * Spec.dropout p u (c t) i)
  intro i hi
  apply HasDerivAt.const_mul
  unfold Spec.dropout
  split
  · exact (hc.2 i hi).div_const _
  · exact hasDerivAt_const _ _

theorem thinned_forward {ρ : Type} {E : Engine ρ ℝ} {ls : List (Layer ℝ)} {r r' : ρ} {ds es : List Nat} {F : (List Nat → ℝ) → List Nat → ℝ} {x : List Nat → ℝ}
    {κ : ℝ} (h : Thinned E ls r ds es F x κ r') :
    ∃ (ls' : List (Layer ℝ)) (A : (List Nat → ℝ) → List Nat → ℝ), ls'.length = ls.length ∧ HasVJP ds es F x A ∧ Extensional ds es F ∧
      forwardLayers E ls (ofFn ds x) r = (.ok (ofFn es (F x)), ls', r') ∧
      ∀ g, (backwardLayers ls' (ofFn es g)).1 = .ok (ofFn ds fun i => κ * A g i) := by
  induction h with
  | nil ds x r =>
    refine ⟨[], fun g => g, rfl, hasVJP_id ds x, fun _ _ h => h, rfl, fun g => ?_⟩
    simp only [one_mul]
    rfl
  | @plain l ls r r' ds es hs F G x κ hl _ ih =>
    obtain ⟨l', A, h1, h2, h3, h4⟩ := layerAt_step (ρ := ρ) hl
    obtain ⟨ls', B, k0, k1, k2, k3, k4⟩ := ih
    refine ⟨l' :: ls', fun g => A (B g), by simp [k0], k1.comp h1 h2, fun x y hxy => k2 _ _ (h2 x y hxy), ?_, fun g => ?_⟩
    · unfold forwardLayers
      rw [h3 E r]
      simp only
      rw [k3]
    · unfold backwardLayers
      have k := k4 g
      rcases hb : backwardLayers ls' (ofFn hs g) with ⟨res, ls''⟩
      rw [hb] at k
      simp only at k
      subst k
      refine (h4 fun i => κ * B g i).trans (congrArg Except.ok (ofFn_congr fun i hi => ?_))
      exact HasVJP.smul h1 κ (B g) hi
  | @dropout l ls r r1 r' ds hs G u x κ hd hp hu _ ih =>
    obtain ⟨ls', B, k0, k1, k2, k3, k4⟩ := ih
    have he : Extensional ds ds (Spec.dropout l.dropoutRate u) := fun x y hxy i hi => by
      unfold Spec.dropout
      rw [hxy i hi]
    refine ⟨⟨.dropout { l with mask := some (ofFn ds (fun i => if l.dropoutRate < u i then 1 else 0)) }, true⟩ :: ls',
      fun g i => B g i * if l.dropoutRate < u i then 1 / (1 - l.dropoutRate) else 0, by simp [k0], k1.comp (dropout_vjp _ _ _ _) he,
      fun x y hxy => k2 _ _ (he x y hxy), ?_, fun g => ?_⟩
    · have e : ofFn ds (fun i => x i * (if l.dropoutRate < u i then 1 else 0) * (1 / (1 - l.dropoutRate))) = ofFn ds (Spec.dropout l.dropoutRate u x) :=
        ofFn_congr fun i _ => by
          unfold Spec.dropout
          split
          · rw [mul_one, mul_one_div]
          · rw [mul_zero, zero_mul]
      unfold forwardLayers
      simp only [Layer.forward, Layer.onKind, dropout_forward_training E hd x l r hu, e]
      rw [k3]
    · unfold backwardLayers
      have k := k4 g
      rcases hb : backwardLayers ls' (ofFn hs g) with ⟨res, ls''⟩
      rw [hb] at k
      simp only at k
      subst k
      simp only [Layer.backward, Layer.onKind, Dropout.backward, Mut.get_bind]
      simp only [derefOpt, Mut.lift_ok_bind, ofFn_shape, beq_shapeOf, decide_true, Bool.not_true, Bool.false_eq_true,
        if_false, if_true, Mut.lift_apply]
      rw [mul_same hd]
      refine congrArg Except.ok (ofFn_congr fun i _ => ?_)
      have : (1 : ℝ) - l.dropoutRate ≠ 0 := fun h0 => hp (by linarith)
      split
      · field_simp
      · simp

end SmartDNN
