import Verif.Spec.Rewrite
import Verif.Proofs.Whole
import Verif.Proofs.BatchRows
import Verif.Props.MaxPool
import Verif.Props.Flatten

/-!
# Rewriting models (proofs for C109)
-/

namespace SmartDNN
open Net Spec

section
variable {ρ T : Type} [Zero T] [One T] [Add T] [Sub T] [Mul T] [Div T] [Neg T] [NatCast T] [IntCast T]
  [LT T] [DecidableLT T] [LE T] [DecidableLE T] [DecidableEq T] [MathFn T]
variable (E : Engine ρ T)

theorem answer_step {l : Layer T} {ls : List (Layer T)} {x y : Tensor T} {r : ρ} {l' : Layer T} {r' : ρ}
    (h : Layer.forward E x (l, r) = (.ok y, l', r')) : answer E (l :: ls) x r = answer E ls y r' := by
  unfold answer
  rw [show forwardLayers E (l :: ls) x r = _ from by rw [forwardLayers, h]]

theorem answer_fail {l : Layer T} {ls : List (Layer T)} {x : Tensor T} {e : Err} {r : ρ} {l' : Layer T} {r' : ρ}
    (h : Layer.forward E x (l, r) = (.error e, l', r')) : answer E (l :: ls) x r = (.error e, r') := by
  unfold answer
  rw [show forwardLayers E (l :: ls) x r = _ from by rw [forwardLayers, h]]

theorem answer_append (x : Tensor T) (r : ρ) (pre post : List (Layer T)) : answer E (pre ++ post) x r =
    match answer E pre x r with
    | (.ok y, r') => answer E post y r'
    | (.error e, r') => (.error e, r') := by
  induction pre generalizing x r with
  | nil => rfl
  | cons l pre ih =>
    rw [List.cons_append]
    rcases h : Layer.forward E x (l, r) with ⟨_ | y, l', r'⟩
    · rw [answer_fail E h, answer_fail E h]
    · rw [answer_step E h, answer_step E h, ih]

theorem replace_middle {ds : List Nat} {mid mid' pre post : List (Layer T)} (h : Interchangeable E ds mid mid') {x : Tensor T} {r : ρ}
    (hx : ∀ y, (forwardLayers E pre x r).1 = .ok y → ∃ f, y = ofFn ds f) :
    answer E (pre ++ mid ++ post) x r = answer E (pre ++ mid' ++ post) x r := by
  rw [List.append_assoc, List.append_assoc, answer_append E x r pre, answer_append E x r pre]
  have hx' : ∀ y, (answer E pre x r).1 = .ok y → ∃ f, y = ofFn ds f := hx
  generalize answer E pre x r = o at hx' ⊢
  obtain ⟨_ | y, r'⟩ := o
  · rfl
  · obtain ⟨f, rfl⟩ := hx' y rfl
    show answer E (mid ++ post) _ r' = answer E (mid' ++ post) _ r'
    rw [answer_append, answer_append, h f r']

theorem answer_dense {w b x y : Tensor T} (ls : List (Layer T)) (r : ρ) (h : FC.affine w b x = .ok y) :
    answer E (denseLayer w b :: ls) x r = answer E ls y r :=
  answer_step (l' := ⟨.fc ⟨w, b, some x, none, none⟩, true⟩) (r' := r) E (by rw [← h]; rfl)

theorem answer_act {a : Act T} {x y : Tensor T} (ls : List (Layer T)) (r : ρ) (h : a.forward x = .ok y) :
    answer E (actLayer a :: ls) x r = answer E ls y r :=
  answer_step (l' := ⟨.activation ⟨a, some x⟩, true⟩) (r' := r) E (by rw [← h]; rfl)

end

/-! ### Networks without biases -/

section
variable {ρ : Type}

theorem closed_scale (c : ℝ) : Closed (T := ℝ) (T' := ℝ) (fun a b => b = c * a) (fun a b => b = a) (fun a b => b = c * a) :=
  ⟨by simp, fun x x' y y' h1 h2 => by rw [h1, h2]; ring, fun x x' y y' h1 h2 => by rw [h1, h2]; ring⟩

theorem twin_zero_scale (c : ℝ) {t : Tensor ℝ} (h : ∀ v ∈ t.data, v = 0) : Twin (fun a b => b = c * a) t t :=
  ⟨rfl, List.forall₂_same.2 fun v hv => by rw [h v hv, mul_zero]⟩

theorem twin_same (t : Tensor ℝ) : Twin (fun a b => b = a) t t := ⟨rfl, List.forall₂_same.2 fun _ _ => rfl⟩

theorem homogeneous_layer (E : Engine ρ ℝ) {c : ℝ} (hc : 0 ≤ c) {l : Layer ℝ} (hl : Homogeneous l) {x x' : Tensor ℝ}
    (hx : Twin (fun a b => b = c * a) x x') (r r' : ρ) :
    SameOutcome (Twin fun a b => b = c * a) (Layer.forward E x (l, r)).1 (Layer.forward E x' (l, r')).1 := by
  rcases l with ⟨k, md⟩
  unfold Homogeneous at hl
  cases k with
  | fc l => exact twin_affine (closed_scale c) (twin_same _) (twin_zero_scale c hl) hx
  | conv l =>
    show SameOutcome _ (Conv.forward x l).1 (Conv.forward x' l).1
    rw [conv_forward_eq, conv_forward_eq, hx.1]
    exact agree_ite (fun _ => rfl) fun _ => agree_any fun _ _ => agree_ite (fun _ => rfl) fun _ =>
      twin_correlate (closed_scale c) (fun _ _ h => h) rfl rfl rfl (twin_same _) (twin_zero_scale c hl) hx
  | flatten l =>
    show SameOutcome _ (Flatten.forward x l).1 (Flatten.forward x' l).1
    refine (?_ : MAgree (fun _ _ : Flatten => True) (Twin fun a b => b = c * a) (Flatten.forward x) (Flatten.forward x')) l l trivial |>.2
    unfold Flatten.forward
    rw [hx.1]
    refine magree_ite (fun _ => magree_lift rfl) fun _ => magree_ite (fun _ => magree_pure hx) fun _ => ?_
    exact magree_and_true (magree_modify fun l l' h => trivial) (magree_any fun b => magree_lift (twin_reshaped hx _))
  | dropout l =>
    have : md = false := hl
    subst this
    exact hx
  | activation l =>
    show SameOutcome _ (l.activation.forward x) (l.activation.forward x')
    dsimp only at hl
    rcases hl with h | ⟨α, h⟩ <;> rw [h]
    · refine twin_map (f := fun v => cmax 0 v) (f' := fun v => cmax 0 v) hx fun a b h => ?_
      subst h
      unfold cmax
      rcases hc.eq_or_lt with rfl | hc
      · simp
      · simp only [mul_pos_iff_of_pos_left hc]
        split <;> simp
    · refine twin_map (f := fun v => if 0 < v then v else α * v) (f' := fun v => if 0 < v then v else α * v) hx fun a b h => ?_
      subst h
      rcases hc.eq_or_lt with rfl | hc
      · simp
      · simp only [mul_pos_iff_of_pos_left hc]
        split
        · rfl
        · ring
  | _ => exact hl.elim

theorem homogeneous_layers (E : Engine ρ ℝ) {c : ℝ} (hc : 0 ≤ c) : ∀ (ls : List (Layer ℝ)) (_ : ∀ l ∈ ls, Homogeneous l) {x x' : Tensor ℝ}
    (_ : Twin (fun a b => b = c * a) x x') (r r' : ρ),
    SameOutcome (Twin fun a b => b = c * a) (forwardLayers E ls x r).1 (forwardLayers E ls x' r').1
  | [], _, _, _, hx, _, _ => hx
  | l :: ls, h, x, x', hx, r, r' => by
    have h1 := homogeneous_layer E hc (h l (by simp)) hx r r'
    unfold forwardLayers
    generalize hy : Layer.forward E x (l, r) = o at h1
    generalize hy' : Layer.forward E x' (l, r') = o' at h1
    obtain ⟨_ | y, l1, r1⟩ := o <;> obtain ⟨_ | y', l1', r1'⟩ := o' <;> first | exact h1 | exact h1.elim | skip
    exact homogeneous_layers E hc ls (fun m hm => h m (by simp [hm])) h1 r1 r1'

end
end SmartDNN
