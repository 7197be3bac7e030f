import Verif.Spec.Rising
import Verif.Proofs.Ieee

/-!
# Order through the layers (proofs for C105)
-/

namespace SmartDNN
open Net Spec

section
variable {ρ T : Type} [Zero T] [One T] [Add T] [Sub T] [Mul T] [Div T] [Neg T] [NatCast T]
  [IntCast T] [LT T] [DecidableLT T] [LE T] [DecidableLE T] [DecidableEq T] [MathFn T]

/-- Equal, and not negative. -/
def SameNonneg (w w' : T) : Prop := w = w' ∧ 0 ≤ w

omit [One T] [Add T] [Sub T] [Mul T] [Div T] [Neg T] [NatCast T]
  [IntCast T] [LT T] [DecidableLT T] [DecidableLE T] [DecidableEq T] [MathFn T] in
theorem twin_nonneg {t : Tensor T} (h : ∀ w ∈ t.data, 0 ≤ w) : Twin SameNonneg t t := ⟨rfl, List.forall₂_same.2 fun w hw => ⟨rfl, h w hw⟩⟩

omit [Zero T] [One T] [Add T] [Sub T] [Mul T] [Div T] [Neg T] [NatCast T]
  [IntCast T] [LT T] [DecidableLT T] [LE T] [DecidableLE T] [DecidableEq T] [MathFn T] in
theorem twin_eq (t : Tensor T) : Twin Eq t t := ⟨rfl, List.forall₂_same.2 fun _ _ => rfl⟩

theorem rising_fn {a : Act T} (h : RisingAct a) : ∃ f : T → T, (∀ t, a.forward t = t.map f) ∧ ∀ x y, x ≤ y → f x ≤ f y := by
  have key : ∀ f : T → T, (∀ t, a.forward t = t.map f) → ∃ f : T → T, (∀ t, a.forward t = t.map f) ∧ ∀ x y, x ≤ y → f x ≤ f y := by
    intro f hf
    refine ⟨f, hf, fun x y hxy => h.2 x y (f x) (f y) hxy ?_ ?_⟩
    · rw [hf]; rfl
    · rw [hf]; rfl
  cases a with
  | softmax => exact h.1.elim
  | _ => exact key _ fun t => rfl

variable (A : MonotoneArithmetic T)
include A

omit [One T] [Neg T] [NatCast T] [IntCast T] [DecidableLT T] [DecidableLE T] [DecidableEq T] in
theorem below_refl (t : Tensor T) : Below t t := ⟨rfl, List.forall₂_same.2 fun w _ => A.refl w⟩

omit [One T] [Neg T] [NatCast T] [IntCast T] [DecidableLT T] [DecidableLE T] [DecidableEq T] in
theorem closed_rise : Closed (T := T) (T' := T) (· ≤ ·) SameNonneg (· ≤ ·) :=
  ⟨A.refl 0, A.add, fun x x' y y' hx hy => by rw [← hy.1]; exact A.mul x x' y hy.2 hx⟩

omit [One T] [Neg T] [NatCast T] [IntCast T] [DecidableLE T] [DecidableEq T] in
theorem rise_max {x x' y y' : T} (hx : x ≤ x') (hy : y ≤ y') : (if x < y then y else x) ≤ if x' < y' then y' else x' := by
  have tot : ∀ {a b : T}, ¬ a ≤ b → b ≤ a := fun {a b} h => (A.total a b).resolve_left h
  split
  · split
    · exact hy
    · next h => rw [A.lt_iff, not_not] at h; exact A.trans _ _ _ hy h
  · split
    · next h => rw [A.lt_iff] at h; exact A.trans _ _ _ hx (tot h)
    · exact hx

variable {x x' : Tensor T}

omit [One T] [Neg T] [NatCast T] [IntCast T] [DecidableLT T] [DecidableLE T] [DecidableEq T] in
theorem rise_fc {w b : Tensor T} (hl : ∀ v ∈ w.data, 0 ≤ v) (hx : Below x x') : SameOutcome Below (FC.affine w b x) (FC.affine w b x') := by
  unfold FC.affine
  have h2D : SameOutcome Below (FC.ensure2D x) (FC.ensure2D x') := by
    unfold FC.ensure2D
    rw [hx.1]
    exact agree_ite (fun _ => agree_any fun n _ => twin_reshaped hx _) fun _ => agree_ok hx
  rw [hx.1]
  refine agree_bind h2D fun _ _ h1 => agree_bind (twin_matmul (closed_rise A) h1 (twin_nonneg hl)) fun _ _ h2 =>
    agree_bind (twin_binop (R := (· ≤ ·)) (A.refl 0) A.add h2 (below_refl A b)) fun o o' ho => ?_
  rw [ho.1]
  exact agree_ite (fun _ => agree_any fun n _ => twin_reshaped ho _) fun _ => agree_pure ho

omit [One T] [Neg T] [NatCast T] [IntCast T] [DecidableLT T] [DecidableLE T] [DecidableEq T] in
theorem rise_conv {l : Conv T} (hl : ∀ w ∈ l.weights.data, 0 ≤ w) (hx : Below x x') : SameOutcome Below (l.correlate x) (l.correlate x') := by
  unfold Conv.correlate
  rw [hx.1]
  refine agree_any fun _ _ => agree_any fun _ _ => agree_any fun _ _ => agree_any fun s _ => ?_
  refine agree_forI (twin_zeros s (A.refl 0)) fun _ o o' ho => agree_forI ho fun _ o o' ho => agree_forI ho fun _ o o' ho => agree_forI ho fun _ o o' ho => ?_
  refine agree_bind (Q := (· ≤ ·)) (agree_forI (A.refl 0) fun _ s s' hs => agree_forI hs fun _ s s' hs => agree_bind (twin_at hx _) fun v v' hv =>
      agree_bind (twin_at (twin_nonneg hl) _) fun w w' hw => agree_pure (A.toFloat _ _ (A.add _ _ _ _ hs ((closed_rise A).mul _ _ _ _ hv hw)))) fun s s' hs => ?_
  exact agree_bind (twin_at (below_refl A l.biases) _) fun b b' hb => twin_setAt ho _ (A.toFloat _ _ (A.add _ _ _ _ hs hb))

omit [One T] [Neg T] [NatCast T] [IntCast T] [DecidableLE T] [DecidableEq T] in
theorem rise_pool (l : MaxPool T) (hx : Below x x') : SameOutcome Below (l.pool x) (l.pool x') := by
  unfold MaxPool.pool
  rw [hx.1]
  refine agree_any fun _ _ => agree_any fun _ _ => agree_any fun _ _ => agree_any fun _ _ => agree_any fun _ _ => agree_any fun _ _ => agree_any fun s _ => ?_
  refine agree_forI (twin_zeros s (A.refl 0)) fun n o o' ho => agree_forI ho fun ic o o' ho => agree_forI ho fun oh o o' ho => agree_forI ho fun ow o o' ho => ?_
  refine agree_bind (Q := fun m m' => m.1 ≤ m'.1) ?_ fun m m' hm => twin_setAt ho _ hm
  unfold MaxPool.findMax
  rw [hx.1]
  refine agree_any fun h _ => agree_any fun w _ => ?_
  refine agree_forI (I := fun (m m' : T × Int × Int) => m.1 ≤ m'.1) (A.refl _) fun ph s s' hs => agree_ite (fun _ => hs) fun _ => agree_forI hs fun pw s s' hs =>
    agree_ite (fun _ => hs) fun _ => agree_bind (twin_at hx _) fun v v' hv => agree_pure ?_
  have := rise_max A hs hv
  rw [apply_ite Prod.fst, apply_ite Prod.fst]
  exact this

theorem rise_bn {l : BatchNorm T} (hl : ∀ w ∈ l.gamma.data, 0 ≤ w) (hx : Below x x') :
    SameOutcome Below (BatchNorm.forward false x l).1 (BatchNorm.forward false x' l).1 := by
  have rfb : ∀ {R : T → T → Prop} {t t' : Tensor T} (_ : Twin R t t') (s : Shape), SameOutcome (Twin R) (BatchNorm.reshapeForBroadcast t s) (BatchNorm.reshapeForBroadcast t' s) := by
    intro R t t' h s
    unfold BatchNorm.reshapeForBroadcast
    rw [h.1]
    exact agree_any fun _ _ => agree_any fun _ _ => agree_ite (fun _ => agree_any fun _ _ => twin_reshaped h _) fun _ => agree_any fun _ _ => twin_reshaped h _
  refine (?_ : MAgree (fun a b : BatchNorm T => a = l ∧ b = l) Below (BatchNorm.forward false x) (BatchNorm.forward false x')) l l ⟨rfl, rfl⟩ |>.2
  unfold BatchNorm.forward
  dsimp only
  rw [hx.1]
  refine magree_ite (fun _ => magree_lift rfl) fun _ => magree_ite (fun h => by cases h) fun _ => magree_bind magree_get ?_
  rintro _ _ ⟨rfl, rfl⟩
  refine magree_bind (magree_lift (rfb (twin_eq _) _)) fun rm rm' hm => magree_bind (magree_lift (rfb (twin_eq _) _)) fun rv rv' hv =>
    magree_bind (magree_lift (rfb (twin_nonneg hl) _)) fun rg rg' hg => magree_bind (magree_lift (rfb (below_refl A _) _)) fun rb rb' hb =>
    magree_bind (Q := Below) (magree_lift ?_) fun ni ni' hni => magree_lift ?_
  · unfold BatchNorm.normalise
    refine agree_bind (Q := Below) (twin_binop (A.refl 0) (fun a a' b b' h1 h2 => ?_) hx hm) fun a a' ha => agree_bind (Q := Twin Eq) (twin_map hv fun a b h => by rw [h]) fun b b' hb =>
      agree_bind (Q := Twin SameNonneg) (twin_map hb fun a b h => by rw [h]; exact ⟨rfl, A.sqrt _⟩) fun c c' hc => twin_binop (A.refl 0) (fun a a' b b' h1 h2 => ?_) ha hc
    · subst h2; exact A.sub _ _ _ h1
    · rw [← h2.1]; exact A.div _ _ _ h2.2 h1
  · unfold BatchNorm.scaleShift
    exact agree_bind (twin_binop (A.refl 0) (closed_rise A).mul hni hg) fun a a' ha => twin_binop (A.refl 0) A.add ha hb

theorem rise_layer (E : Engine ρ T) {l : Layer T} (hl : RisingLayer l) (hx : Below x x') (r r' : ρ) :
    SameOutcome Below (Layer.forward E x (l, r)).1 (Layer.forward E x' (l, r')).1 := by
  rcases l with ⟨k, md⟩
  unfold RisingLayer at hl
  cases k with
  | fc l => exact rise_fc A hl hx
  | conv l =>
    show SameOutcome Below (Conv.forward x l).1 (Conv.forward x' l).1
    have e : ∀ t : Tensor T, (Conv.forward t l).1 = if t.shape.rank ≠ 4 then .error .abort else
        t.shape.get 1 >>= fun c => if c ≠ l.inputChannels then .error .abort else l.correlate t := by
      intro t
      show ((do if t.shape.rank ≠ 4 then Mut.lift (.error .abort) else
          let c ← Mut.lift (t.shape.get 1)
          if c ≠ l.inputChannels then Mut.lift (.error .abort)
          else
            Mut.modify (fun l => { l with input := some t })
            Mut.lift (l.correlate t) : Mut (Conv T) (Tensor T)) l).1 = _
      by_cases hc : t.shape.rank ≠ 4
      · rw [if_pos hc, if_pos hc]; rfl
      · rw [if_neg hc, if_neg hc]
        cases hg : t.shape.get 1 with
        | error e => rfl
        | ok c =>
          show ((if c ≠ l.inputChannels then Mut.lift (.error .abort) else _ : Mut (Conv T) (Tensor T)) l).1 = if c ≠ l.inputChannels then .error .abort else l.correlate t
          by_cases hd : c ≠ l.inputChannels
          · rw [if_pos hd, if_pos hd]; rfl
          · rw [if_neg hd, if_neg hd]; rfl
    rw [e, e, hx.1]
    exact agree_ite (fun _ => rfl) fun _ => agree_any fun c _ => agree_ite (fun _ => rfl) fun _ => rise_conv A hl hx
  | flatten l =>
    show SameOutcome Below (Flatten.forward x l).1 (Flatten.forward x' l).1
    refine (?_ : MAgree (fun _ _ : Flatten => True) Below (Flatten.forward x) (Flatten.forward x')) l l trivial |>.2
    unfold Flatten.forward
    rw [hx.1]
    refine magree_ite (fun _ => magree_lift rfl) fun _ => magree_ite (fun _ => magree_pure hx) fun _ => ?_
    exact magree_and_true (magree_modify fun l l' h => trivial) (magree_any fun b => magree_lift (twin_reshaped hx _))
  | maxPool l =>
    show SameOutcome Below (MaxPool.forward x l).1 (MaxPool.forward x' l).1
    unfold MaxPool.forward
    rw [hx.1]
    by_cases hc : x'.shape.rank ≠ 4
    · rw [if_pos hc, if_pos hc]; rfl
    · rw [if_neg hc, if_neg hc]
      exact rise_pool A { l with input := some x } hx
  | batchNorm l =>
    obtain ⟨rfl, hg⟩ := hl
    exact rise_bn A hg hx
  | dropout l =>
    have : md = false := hl
    subst this
    exact hx
  | activation l =>
    obtain ⟨f, hf, hm⟩ := rising_fn hl
    show SameOutcome Below (l.activation.forward x) (l.activation.forward x')
    rw [hf, hf]
    exact twin_map hx hm

theorem rise_layers (E : Engine ρ T) : ∀ (ls : List (Layer T)) (_ : ∀ l ∈ ls, RisingLayer l) {x x' : Tensor T} (_ : Below x x') (r r' : ρ),
    SameOutcome Below (forwardLayers E ls x r).1 (forwardLayers E ls x' r').1
  | [], _, _, _, hx, _, _ => hx
  | l :: ls, h, x, x', hx, r, r' => by
    have h1 := rise_layer A E (h l (by simp)) hx r r'
    unfold forwardLayers
    generalize hy : Layer.forward E x (l, r) = o at h1
    generalize hy' : Layer.forward E x' (l, r') = o' at h1
    obtain ⟨_ | y, l1, r1⟩ := o <;> obtain ⟨_ | y', l1', r1'⟩ := o' <;> first | exact h1 | exact h1.elim | skip
    exact rise_layers E ls (fun m hm => h m (by simp [hm])) h1 r1 r1'

end

section
variable {rd : ℝ → ℝ}

theorem monotone_rounded (hm : Monotone rd) (h0 : rd 0 = 0) : MonotoneArithmetic (Rounded rd) where
  refl a := le_refl a
  trans _ _ _ := le_trans
  total a b := _root_.le_total a b
  lt_iff _ _ := not_le.symm
  add _ _ _ _ h1 h2 := hm (add_le_add (α := ℝ) h1 h2)
  sub _ _ b h := hm (sub_le_sub_right (α := ℝ) h b.val)
  mul _ _ _ hw h := hm (mul_le_mul_of_nonneg_right (α := ℝ) h hw)
  div _ _ _ hd h := hm (div_le_div_of_nonneg_right (G₀ := ℝ) h hd)
  sqrt a := by
    have := hm (Real.sqrt_nonneg a.val)
    rw [h0] at this
    exact this
  toFloat _ _ h := hm h

theorem monotone_real : MonotoneArithmetic ℝ where
  refl a := le_refl a
  trans _ _ _ := le_trans
  total a b := _root_.le_total a b
  lt_iff _ _ := not_le.symm
  add a a' b b' h1 h2 := add_le_add h1 h2
  sub a a' b h := sub_le_sub_right h b
  mul a a' w hw h := mul_le_mul_of_nonneg_right h hw
  div a a' d hd h := div_le_div_of_nonneg_right h hd
  sqrt a := Real.sqrt_nonneg a
  toFloat a a' h := h

end

theorem rnd_zero (p emin : Int) : rnd p emin 0 = 0 := by simp [rnd]

/-- Rounding to the numbers of a format never reverses the order of two numbers. -/
theorem rnd_monotone {p emin : Int} (hp : 0 ≤ p) : Monotone (rnd p emin) := fun _ _ h => rnd_mono hp h

section
variable {rd : ℝ → ℝ}

theorem rising_of {T : Type} [Zero T] [One T] [Add T] [Sub T] [Mul T] [Div T] [Neg T] [NatCast T]
    [LT T] [DecidableLT T] [LE T] [DecidableLE T] [MathFn T] {a : Act T} (f : T → T) (hs : match a with | .softmax => False | _ => True)
    (hf : ∀ x, a.forward (ofFn [1] fun _ => x) = .ok (ofFn [1] fun _ => f x)) (hm : ∀ x y, x ≤ y → f x ≤ f y) : RisingAct a := by
  refine ⟨hs, fun x y u v hxy hu hv => ?_⟩
  rw [hf] at hu hv
  injection hu with hu
  injection hv with hv
  have e : ∀ {p q : T}, ofFn [1] (fun _ => p) = ofFn [1] (fun _ => q) → p = q := by
    intro p q h
    have : [p] = [q] := congrArg Tensor.data h
    simpa using this
  rw [← e hu, ← e hv]
  exact hm x y hxy

/-- ReLU, leaky ReLU with a slope that is not negative, and sigmoid never decrease, however the arithmetic rounds. -/
theorem rising_relu (hm : Monotone rd) (h0 : rd 0 = 0) : RisingAct (T := Rounded rd) .relu := by
  refine rising_of (fun x => cmax 0 x) trivial (fun x => rfl) fun x y hxy => ?_
  exact rise_max (monotone_rounded hm h0) (le_refl _) hxy

theorem rising_leaky (hm : Monotone rd) (h0 : rd 0 = 0) {α : Rounded rd} (hα : 0 ≤ α) : RisingAct (T := Rounded rd) (.leakyRelu α) := by
  refine rising_of (fun x => if 0 < x then x else α * x) trivial (fun x => rfl) fun x y hxy => ?_
  have low : ∀ z : Rounded rd, z ≤ 0 → α * z ≤ 0 := by
    intro z hz
    have h1 : α.val * z.val ≤ 0 := mul_nonpos_of_nonneg_of_nonpos hα hz
    have := hm h1
    rw [h0] at this
    exact this
  split
  · split
    · exact hxy
    · next h1 h2 => exact absurd (lt_of_lt_of_le h1 hxy) h2
  · next h1 =>
    split
    · next h2 => exact (low x (not_lt.1 h1)).trans h2.le
    · exact hm (mul_le_mul_of_nonneg_left (α := ℝ) hxy hα)

theorem rising_sigmoid (hm : Monotone rd) (h0 : rd 0 = 0) (h1 : rd 1 = 1) : RisingAct (T := Rounded rd) .sigmoid := by
  refine rising_of (fun x => Act.sig (MathFn.toFloat x)) trivial (fun x => rfl) fun x y hxy => ?_
  show rd (1 / rd (1 + rd (Real.exp (-rd x.val)))) ≤ rd (1 / rd (1 + rd (Real.exp (-rd y.val))))
  refine hm (one_div_le_one_div_of_le ?_ (hm ?_))
  · have a : 0 ≤ rd (Real.exp (-rd y.val)) := by rw [← h0]; exact hm (Real.exp_nonneg _)
    have b : rd 1 ≤ rd (1 + rd (Real.exp (-rd y.val))) := hm (by linarith)
    rw [h1] at b
    linarith
  · have := hm (Real.exp_le_exp.2 (neg_le_neg (hm hxy)))
    linarith

end

end SmartDNN
