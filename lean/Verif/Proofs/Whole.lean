import Verif.Spec.Whole
import Verif.Proofs.Rising

/-!
# Whole numbers in floating point (proofs for C108)
-/

namespace SmartDNN
open Net Spec

/-! ### Dense layers and convolutions in two arithmetics -/

section
variable {T T' : Type} {R1 R2 R : T → T' → Prop}

theorem twin_affine [Zero T] [Add T] [Mul T] [Zero T'] [Add T'] [Mul T'] (hR : Closed R1 R2 R) {w b x : Tensor T} {w' b' x' : Tensor T'}
    (hw : Twin R2 w w') (hb : Twin R b b') (hx : Twin R1 x x') : SameOutcome (Twin R) (FC.affine w b x) (FC.affine w' b' x') := by
  unfold FC.affine
  have h2D : SameOutcome (Twin R1) (FC.ensure2D x) (FC.ensure2D x') := by
    unfold FC.ensure2D
    rw [hx.1]
    exact agree_ite (fun _ => agree_any fun n _ => twin_reshaped hx _) fun _ => agree_ok hx
  rw [hx.1]
  refine agree_bind h2D fun _ _ h1 => agree_bind (twin_matmul hR h1 hw) fun _ _ h2 =>
    agree_bind (twin_binop (R := R) hR.zero hR.add h2 hb) fun o o' ho => ?_
  rw [ho.1]
  exact agree_ite (fun _ => agree_any fun n _ => twin_reshaped ho _) fun _ => agree_pure ho

theorem twin_correlate [Zero T] [Add T] [Mul T] [MathFn T] [Zero T'] [Add T'] [Mul T'] [MathFn T'] (hR : Closed R1 R2 R)
    (hf : ∀ a a', R a a' → R (MathFn.toFloat a) (MathFn.toFloat a')) {l : Conv T} {l' : Conv T'}
    (ho : l.outputChannels = l'.outputChannels) (hh : l.kernelHeight = l'.kernelHeight) (hk : l.kernelWidth = l'.kernelWidth)
    (hw : Twin R2 l.weights l'.weights) (hb : Twin R l.biases l'.biases) {x : Tensor T} {x' : Tensor T'} (hx : Twin R1 x x') :
    SameOutcome (Twin R) (l.correlate x) (l'.correlate x') := by
  unfold Conv.correlate
  rw [hx.1, ho, hh, hk]
  refine agree_any fun _ _ => agree_any fun _ _ => agree_any fun _ _ => agree_any fun s _ => ?_
  refine agree_forI (twin_zeros s hR.zero) fun _ o o' ho => agree_forI ho fun _ o o' ho => agree_forI ho fun _ o o' ho => agree_forI ho fun _ o o' ho => ?_
  refine agree_bind (Q := R) (agree_forI hR.zero fun _ s s' hs => agree_forI hs fun _ s s' hs => agree_bind (twin_at hx _) fun v v' hv =>
      agree_bind (twin_at hw _) fun w w' hw => agree_pure (hf _ _ (hR.add _ _ _ _ hs (hR.mul _ _ _ _ hv hw)))) fun s s' hs => ?_
  exact agree_bind (twin_at hb _) fun b b' hb => twin_setAt ho _ (hf _ _ (hR.add _ _ _ _ hs hb))

end

/-! ### A number together with the size of the computation -/

noncomputable instance : MathFn (ℝ × ℝ) where
  exp x := (Real.exp x.1, Real.exp x.2)
  log x := (Real.log x.1, Real.log x.2)
  sqrt x := (Real.sqrt x.1, Real.sqrt x.2)
  tanh x := (Real.tanh x.1, Real.tanh x.2)
  powi x n := (x.1 ^ n, x.2 ^ n)
  toFloat x := x

variable {ρ : Type} {rd : ℝ → ℝ} {P : ℝ}

/-- The elements with their absolute values. -/
noncomputable def sized (t : Tensor ℝ) : Tensor (ℝ × ℝ) := ⟨t.shape, t.data.map fun v => (v, |v|)⟩

theorem sized_fst (t : Tensor ℝ) : Twin (fun (p : ℝ × ℝ) (v : ℝ) => p.1 = v) (sized t) t :=
  ⟨rfl, List.forall₂_map_left_iff.2 (List.forall₂_same.2 fun _ _ => rfl)⟩

theorem sized_snd (t : Tensor ℝ) : Twin (fun (p : ℝ × ℝ) (v : ℝ) => p.2 = v) (sized t) (magnitudes t) :=
  ⟨rfl, List.forall₂_map_left_iff.2 (List.forall₂_map_right_iff.2 (List.forall₂_same.2 fun _ _ => rfl))⟩

/-- A number and its size. -/
def Exactly (a : Rounded rd) (p : ℝ × ℝ) : Prop := Whole a p.1 ∧ p.2 = |p.1|

/-- The intermediate result is exact as long as the size stays below `P`. -/
def WhileSmall (P : ℝ) (a : Rounded rd) (p : ℝ × ℝ) : Prop := (∃ n : ℤ, p.1 = n) ∧ |p.1| ≤ p.2 ∧ (p.2 < P → a.val = p.1)

theorem sized_exactly {t : Tensor (Rounded rd)} {t' : Tensor ℝ} (h : SameWhole t t') : Twin Exactly t (sized t') :=
  ⟨h.1, List.forall₂_map_right_iff.2 (h.2.imp fun _ _ h => ⟨h, rfl⟩)⟩

theorem sized_small {t : Tensor (Rounded rd)} {t' : Tensor ℝ} (h : SameWhole t t') : Twin (WhileSmall P) t (sized t') :=
  ⟨h.1, List.forall₂_map_right_iff.2 (h.2.imp fun _ _ h => ⟨h.2, le_rfl, fun _ => h.1⟩)⟩

theorem closed_small (hr : ∀ n : ℤ, |(n : ℝ)| < P → rd n = n) : Closed (T := Rounded rd) (T' := ℝ × ℝ) Exactly Exactly (WhileSmall P) := by
  refine ⟨⟨⟨0, by simp⟩, by simp, fun _ => rfl⟩, ?_, ?_⟩
  · rintro x ⟨n, m⟩ y ⟨n', m'⟩ ⟨⟨i, hi⟩, h1, h2⟩ ⟨⟨j, hj⟩, h3, h4⟩
    dsimp only at *
    subst hi hj
    refine ⟨⟨i + j, by simp⟩, (abs_add_le _ _).trans (add_le_add h1 h3), fun h => ?_⟩
    change m + m' < P at h
    have p1 := (abs_nonneg _).trans h1
    have p2 := (abs_nonneg _).trans h3
    show rd (x.val + y.val) = (i : ℝ) + j
    rw [h2 (by linarith), h4 (by linarith)]
    have := hr (i + j)
    push_cast at this
    exact this ((abs_add_le _ _).trans_lt (by linarith))
  · rintro x ⟨n, m⟩ y ⟨n', m'⟩ ⟨⟨h1, i, hi⟩, h2⟩ ⟨⟨h3, j, hj⟩, h4⟩
    dsimp only at *
    subst hi hj h2 h4
    refine ⟨⟨i * j, by simp⟩, (abs_mul _ _).le, fun h => ?_⟩
    change |(i : ℝ)| * |(j : ℝ)| < P at h
    show rd (x.val * y.val) = (i : ℝ) * j
    rw [h1, h3]
    have := hr (i * j)
    push_cast at this
    exact this (by rwa [abs_mul])

theorem toFloat_small (hr : ∀ n : ℤ, |(n : ℝ)| < P → rd n = n) (a : Rounded rd) (p : ℝ × ℝ) (h : WhileSmall P a p) :
    WhileSmall P (MathFn.toFloat a) (MathFn.toFloat p) := by
  obtain ⟨⟨i, hi⟩, h1, h2⟩ := h
  refine ⟨⟨i, hi⟩, h1, fun h => ?_⟩
  show rd a.val = p.1
  have h' : p.2 < P := h
  rw [h2 h', hi]
  exact hr i (by rw [← hi]; exact h1.trans_lt h')

theorem closed_fst : Closed (T := ℝ × ℝ) (T' := ℝ) (fun p v => p.1 = v) (fun p v => p.1 = v) (fun p v => p.1 = v) :=
  ⟨rfl, fun x x' y y' h1 h2 => by rw [← h1, ← h2]; rfl, fun x x' y y' h1 h2 => by rw [← h1, ← h2]; rfl⟩

theorem closed_snd : Closed (T := ℝ × ℝ) (T' := ℝ) (fun p v => p.2 = v) (fun p v => p.2 = v) (fun p v => p.2 = v) :=
  ⟨rfl, fun x x' y y' h1 h2 => by rw [← h1, ← h2]; rfl, fun x x' y y' h1 h2 => by rw [← h1, ← h2]; rfl⟩

theorem whole_list {d : List (Rounded rd)} {p : List (ℝ × ℝ)} (h1 : List.Forall₂ (WhileSmall P) d p) :
    ∀ {d' m : List ℝ} (_ : List.Forall₂ (fun (p : ℝ × ℝ) (v : ℝ) => p.1 = v) p d') (_ : List.Forall₂ (fun (p : ℝ × ℝ) (v : ℝ) => p.2 = v) p m),
      (∀ v ∈ m, v < P) → List.Forall₂ Whole d d' := by
  induction h1 with
  | nil => intro d' m h2 h3 _; cases h2; exact .nil
  | cons h _ ih =>
    intro d' m h2 h3 hm
    cases h2 with
    | cons e2 h2 =>
      cases h3 with
      | cons e3 h3 =>
        subst e2 e3
        exact .cons ⟨h.2.2 (hm _ (by simp)), h.1⟩ (ih h2 h3 fun v hv => hm v (by simp [hv]))

theorem whole_outcome {a : Res (Tensor (Rounded rd))} {p : Res (Tensor (ℝ × ℝ))} {a' m : Res (Tensor ℝ)}
    (h1 : SameOutcome (Twin (WhileSmall P)) a p) (h2 : SameOutcome (Twin fun (p : ℝ × ℝ) (v : ℝ) => p.1 = v) p a')
    (h3 : SameOutcome (Twin fun (p : ℝ × ℝ) (v : ℝ) => p.2 = v) p m) (hm : ∀ s, m = .ok s → ∀ v ∈ s.data, v < P) : SameOutcome SameWhole a a' := by
  cases a <;> cases p <;> cases a' <;> cases m <;> first | exact h1.elim | exact h2.elim | exact h3.elim | skip
  · exact Eq.trans (show _ = _ from h1) h2
  · exact ⟨h1.1.trans h2.1, whole_list h1.2 h2.2 h3.2 (hm _ rfl)⟩

theorem whole_affine (hr : ∀ n : ℤ, |(n : ℝ)| < P → rd n = n) {w b x : Tensor (Rounded rd)} {w' b' x' : Tensor ℝ}
    (hw : SameWhole w w') (hb : SameWhole b b') (hx : SameWhole x x')
    (hm : ∀ s, FC.affine (magnitudes w') (magnitudes b') (magnitudes x') = .ok s → ∀ v ∈ s.data, v < P) :
    SameOutcome SameWhole (FC.affine w b x) (FC.affine w' b' x') :=
  whole_outcome (twin_affine (closed_small hr) (sized_exactly hw) (sized_small hb) (sized_exactly hx))
    (twin_affine closed_fst (sized_fst w') (sized_fst b') (sized_fst x')) (twin_affine closed_snd (sized_snd w') (sized_snd b') (sized_snd x')) hm

theorem whole_matmul (hr : ∀ n : ℤ, |(n : ℝ)| < P → rd n = n) {a b : Tensor (Rounded rd)} {a' b' : Tensor ℝ}
    (ha : SameWhole a a') (hb : SameWhole b b')
    (hm : ∀ s, (magnitudes a').matmul (magnitudes b') = .ok s → ∀ v ∈ s.data, v < P) : SameOutcome SameWhole (a.matmul b) (a'.matmul b') :=
  whole_outcome (twin_matmul (closed_small hr) (sized_exactly ha) (sized_exactly hb))
    (twin_matmul closed_fst (sized_fst a') (sized_fst b')) (twin_matmul closed_snd (sized_snd a') (sized_snd b')) hm

theorem whole_correlate (hr : ∀ n : ℤ, |(n : ℝ)| < P → rd n = n) {l : Conv (Rounded rd)} {l' : Conv ℝ} {x : Tensor (Rounded rd)} {x' : Tensor ℝ}
    (ho : l.outputChannels = l'.outputChannels) (hh : l.kernelHeight = l'.kernelHeight) (hk : l.kernelWidth = l'.kernelWidth)
    (hw : SameWhole l.weights l'.weights) (hb : SameWhole l.biases l'.biases) (hx : SameWhole x x')
    (hm : ∀ s, Conv.correlate { l' with weights := magnitudes l'.weights, biases := magnitudes l'.biases } (magnitudes x') = .ok s →
      ∀ v ∈ s.data, v < P) : SameOutcome SameWhole (l.correlate x) (l'.correlate x') := by
  let lp : Conv (ℝ × ℝ) := ⟨l'.inputChannels, l'.outputChannels, l'.kernelHeight, l'.kernelWidth, l'.stride, l'.padding, l'.dilation,
    sized l'.weights, sized l'.biases, none, none, none⟩
  exact whole_outcome (twin_correlate (l' := lp) (closed_small hr) (toFloat_small hr) ho hh hk (sized_exactly hw) (sized_small hb) (sized_exactly hx))
    (twin_correlate closed_fst (fun _ _ h => h) rfl rfl rfl (sized_fst _) (sized_fst _) (sized_fst x'))
    (twin_correlate (l' := { l' with weights := magnitudes l'.weights, biases := magnitudes l'.biases }) closed_snd (fun _ _ h => h) rfl rfl rfl
      (sized_snd _) (sized_snd _) (sized_snd x')) hm

/-! ### Layers -/

theorem whole_zero : Whole (0 : Rounded rd) 0 := ⟨rfl, 0, by simp⟩

theorem whole_lt {a b : Rounded rd} {a' b' : ℝ} (ha : Whole a a') (hb : Whole b b') : a < b ↔ a' < b' := by
  rw [← ha.1, ← hb.1]; exact Iff.rfl

theorem whole_pool {l : MaxPool (Rounded rd)} {l' : MaxPool ℝ} (hp : l.poolSize = l'.poolSize) (hs : l.stride = l'.stride)
    (hd : l.padding = l'.padding) (hn : Whole l.negInf l'.negInf) {x : Tensor (Rounded rd)} {x' : Tensor ℝ} (hx : SameWhole x x') :
    SameOutcome SameWhole (l.pool x) (l'.pool x') := by
  have ed : ∀ n, l.outDim n = l'.outDim n := fun n => by unfold MaxPool.outDim; rw [hp, hs]
  unfold MaxPool.pool
  rw [hx.1]
  simp only [ed]
  refine agree_any fun _ _ => agree_any fun _ _ => agree_any fun _ _ => agree_any fun _ _ => agree_any fun _ _ => agree_any fun _ _ => agree_any fun s _ => ?_
  refine agree_forI (twin_zeros s whole_zero) fun n o o' ho => agree_forI ho fun ic o o' ho => agree_forI ho fun oh o o' ho => agree_forI ho fun ow o o' ho => ?_
  refine agree_bind (Q := fun (m : Rounded rd × Int × Int) (m' : ℝ × Int × Int) => Whole m.1 m'.1) ?_ fun m m' hm => twin_setAt ho _ hm
  unfold MaxPool.findMax
  rw [hx.1, hp, hs, hd]
  refine agree_any fun h _ => agree_any fun w _ => ?_
  refine agree_forI (I := fun (m : Rounded rd × Int × Int) (m' : ℝ × Int × Int) => Whole m.1 m'.1) hn fun ph s s' hs => agree_ite (fun _ => hs) fun _ => agree_forI hs fun pw s s' hs =>
    agree_ite (fun _ => hs) fun _ => agree_bind (twin_at hx _) fun v v' hv => agree_pure ?_
  by_cases hc : s'.1 < v'
  · rw [if_pos hc, if_pos ((whole_lt hs hv).2 hc)]; exact hv
  · rw [if_neg hc, if_neg (fun h => hc ((whole_lt hs hv).1 h))]; exact hs

theorem conv_forward_eq {T : Type} [Zero T] [Add T] [Mul T] [MathFn T] (l : Conv T) (t : Tensor T) : (Conv.forward t l).1 = if t.shape.rank ≠ 4 then .error .abort else
    t.shape.get 1 >>= fun c => if c ≠ l.inputChannels then .error .abort else l.correlate t := by
  show ((do if t.shape.rank ≠ 4 then Mut.lift (.error .abort) else
      let c ← Mut.lift (t.shape.get 1)
      if c ≠ l.inputChannels then Mut.lift (.error .abort)
      else
        Mut.modify (fun l => { l with input := some t })
        Mut.lift (l.correlate t) : Mut (Conv T) (Tensor T)) l).1 = _
  by_cases hc : t.shape.rank ≠ 4
  · rw [if_pos hc, if_pos hc]; rfl
  · rw [if_neg hc, if_neg hc]
    cases hg : t.shape.get 1 with
    | error e => rfl
    | ok c =>
      show ((if c ≠ l.inputChannels then Mut.lift (.error .abort) else _ : Mut (Conv T) (Tensor T)) l).1 = if c ≠ l.inputChannels then .error .abort else l.correlate t
      by_cases hd : c ≠ l.inputChannels
      · rw [if_pos hd, if_pos hd]; rfl
      · rw [if_neg hd, if_neg hd]; rfl

theorem whole_layer (hr : ∀ n : ℤ, |(n : ℝ)| < P → rd n = n) {ρ' : Type} (E : Engine ρ (Rounded rd)) (E' : Engine ρ' ℝ) {l : Layer (Rounded rd)} {l' : Layer ℝ}
    (hl : WholeLayer l l') {x : Tensor (Rounded rd)} {x' : Tensor ℝ} (hx : SameWhole x x') (hf : KeepsSmall P l' x') (r : ρ) (r' : ρ') :
    SameOutcome SameWhole (Layer.forward E x (l, r)).1 (Layer.forward E' x' (l', r')).1 := by
  rcases l with ⟨k, md⟩
  rcases l' with ⟨k', md'⟩
  unfold WholeLayer at hl
  unfold KeepsSmall at hf
  cases k <;> cases k' <;> first | exact hl.elim | skip
  · exact whole_affine hr hl.1 hl.2 hx hf
  · rename_i l l'
    obtain ⟨h1, h2, h3, h4, h5, h6⟩ := hl
    show SameOutcome SameWhole (Conv.forward x l).1 (Conv.forward x' l').1
    rw [conv_forward_eq, conv_forward_eq, hx.1, h1]
    exact agree_ite (fun _ => rfl) fun _ => agree_any fun c _ => agree_ite (fun _ => rfl) fun _ => whole_correlate hr h2 h3 h4 h5 h6 hx hf
  · rename_i l l'
    show SameOutcome SameWhole (Flatten.forward x l).1 (Flatten.forward x' l').1
    refine (?_ : MAgree (fun _ _ : Flatten => True) SameWhole (Flatten.forward x) (Flatten.forward x')) l l' trivial |>.2
    unfold Flatten.forward
    rw [hx.1]
    refine magree_ite (fun _ => magree_lift rfl) fun _ => magree_ite (fun _ => magree_pure hx) fun _ => ?_
    exact magree_and_true (magree_modify fun l l' h => trivial) (magree_any fun b => magree_lift (twin_reshaped hx _))
  · rename_i l l'
    obtain ⟨h1, h2, h3, h4⟩ := hl
    show SameOutcome SameWhole (MaxPool.forward x l).1 (MaxPool.forward x' l').1
    unfold MaxPool.forward
    rw [hx.1]
    by_cases hc : x'.shape.rank ≠ 4
    · rw [if_pos hc, if_pos hc]; rfl
    · rw [if_neg hc, if_neg hc]
      exact whole_pool (l := { l with input := some x }) (l' := { l' with input := some x' }) h1 h2 h3 h4 hx
  · obtain ⟨h1, h2⟩ := hl
    dsimp only at h1 h2
    subst h1 h2
    exact hx
  · rename_i l l'
    obtain ⟨h1, h2⟩ := hl
    show SameOutcome SameWhole (l.activation.forward x) (l'.activation.forward x')
    rw [h1, h2]
    refine twin_map (f := fun v => cmax 0 v) (f' := fun v => cmax 0 v) hx fun a a' ha => ?_
    show Whole (if 0 < a then a else 0) (if 0 < a' then a' else 0)
    by_cases hc : 0 < a'
    · rw [if_pos hc, if_pos ((whole_lt whole_zero ha).2 hc)]; exact ha
    · rw [if_neg hc, if_neg (fun h => hc ((whole_lt whole_zero ha).1 h))]; exact whole_zero

theorem whole_layers (hr : ∀ n : ℤ, |(n : ℝ)| < P → rd n = n) {ρ' : Type} (E : Engine ρ (Rounded rd)) (E' : Engine ρ' ℝ) {ls : List (Layer (Rounded rd))}
    {ls' : List (Layer ℝ)} (h : List.Forall₂ WholeLayer ls ls') : ∀ {x : Tensor (Rounded rd)} {x' : Tensor ℝ} (_ : SameWhole x x') (r : ρ) (r' : ρ')
    (_ : AllKeepSmall E' P ls' x' r'), SameOutcome SameWhole (forwardLayers E ls x r).1 (forwardLayers E' ls' x' r').1 := by
  induction h with
  | nil => intro x x' hx _ _ _; exact hx
  | cons hl _ ih =>
    rename_i l l' ls ls' _
    intro x x' hx r r' hf
    have h1 := whole_layer hr E E' hl hx hf.1 r r'
    have h2 := hf.2
    unfold forwardLayers
    generalize hy : Layer.forward E x (l, r) = o at h1
    generalize hy' : Layer.forward E' x' (l', r') = o' at h1 h2
    obtain ⟨_ | y, l1, r1⟩ := o <;> obtain ⟨_ | y', l1', r1'⟩ := o' <;> first | exact h1 | exact h1.elim | skip
    exact ih h1 r1 r1' (h2 _ _ _ rfl)

end SmartDNN
