import Verif.Props.RowSamples
import Verif.Props.BatchRows
import Verif.Props.Descent
import Verif.Props.Dropout

/-!
# The order of the samples in a batch does not matter for training (C87)

Dense layers, activations, flatten and max pooling layers, both losses, every optimizer.  With a convolution or a dropout layer the
order does matter.
-/

namespace SmartDNN
open Net Spec

/-! ### Specification -/

/-- `π` lists the numbers below `b` in some order. -/
def Spec.Reorders (b : Nat) (π : Nat → Nat) : Prop := (∀ i < b, π i < b) ∧ ∀ i < b, ∀ j < b, π i = π j → i = j

/-- A dense layer, an activation, a flatten layer or a max pooling layer. -/
inductive Spec.PlainKind : Layer ℝ → Prop where
  | fc (f : FC ℝ) (mode : Bool) : PlainKind ⟨.fc f, mode⟩
  | activation (a : ActLayer ℝ) (mode : Bool) : PlainKind ⟨.activation a, mode⟩
  | flatten (f : Flatten) (mode : Bool) : PlainKind ⟨.flatten f, mode⟩
  | maxPool (p : MaxPool ℝ) (mode : Bool) : PlainKind ⟨.maxPool p, mode⟩

/-! ### Sums over reordered rows -/

theorem sum_reorder {b : Nat} {π : Nat → Nat} (h : Reorders b π) (f : Nat → ℝ) :
    ∑ i ∈ Finset.range b, f (π i) = ∑ i ∈ Finset.range b, f i := by
  have hm : ∀ i ∈ Finset.range b, π i ∈ Finset.range b := fun i hi => Finset.mem_range.2 (h.1 i (Finset.mem_range.1 hi))
  have hi : Set.InjOn π (Finset.range b : Finset Nat) := by
    intro i hi j hj he
    exact h.2 i (by simpa using hi) j (by simpa using hj) he
  have him : (Finset.range b).image π = Finset.range b := by
    apply Finset.eq_of_subset_of_card_le
    · intro j hj
      obtain ⟨i, hi, rfl⟩ := Finset.mem_image.1 hj
      exact hm i hi
    · rw [Finset.card_image_of_injOn hi]
  conv_rhs => rw [← him]
  rw [Finset.sum_image hi]

theorem total_pick {b : Nat} {π : Nat → Nat} (h : Reorders b π) (ds : List Nat) (f : List Nat → ℝ) :
    total (b :: ds) (pick π f) = total (b :: ds) f := by
  rw [total_cons', total_cons']
  exact sum_reorder h fun i => total ds fun x => f (i :: x)

/-! ### One layer -/

theorem act_pointwise (a : Act ℝ) (ha : a ≠ .softmax) :
    ∃ (φ : ℝ → ℝ) (ψ : ℝ → ℝ → ℝ), (∀ (ds : List Nat) (f : List Nat → ℝ), a.forward (ofFn ds f) = .ok (ofFn ds fun i => φ (f i)) ∧
      (Dims ds → ∀ g, a.backward (ofFn ds f) (ofFn ds g) = .ok (ofFn ds fun i => ψ (f i) (g i)))) ∧
      ∀ c x y, ψ x (c * y) = c * ψ x y := by
  have fwd : ∃ φ : ℝ → ℝ, ∀ (ds : List Nat) (f : List Nat → ℝ), a.forward (ofFn ds f) = .ok (ofFn ds fun i => φ (f i)) := by
    cases a with
    | softmax => exact (ha rfl).elim
    | relu => exact ⟨fun x => cmax 0 x, fun ds f => map_ofFn ds f _⟩
    | leakyRelu alpha => exact ⟨fun x => if 0 < x then x else alpha * x, fun ds f => map_ofFn ds f _⟩
    | sigmoid => exact ⟨fun x => Act.sig (MathFn.toFloat x), fun ds f => map_ofFn ds f _⟩
    | tanh =>
      exact ⟨fun x => (MathFn.exp (x * ((2 : Nat) : ℝ)) - 1) / (MathFn.exp (x * ((2 : Nat) : ℝ)) + 1), fun ds f => map_ofFn ds f _⟩
    | swish => exact ⟨fun x => x * Act.sig x, fun ds f => map_ofFn ds f _⟩
    | mish => exact ⟨fun x => x * MathFn.tanh (Act.softplus x), fun ds f => map_ofFn ds f _⟩
  have bwd : ∃ ψ : ℝ → ℝ → ℝ, (∀ (ds : List Nat) (f g : List Nat → ℝ), Dims ds →
      a.backward (ofFn ds f) (ofFn ds g) = .ok (ofFn ds fun i => ψ (f i) (g i))) ∧ ∀ c x y, ψ x (c * y) = c * ψ x y := by
    cases a with
    | softmax => exact (ha rfl).elim
    | relu =>
      refine ⟨fun x g => (if 0 < x then 1 else 0) * g, fun ds f g hd => ?_, fun c x y => by ring⟩
      simp only [Act.backward, Tensor.apply, map_ofFn, Except.bind_ok', mul_same hd]
    | sigmoid =>
      refine ⟨fun x g => Act.sig (MathFn.toFloat x) * (Act.sig (MathFn.toFloat x) * -1 + 1) * g, fun ds f g hd => ?_, fun c x y => by ring⟩
      simp only [Act.backward, Act.forward, Tensor.apply, map_ofFn, Except.bind_ok', scalarSub_ofFn, mul_same hd]
    | tanh =>
      refine ⟨fun x g => (1 - MathFn.tanh x * MathFn.tanh x) * g, fun ds f g hd => ?_, fun c x y => by ring⟩
      simp only [Act.backward, Tensor.apply, map_ofFn, Except.bind_ok', mul_same hd]
    | leakyRelu alpha => exact ⟨fun x g => if 0 ≤ x then g else alpha * g, fun ds f g _ => applyPair_ofFn ds f g _, fun c x y => by
      dsimp only; split <;> ring⟩
    | swish => exact ⟨fun x g => g * (Act.sig x * (1 + x * (1 - Act.sig x))), fun ds f g _ => applyPair_ofFn ds f g _, fun c x y => by ring⟩
    | mish =>
      exact ⟨fun x g => g * (MathFn.tanh (Act.softplus x) + x * (1 - MathFn.tanh (Act.softplus x) * MathFn.tanh (Act.softplus x)) *
        Act.sig x), fun ds f g _ => applyPair_ofFn ds f g _, fun c x y => by ring⟩
  obtain ⟨φ, h1⟩ := fwd
  obtain ⟨ψ, h2, h3⟩ := bwd
  exact ⟨φ, ψ, fun ds f => ⟨h1 ds f, fun hd g => h2 ds f g hd⟩, h3⟩

theorem rowGrad_homogeneous (ds : List Nat) (S g : List Nat → ℝ) (b : Nat) (x : List Nat) (c : ℝ) :
    rowGrad ds S (fun i => c * g i) b x = c * rowGrad ds S g b x := by
  unfold rowGrad
  have key : ∀ (l : List (List Nat)) (a : ℝ), l.foldl (fun a y => if x = y then a + S (b :: x) * (1 - S (b :: y)) * (c * g (b :: y))
      else a - S (b :: x) * S (b :: y) * (c * g (b :: y))) (c * a) = c * l.foldl (fun a y =>
        if x = y then a + S (b :: x) * (1 - S (b :: y)) * g (b :: y) else a - S (b :: x) * S (b :: y) * g (b :: y)) a := by
    intro l
    induction l with
    | nil => intro a; rfl
    | cons y l ih =>
      intro a
      rw [List.foldl_cons, List.foldl_cons, ← ih]
      congr 1
      split <;> ring
  have := key (indices ds) 0
  rwa [mul_zero] at this

theorem softmax_rows {ds : List Nat} (hne : ds ≠ []) :
    ∃ (φ : (List Nat → ℝ) → List Nat → ℝ) (ψ : (List Nat → ℝ) → (List Nat → ℝ) → List Nat → ℝ),
      (∀ b : Nat, Dims (b :: ds) → ∀ f : List Nat → ℝ,
      Act.softmax.forward (ofFn (b :: ds) f) = .ok (ofFn (b :: ds) fun i => φ (fun x => f (i.headD 0 :: x)) i.tail) ∧
      ∀ g, Act.softmax.backward (ofFn (b :: ds) f) (ofFn (b :: ds) g) =
        .ok (ofFn (b :: ds) fun i => ψ (fun x => f (i.headD 0 :: x)) (fun x => g (i.headD 0 :: x)) i.tail)) ∧
      ∀ c u v x, ψ u (fun i => c * v i) x = c * ψ u v x := by
  refine ⟨fun u x => MathFn.exp (u x - rowMax ds (fun i => u i.tail) 0) / rowSum ds (fun i => u i.tail) 0,
    fun u v x => rowGrad ds (fun idx => MathFn.exp (u idx.tail - rowMax ds (fun i => u i.tail) 0) / rowSum ds (fun i => u i.tail) 0)
      (fun i => v i.tail) 0 x, fun b hd f => ⟨?_, fun g => ?_⟩, fun c u v x => rowGrad_homogeneous ds _ _ 0 x c⟩
  · refine (softmaxForward_ofFn hd hne f).trans (congrArg Except.ok (ofFn_congr fun i hi => ?_))
    obtain ⟨a, is, rfl, -, -⟩ := validIdx_cons_iff.1 hi
    rfl
  · refine (softmaxBackward_ofFn hd hne f g).trans (congrArg Except.ok (ofFn_congr fun i hi => ?_))
    obtain ⟨a, is, rfl, -, -⟩ := validIdx_cons_iff.1 hi
    rfl

theorem reindex_flat {b : Nat} {ds : List Nat} {i j : Nat} (hi : i < b) (hj : j < ds.prod) :
    reindex [b, ds.prod] (b :: ds) [i, j] = i :: (indices ds).getD j [] := by
  obtain ⟨is, hv, hr, he⟩ := exists_idx_of_lt hj
  have h1 : ValidIdx (b :: ds) (i :: is) := validIdx_cons_iff.2 ⟨i, is, rfl, hi, hv⟩
  unfold reindex
  rw [ravel2, ← hr, show i * ds.prod + ravel ds is = ravel (b :: ds) (i :: is) from rfl, List.getD_eq_getElem?_getD,
    indices_ravel h1, List.getD_eq_getElem?_getD, indices_ravel hv]
  rfl

theorem reindex_unflat {b : Nat} {ds : List Nat} {i : Nat} {is : List Nat} (hi : i < b) (hv : ValidIdx ds is) :
    reindex (b :: ds) [b, ds.prod] (i :: is) = [i, ravel ds is] := by
  have h1 : ValidIdx [b, ds.prod] [i, ravel ds is] := valid2_iff.2 ⟨_, _, rfl, hi, ravel_lt hv⟩
  unfold reindex
  rw [show ravel (b :: ds) (i :: is) = ravel [b, ds.prod] [i, ravel ds is] from (ravel2 _ _ _ _).symm, List.getD_eq_getElem?_getD,
    indices_ravel h1]
  rfl

theorem forget_flatten {f : Flatten} {mode : Bool} {l : Layer ℝ} (h : forgetInput ⟨.flatten f, mode⟩ = forgetInput l) :
    l = ⟨.flatten f, mode⟩ := by
  obtain ⟨k, m⟩ := l
  cases k <;> simp only [forgetInput, Layer.mk.injEq, reduceCtorEq, false_and, LayerKind.flatten.injEq] at h
  next f' =>
    obtain ⟨rfl, rfl⟩ := h
    rfl

theorem typed_head {l : Layer ℝ} {b : Nat} {ds es : List Nat} (h : Typed l (b :: ds) es) : ∃ hs, es = b :: hs := by
  cases h <;> exact ⟨_, rfl⟩

/-- The position the gradient of an output of max pooling goes to. -/
noncomputable def poolRoute (p s h w : Nat) (ninf : ℝ) (f : List Nat → ℝ) (j : List Nat) : List Nat :=
  let q := poolFold p s h w ninf (fun y x => f [j.getD 0 0, j.getD 1 0, y, x]) (j.getD 2 0) (j.getD 3 0)
  [j.getD 0 0, j.getD 1 0, q.2.1.toNat, q.2.2.toNat]

/-- The input gradient max pooling computes. -/
noncomputable def poolGrad (n c p s h w : Nat) (ninf : ℝ) (f g : List Nat → ℝ) : List Nat → ℝ := fun i =>
  total [n, c, poolOut p s h, poolOut p s w] fun j => if poolRoute p s h w ninf f j = i then g j else 0

theorem pool_backward_fold {n c h w p s : Nat} (hd : Dims [n, c, h, w]) (hp : 0 < p) (f g : List Nat → ℝ) (ninf : ℝ) :
    MaxPool.backward (ofFn [n, c, poolOut p s h, poolOut p s w] g) ⟨p, s, 0, ninf, some (ofFn [n, c, h, w] f)⟩ =
      (.ok (ofFn [n, c, h, w] (poolGrad n c p s h w ninf f g)), ⟨p, s, 0, ninf, some (ofFn [n, c, h, w] f)⟩) := by
  have hh := hd.pos h (by simp)
  have hw := hd.pos w (by simp)
  refine unpool_route hd (dims_poolOut (s := s) hd hp) f g ninf (poolRoute p s h w ninf f) fun i j oh ow hv => ?_
  obtain ⟨i', j', oh', ow', he, hi, hj, hoh, how⟩ := valid4_iff.1 hv
  simp only [List.cons.injEq, and_true] at he
  obtain ⟨rfl, rfl, rfl, rfl⟩ := he
  have h0 := findMax_fold (p := p) (s := s) (oh := oh) (ow := ow) hd f ninf (some (ofFn [n, c, h, w] f)) hi hj
  obtain ⟨r, h1, h2⟩ := findMax_ofFn (p := p) (s := s) (oh := oh) (ow := ow) hd f ninf (some (ofFn [n, c, h, w] f)) hi hj
  have h3 := h0.symm.trans h1
  rw [Except.ok.injEq] at h3
  have hroute : poolRoute p s h w ninf f [i, j, oh, ow] = [i, j, r.2.1.toNat, r.2.2.toNat] := by
    rw [← h3]
    rfl
  rcases h2 with ⟨h2, -⟩ | ⟨y, x, h2, -, h4⟩
  · subst h2
    exact ⟨_, 0, 0, h1, hroute, valid4_iff.2 ⟨_, _, _, _, rfl, hi, hj, hh, hw⟩⟩
  · subst h2
    exact ⟨_, y, x, h1, hroute, valid4_iff.2 ⟨_, _, _, _, rfl, hi, hj, h4.1.2.2.1, h4.1.2.2.2.2.2⟩⟩

theorem poolGrad_pick {n c h w p s : Nat} {π : Nat → Nat} (hπ : Reorders n π) (ninf : ℝ) (f g : List Nat → ℝ) {i : List Nat}
    (hi : ValidIdx [n, c, h, w] i) : poolGrad n c p s h w ninf (pick π f) (pick π g) i = pick π (poolGrad n c p s h w ninf f g) i := by
  obtain ⟨a, b, y, z, rfl, ha, hb, hy, hz⟩ := valid4_iff.1 hi
  show _ = poolGrad n c p s h w ninf f g [π a, b, y, z]
  unfold poolGrad
  refine Eq.trans (total_congr ?_) (total_pick hπ [c, poolOut p s h, poolOut p s w] _)
  intro j hj
  obtain ⟨a', b', y', z', rfl, ha', hb', hy', hz'⟩ := valid4_iff.1 hj
  have key : poolRoute p s h w ninf (pick π f) [a', b', y', z'] = [a, b, y, z] ↔
      poolRoute p s h w ninf f [π a', b', y', z'] = [π a, b, y, z] := by
    show [a', b', _, _] = _ ↔ [π a', b', _, _] = _
    simp only [List.cons.injEq]
    exact and_congr_left fun _ => ⟨fun h => by rw [h], hπ.2 a' ha' a ha⟩
  exact if_congr key rfl rfl

theorem reorder_step {ρ : Type} {l l' : Layer ℝ} {b : Nat} {ds es : List Nat} (h : Typed l (b :: ds) (b :: es)) (hp : PlainKind l)
    (hl : forgetInput l = forgetInput l') (E : Engine ρ ℝ) (r : ρ) {π : Nat → Nat} (hπ : Reorders b π) (x : List Nat → ℝ) :
    ∃ y k k', Layer.forward E (ofFn (b :: ds) x) (l, r) = (.ok (ofFn (b :: es) y), (k, r)) ∧
      Layer.forward E (ofFn (b :: ds) (pick π x)) (l', r) = (.ok (ofFn (b :: es) (pick π y)), (k', r)) ∧
      Typed k (b :: ds) (b :: es) ∧ PlainKind k ∧ forgetInput k = forgetInput k' ∧ params k = params l ∧
      ∀ g, ∃ z j j', Layer.backward (ofFn (b :: es) g) k = (.ok (ofFn (b :: ds) z), j) ∧
        Layer.backward (ofFn (b :: es) (pick π g)) k' = (.ok (ofFn (b :: ds) (pick π z)), j') ∧
        Typed j (b :: ds) (b :: es) ∧ PlainKind j ∧ forgetInput j = forgetInput j' ∧ Ready j ∧ params j = params l := by
  cases h with
  | @dense b n m w bias f mode hx hw hg hlw hlb =>
    obtain ⟨i, rfl⟩ := forget_fc hl
    refine ⟨affine n w bias x, ⟨.fc { f with input := some (ofFn [b, n] x) }, mode⟩,
      ⟨.fc { f with input := some (ofFn [b, n] (pick π x)) }, mode⟩, ?_, ?_, .dense hx hw hg hlw hlb, .fc _ _, rfl, rfl,
      fun g => ?_⟩
    · simp only [Layer.forward, Layer.onKind]
      rw [C37_batch hg w bias x f hlw hlb]
    · simp only [Layer.forward, Layer.onKind]
      rw [C37_batch hg w bias (pick π x) { f with input := i } hlw hlb]
      refine congrArg (fun y => ((.ok y : Res (Tensor ℝ)), _)) (ofFn_congr fun i hi => ?_)
      obtain ⟨a, c, rfl, ha, hb⟩ := valid2_iff.1 hi
      rfl
    · have b1 := fc_backprop hx hw hg w bias x g f hlw hlb
      have b2 := fc_backprop hx hw hg w bias (pick π x) (pick π g) f hlw hlb
      have c1 : Layer.backward (ofFn [b, m] g) ⟨.fc { f with input := some (ofFn [b, n] x) }, mode⟩ = _ :=
        congrArg (fun p => (p.1, (⟨.fc p.2, mode⟩ : Layer ℝ))) b1
      have c2 : Layer.backward (ofFn [b, m] (pick π g)) ⟨.fc { f with input := some (ofFn [b, n] (pick π x)) }, mode⟩ = _ :=
        congrArg (fun p => (p.1, (⟨.fc p.2, mode⟩ : Layer ℝ))) b2
      have s1 : ∀ p q : Nat, ∑ i ∈ Finset.range b, pick π x [i, p] * pick π g [i, q] = ∑ i ∈ Finset.range b, x [i, p] * g [i, q] :=
        fun p q => sum_reorder hπ fun i => x [i, p] * g [i, q]
      have s2 : ∀ q : Nat, ∑ i ∈ Finset.range b, pick π g [i, q] = ∑ i ∈ Finset.range b, g [i, q] :=
        fun q => sum_reorder hπ fun i => g [i, q]
      simp only [s1, s2] at c2
      refine ⟨_, _, _, c1, c2.trans (congrArg (fun y => ((.ok y : Res (Tensor ℝ)), _)) (ofFn_congr fun i hi => ?_)),
        .dense hx hw hg hlw hlb, .fc _ _, rfl, ?_, rfl⟩
      · obtain ⟨a, c, rfl, ha, hb⟩ := valid2_iff.1 hi
        rfl
      · intro p hp
        cases hp
        refine ⟨_, rfl, ?_, ?_, ?_, ?_⟩
        · simp only [hlw]; exact full_ofFn _ _
        · simp only [hlb]; exact full_ofFn _ _
        · simp only [hlw]; exact size_ofFn _ _ _
        · simp only [hlb]; exact size_ofFn _ _ _
  | @elementwise _ a mode hd ha =>
    obtain ⟨i, rfl⟩ := forget_act hl
    obtain ⟨φ, ψ, h1, -⟩ := act_pointwise a.activation ha
    refine ⟨fun i => φ (x i), ⟨.activation { a with input := some (ofFn (b :: ds) x) }, mode⟩,
      ⟨.activation { a with input := some (ofFn (b :: ds) (pick π x)) }, mode⟩, ?_, ?_, .elementwise hd ha, .activation _ _,
      rfl, rfl, fun g => ?_⟩
    · exact congrArg (fun y => (y, (⟨⟨.activation { a with input := some (ofFn (b :: ds) x) }, mode⟩, r⟩ : Layer ℝ × ρ))) (h1 _ x).1
    · exact congrArg (fun y => (y, (⟨⟨.activation { a with input := some (ofFn (b :: ds) (pick π x)) }, mode⟩, r⟩ : Layer ℝ × ρ)))
        (h1 _ (pick π x)).1
    · exact ⟨fun i => ψ (x i) (g i), ⟨.activation { a with input := some (ofFn (b :: ds) x) }, mode⟩,
        ⟨.activation { a with input := some (ofFn (b :: ds) (pick π x)) }, mode⟩,
        congrArg (fun y => (y, (⟨.activation { a with input := some (ofFn (b :: ds) x) }, mode⟩ : Layer ℝ))) ((h1 _ x).2 hd g),
        congrArg (fun y => (y, (⟨.activation { a with input := some (ofFn (b :: ds) (pick π x)) }, mode⟩ : Layer ℝ)))
          ((h1 _ (pick π x)).2 hd (pick π g)),
        .elementwise hd ha, .activation _ _, rfl, ready_of_none rfl, rfl⟩
  | @softmax _ _ a mode hd hne ha =>
    obtain ⟨i, rfl⟩ := forget_act hl
    obtain ⟨φ, ψ, h1, -⟩ := softmax_rows hne
    replace h1 := h1 b hd
    rw [← ha] at h1
    refine ⟨fun i => φ (fun j => x (i.headD 0 :: j)) i.tail, ⟨.activation { a with input := some (ofFn (b :: ds) x) }, mode⟩,
      ⟨.activation { a with input := some (ofFn (b :: ds) (pick π x)) }, mode⟩, ?_, ?_, .softmax hd hne ha, .activation _ _,
      rfl, rfl, fun g => ?_⟩
    · exact congrArg (fun y => (y, (⟨⟨.activation { a with input := some (ofFn (b :: ds) x) }, mode⟩, r⟩ : Layer ℝ × ρ))) (h1 x).1
    · exact congrArg (fun y => (y, (⟨⟨.activation { a with input := some (ofFn (b :: ds) (pick π x)) }, mode⟩, r⟩ : Layer ℝ × ρ)))
        (h1 (pick π x)).1
    · exact ⟨fun i => ψ (fun j => x (i.headD 0 :: j)) (fun j => g (i.headD 0 :: j)) i.tail,
        ⟨.activation { a with input := some (ofFn (b :: ds) x) }, mode⟩,
        ⟨.activation { a with input := some (ofFn (b :: ds) (pick π x)) }, mode⟩,
        congrArg (fun y => (y, (⟨.activation { a with input := some (ofFn (b :: ds) x) }, mode⟩ : Layer ℝ))) ((h1 x).2 g),
        congrArg (fun y => (y, (⟨.activation { a with input := some (ofFn (b :: ds) (pick π x)) }, mode⟩ : Layer ℝ)))
          ((h1 (pick π x)).2 (pick π g)),
        .softmax hd hne ha, .activation _ _, rfl, ready_of_none rfl, rfl⟩
  | @flatten _ _ f mode hd hr =>
    have hpr : [b, ds.prod].prod = (b :: ds).prod := by simp
    obtain rfl := forget_flatten hl
    have fwd : ∀ x : List Nat → ℝ, Layer.forward E (ofFn (b :: ds) x) (⟨.flatten f, mode⟩, r) =
        (.ok (ofFn [b, ds.prod] fun i => x (i.headD 0 :: (indices ds).getD (i.tail.headD 0) [])),
          (⟨.flatten { f with originalShape := some (shapeOf (b :: ds)) }, mode⟩, r)) := by
      intro x
      simp only [Layer.forward, Layer.onKind]
      rw [flatten_forward hd hr, reinterpret_ofFn hpr]
      refine congrArg (fun y => ((.ok y : Res (Tensor ℝ)), _)) (ofFn_congr fun i hi => ?_)
      obtain ⟨a, c, rfl, ha, hb⟩ := valid2_iff.1 hi
      rw [reindex_flat ha hb]
      rfl
    have bwd : ∀ g : List Nat → ℝ, Layer.backward (ofFn [b, ds.prod] g)
        ⟨.flatten { f with originalShape := some (shapeOf (b :: ds)) }, mode⟩ =
        (.ok (ofFn (b :: ds) fun i => g [i.headD 0, ravel ds i.tail]),
          ⟨.flatten { f with originalShape := some (shapeOf (b :: ds)) }, mode⟩) := by
      intro g
      refine congrArg (fun y => (y, (⟨.flatten { f with originalShape := some (shapeOf (b :: ds)) }, mode⟩ : Layer ℝ))) ?_
      show (Tensor.reshape _ _) = _
      rw [shapeOf_dims, reshape_back hd hpr.symm]
      refine congrArg Except.ok (ofFn_congr fun i hi => ?_)
      obtain ⟨a, is, rfl, ha, hb⟩ := validIdx_cons_iff.1 hi
      rw [reindex_unflat ha hb]
      rfl
    exact ⟨_, _, _, fwd x, fwd (pick π x), .flatten hd hr, .flatten _ _, rfl, rfl, fun g =>
      ⟨_, _, _, bwd g, bwd (pick π g), .flatten hd hr, .flatten _ _, rfl, ready_of_none rfl, rfl⟩⟩
  | conv => cases hp
  | @pool _ c h w p s ninf inp mode hd hp0 hs hph hpw =>
    obtain ⟨i, rfl⟩ := forget_pool hl
    have e1 : poolOut p s h = (h - p) / s + 1 := if_pos hph
    have e2 : poolOut p s w = (w - p) / s + 1 := if_pos hpw
    rw [← e1, ← e2]
    have ht : ∀ inp', Typed ⟨.maxPool ⟨p, s, 0, ninf, inp'⟩, mode⟩ [b, c, h, w] [b, c, poolOut p s h, poolOut p s w] := by
      intro inp'
      rw [e1, e2]
      exact .pool hd hp0 hs hph hpw
    have hdo := dims_poolOut (s := s) hd hp0
    have f1 := pool_forward_fold hd hdo hs (Or.inl hph) (Or.inl hpw) x ninf inp
    have f2 := pool_forward_fold hd hdo hs (Or.inl hph) (Or.inl hpw) (pick π x) ninf i
    refine ⟨fun idx => (poolFold p s h w ninf (fun y z => x [idx.getD 0 0, idx.getD 1 0, y, z]) (idx.getD 2 0) (idx.getD 3 0)).1,
      ⟨.maxPool ⟨p, s, 0, ninf, some (ofFn [b, c, h, w] x)⟩, mode⟩,
      ⟨.maxPool ⟨p, s, 0, ninf, some (ofFn [b, c, h, w] (pick π x))⟩, mode⟩, ?_, ?_, ht _, .maxPool _ _, rfl, rfl, fun g => ?_⟩
    · exact congrArg (fun q : Res (Tensor ℝ) × MaxPool ℝ => (q.1, ((⟨.maxPool q.2, mode⟩ : Layer ℝ), r))) f1
    · refine (congrArg (fun q : Res (Tensor ℝ) × MaxPool ℝ => (q.1, ((⟨.maxPool q.2, mode⟩ : Layer ℝ), r))) f2).trans ?_
      refine congrArg (fun y => ((.ok y : Res (Tensor ℝ)), _)) (ofFn_congr fun i hi => ?_)
      obtain ⟨a, j, y, z, rfl, -, -, -, -⟩ := valid4_iff.1 hi
      rfl
    · have b1 := pool_backward_fold (s := s) hd hp0 x g ninf
      have b2 := pool_backward_fold (s := s) hd hp0 (pick π x) (pick π g) ninf
      refine ⟨poolGrad b c p s h w ninf x g, ⟨.maxPool ⟨p, s, 0, ninf, some (ofFn [b, c, h, w] x)⟩, mode⟩,
        ⟨.maxPool ⟨p, s, 0, ninf, some (ofFn [b, c, h, w] (pick π x))⟩, mode⟩, ?_, ?_, ht _, .maxPool _ _, rfl, ready_of_none rfl, rfl⟩
      · exact congrArg (fun q : Res (Tensor ℝ) × MaxPool ℝ => (q.1, (⟨.maxPool q.2, mode⟩ : Layer ℝ))) b1
      · refine (congrArg (fun q : Res (Tensor ℝ) × MaxPool ℝ => (q.1, (⟨.maxPool q.2, mode⟩ : Layer ℝ))) b2).trans ?_
        exact congrArg (fun y => ((.ok y : Res (Tensor ℝ)), _)) (ofFn_congr fun i hi => poolGrad_pick hπ ninf x g hi)
  | dropout => cases hp

/-! ### The layers of a model -/

theorem reorder_chain {ρ : Type} {b : Nat} {π : Nat → Nat} (hπ : Reorders b π) (E : Engine ρ ℝ) {ls : List (Layer ℝ)}
    {ds es : List Nat} (h : Chain ls ds es) : ∀ {ds' : List Nat}, ds = b :: ds' → (∀ l ∈ ls, PlainKind l) → ∀ {ls' : List (Layer ℝ)},
    ls.map forgetInput = ls'.map forgetInput → ∀ (r : ρ) (x : List Nat → ℝ),
    ∃ es' y ks ks', es = b :: es' ∧ forwardLayers E ls (ofFn ds x) r = (.ok (ofFn es y), ks, r) ∧
      forwardLayers E ls' (ofFn ds (pick π x)) r = (.ok (ofFn es (pick π y)), ks', r) ∧ Chain ks ds es ∧ (∀ l ∈ ks, PlainKind l) ∧
      ks.map forgetInput = ks'.map forgetInput ∧ ks.map params = ls.map params ∧
      ∀ g, ∃ z js js', backwardLayers ks (ofFn es g) = (.ok (ofFn ds z), js) ∧
        backwardLayers ks' (ofFn es (pick π g)) = (.ok (ofFn ds (pick π z)), js') ∧
        Chain js ds es ∧ (∀ l ∈ js, PlainKind l) ∧ js.map forgetInput = js'.map forgetInput ∧ (∀ l ∈ js, Ready l) ∧
        js.map params = ls.map params := by
  induction h with
  | nil ds =>
    intro ds' hds hp ls' hf r x
    obtain rfl : ls' = [] := by simpa using hf.symm
    exact ⟨ds', x, [], [], hds, rfl, rfl, .nil _, by simp, rfl, rfl,
      fun g => ⟨g, [], [], rfl, rfl, .nil _, by simp, rfl, by simp, rfl⟩⟩
  | @cons l ls ds es hs hl hls ih =>
    intro ds' hds hp ls' hf r x
    subst hds
    obtain ⟨l', ls', rfl⟩ : ∃ a as, ls' = a :: as := by
      cases ls' with
      | nil => simp at hf
      | cons a as => exact ⟨a, as, rfl⟩
    simp only [List.map_cons, List.cons.injEq] at hf
    obtain ⟨es', rfl⟩ := typed_head hl
    obtain ⟨y, u, u', f1, f2, f3, f4, f5, f6, f7⟩ := reorder_step hl (hp l (by simp)) hf.1 E r hπ x
    obtain ⟨hs', z, us, us', k0, k1, k2, k3, k4, k5, k6, k7⟩ := ih rfl (fun a ha => hp a (by simp [ha])) hf.2 r y
    have mem : ∀ {P : Layer ℝ → Prop} {a : Layer ℝ} {as : List (Layer ℝ)}, P a → (∀ c ∈ as, P c) → ∀ c ∈ a :: as, P c := by
      intro P a as h1 h2 c hc
      rcases List.mem_cons.1 hc with rfl | hc
      · exact h1
      · exact h2 c hc
    refine ⟨hs', z, u :: us, u' :: us', k0, ?_, ?_, .cons f3 k3, mem f4 k4, by simp [f5, k5], by simp [f6, k6], fun g => ?_⟩
    · rw [forwardLayers_cons, f1]
      simp only
      rw [k1]
    · rw [forwardLayers_cons, f2]
      simp only
      rw [k2]
    · obtain ⟨v, vs, vs', b1, b2, b3, b4, b5, b6, b7⟩ := k7 g
      obtain ⟨w, j, j', c1, c2, c3, c4, c5, c6, c7⟩ := f7 v
      refine ⟨w, j :: vs, j' :: vs', ?_, ?_, .cons c3 b3, mem c4 b4, by simp [b5, c5], mem c6 b6, by simp [b7, c7]⟩
      · unfold backwardLayers
        rw [b1]
        simp only
        rw [c1]
      · unfold backwardLayers
        rw [b2]
        simp only
        rw [c2]

theorem loss_reorder {b : Nat} {π : Nat → Nat} (hπ : Reorders b π) {L : Loss ℝ} {es : List Nat} (h : LossFits L (b :: es))
    (p t : List Nat → ℝ) :
    ∃ v g, L.compute (ofFn (b :: es) p) (ofFn (b :: es) t) = .ok (ofFn [1] fun _ => v) ∧
      L.compute (ofFn (b :: es) (pick π p)) (ofFn (b :: es) (pick π t)) = .ok (ofFn [1] fun _ => v) ∧
      L.gradient (ofFn (b :: es) p) (ofFn (b :: es) t) = .ok (ofFn (b :: es) g) ∧
      L.gradient (ofFn (b :: es) (pick π p)) (ofFn (b :: es) (pick π t)) = .ok (ofFn (b :: es) (pick π g)) := by
  cases L with
  | mse =>
    refine ⟨_, _, C29_compute h p t, ?_, mse_gradient_ofFn h p t, mse_gradient_ofFn h _ _⟩
    rw [C29_compute h]
    refine congrArg (fun v : ℝ => (.ok (ofFn [1] fun _ => v) : Res (Tensor ℝ))) ?_
    unfold mse
    rw [← total_pick hπ es fun i => (p i - t i) ^ 2]
    rfl
  | crossEntropy eps =>
    obtain ⟨b', k, he, hd⟩ := h
    simp only [List.cons.injEq] at he
    obtain ⟨rfl, rfl⟩ := he
    refine ⟨_, _, C30_compute hd eps p t, ?_, C31_value hd eps p t, C31_value hd eps _ _⟩
    rw [C30_compute hd]
    refine congrArg (fun v : ℝ => (.ok (ofFn [1] fun _ => v) : Res (Tensor ℝ))) ?_
    unfold crossEntropy
    rw [← total_pick hπ [k] fun i => t i * Real.log (clampTo eps (p i))]
    rfl

/-- A model of dense, activation, flatten and max pooling layers that fit together, compiled with a loss that fits; the optimizer is fresh or has
only been used on this model. -/
def Spec.PlainModel {ρ : Type} (net : Net ρ ℝ) (b : Nat) (ds es : List Nat) : Prop :=
  WellShaped net (b :: ds) (b :: es) ∧ ∀ l ∈ net.layers, PlainKind l

theorem updated_plain {ls ls' : List (Layer ℝ)} (hu : List.Forall₂ Updated ls ls') (h : ∀ l ∈ ls, PlainKind l) : ∀ l ∈ ls', PlainKind l := by
  induction hu with
  | nil => exact h
  | @cons a a' as as' h1 _ ih =>
    intro l hl
    rcases List.mem_cons.1 hl with rfl | hl
    · have h2 := h a (by simp)
      cases h1 with
      | unchanged => exact h2
      | fc => exact .fc _ _
      | _ => cases h2
    · exact ih (fun c hc => h c (by simp [hc])) l hl

theorem reorder_trainStep {ρ : Type} {b : Nat} {ds es : List Nat} {π : Nat → Nat} (hπ : Reorders b π) (E : Engine ρ ℝ)
    (net net' : Net ρ ℝ) (h : PlainModel net b ds es) (ha : Agree net net') (x y : List Nat → ℝ) :
    ∃ v k k', StepOk E (ofFn (b :: ds) x) (ofFn (b :: es) y) net k v ∧
      StepOk E (ofFn (b :: ds) (pick π x)) (ofFn (b :: es) (pick π y)) net' k' v ∧ Agree k k' ∧ PlainModel k b ds es := by
  obtain ⟨⟨hc, ⟨L, hL, hfit⟩, opt, ho, hr⟩, hp⟩ := h
  obtain ⟨a1, a2, a3, a4⟩ := ha
  obtain ⟨es', p, ks, ks', -, h1, h2, h3, -, h4, h5, h6⟩ := reorder_chain hπ E hc rfl hp a1 net.rng x
  obtain ⟨v, g, l1, l2, l3, l4⟩ := loss_reorder hπ hfit p y
  obtain ⟨z, js, js', b1, b2, b3, b4, b5, b6, b7⟩ := h6 g
  let net1 : Net ρ ℝ := { net with layers := ks }
  let net1' : Net ρ ℝ := { net' with layers := ks' }
  let net2 : Net ρ ℝ := { net with layers := js }
  let net2' : Net ρ ℝ := { net' with layers := js' }
  have hready : NetReady net2 := ⟨b6, opt, ho, remembersFrom_params b7 hr⟩
  obtain ⟨u1, u2⟩ := C56_succeeds net2 hready
  obtain ⟨c1, c2, c3⟩ := C56_changes net2
  obtain ⟨-, opt', o1, o2⟩ := u2
  obtain ⟨w1, w2, w3⟩ := updateLayers_forget b5 0 opt
  have e := net_updateWeights_eq net2 opt ho
  have e' := net_updateWeights_eq net2' opt (a3.symm.trans ho)
  refine ⟨v, (updateWeights net2).2, (updateWeights net2').2,
    ⟨_, net1, L, _, ofFn (b :: ds) z, net2, ?_, hL, l1, l3, ?_, Prod.ext u1 rfl⟩,
    ⟨_, net1', L, _, ofFn (b :: ds) (pick π z), net2', ?_, a2.symm.trans hL, l2, l4, ?_, Prod.ext ?_ rfl⟩, ⟨?_, ?_, ?_, ?_⟩,
    ⟨updated_chain c1 b3, ⟨L, c2.trans hL, hfit⟩, opt', o1, o2⟩, updated_plain c1 b4⟩
  · unfold predict
    rw [h1]
  · show backward _ net1 = _
    unfold backward
    rw [show net1.layers = ks from rfl, b1]
  · unfold predict
    rw [← a4, h2, a4]
  · show backward _ net1' = _
    unfold backward
    rw [show net1'.layers = ks' from rfl, b2]
  · rw [e] at u1
    rw [e']
    rw [show net2.layers = js from rfl] at u1
    rw [show net2'.layers = js' from rfl]
    exact w1.symm.trans u1
  · rw [e, e']
    exact w3
  · rw [c2, (C56_changes net2').2.1]
    exact a2
  · rw [e, e']
    exact congrArg some w2
  · rw [c3, (C56_changes net2').2.2]
    exact a4

/-- A batch with its targets, and an order of its samples. -/
structure Spec.Batch (b : Nat) where
  x : List Nat → ℝ
  y : List Nat → ℝ
  order : Nat → Nat
  reorders : Reorders b order

theorem reorder_steps {ρ : Type} {b : Nat} {ds es : List Nat} (E : Engine ρ ℝ) (ps : List (Batch b)) :
    ∀ (net net' : Net ρ ℝ), PlainModel net b ds es → Agree net net' →
    ∃ vs k k', Steps E (ps.map fun q => (ofFn (b :: ds) q.x, ofFn (b :: es) q.y)) net k vs ∧
      Steps E (ps.map fun q => (ofFn (b :: ds) (pick q.order q.x), ofFn (b :: es) (pick q.order q.y))) net' k' vs ∧ Agree k k' ∧
      PlainModel k b ds es := by
  induction ps with
  | nil => exact fun net net' h ha => ⟨[], net, net', .nil net, .nil net', ha, h⟩
  | cons q ps ih =>
    intro net net' h ha
    obtain ⟨v, k, k', s1, s2, s3, s4⟩ := reorder_trainStep q.reorders E net net' h ha q.x q.y
    obtain ⟨vs, j, j', t1, t2, t3, t4⟩ := ih k k' s4 s3
    exact ⟨v :: vs, j, j', .cons s1 t1, .cons s2 t2, t3, t4⟩

theorem reorder_epochs {ρ : Type} {b : Nat} {ds es : List Nat} (E : Engine ρ ℝ) (ps : List (Batch b)) (N : Nat) :
    ∀ (net net' : Net ρ ℝ), PlainModel net b ds es → Agree net net' →
    ∃ rs k k', Epochs E (ps.map fun q => (ofFn (b :: ds) q.x, ofFn (b :: es) q.y)) N net k rs ∧
      Epochs E (ps.map fun q => (ofFn (b :: ds) (pick q.order q.x), ofFn (b :: es) (pick q.order q.y))) N net' k' rs ∧
      rs.length = N ∧ Agree k k' ∧ PlainModel k b ds es := by
  induction N with
  | zero => exact fun net net' h ha => ⟨[], net, net', .zero net, .zero net', rfl, ha, h⟩
  | succ N ih =>
    intro net net' h ha
    obtain ⟨vs, k, k', s1, s2, s3, s4⟩ := reorder_steps E ps net net' h ha
    obtain ⟨rs, j, j', t1, t2, t3, t4, t5⟩ := ih k k' s4 s3
    have e1 := Epochs.succ s1 t1
    have e2 := Epochs.succ s2 t2
    rw [List.length_map] at e1 e2
    exact ⟨_ :: rs, j, j', e1, e2, by simp [t3], t4, t5⟩

/-- **C87** for models of dense, activation, flatten and max pooling layers.  Training on batches whose samples are stored in another order — a
different one in each batch — succeeds like training on the original batches, prints the same losses, and leaves the same parameters,
gradients and optimizer state: the models differ at most in the batches their layers remember.  Missing for the full property:
convolution layers (`C87_convolution_refuted`) and dropout layers (`C87_dropout_refuted`); a model with batch normalisation cannot be
trained at all (`C74_refuted`). -/
theorem C87_train_partial {ρ : Type} {b : Nat} {ds es : List Nat} (E : Engine ρ ℝ) (net : Net ρ ℝ) (h : PlainModel net b ds es)
    (data : List (Batch b)) (hne : data ≠ []) (epochs : Int) :
    ∃ rs k k', trainCall E (data.map fun q => ofFn (b :: ds) q.x) (data.map fun q => ofFn (b :: es) q.y) epochs net =
        (.ok (), k, rs) ∧
      trainCall E (data.map fun q => ofFn (b :: ds) (pick q.order q.x)) (data.map fun q => ofFn (b :: es) (pick q.order q.y))
        epochs net = (.ok (), k', rs) ∧
      rs.length = epochs.toNat ∧ Agree k k' := by
  obtain ⟨rs, k, k', h1, h2, h3, h4, -⟩ := reorder_epochs E data epochs.toNat net net h ⟨rfl, rfl, rfl, rfl⟩
  have hn : (data.length : ℝ) ≠ 0 := by
    rw [Ne, Nat.cast_eq_zero, List.length_eq_zero_iff]
    exact hne
  refine ⟨rs, k, k', (C55_train E _ _ epochs net k rs (by simp) (by simpa using hn)).2 ?_,
    (C55_train E _ _ epochs net k' rs (by simp) (by simpa using hn)).2 ?_, h3, h4⟩
  · rw [List.zip_map']
    exact h1
  · rw [List.zip_map']
    exact h2

/-- The hypotheses are met: a network with a pooling and a flatten layer, a hidden ReLU layer and softmax, cross entropy and Adam, on a batch of three
images whose order is rotated. -/
example (o : AdamOptions ℝ) (x y w₁ w₂ : List Nat → ℝ) :
    let net : Net Unit ℝ :=
      { layers := [⟨.maxPool ⟨2, 2, 0, -1000, none⟩, true⟩, ⟨.flatten {}, true⟩, ⟨.fc { weights := ofFn [4, 5] w₁, biases := ofFn [1, 5] fun _ => 0 }, true⟩,
          ⟨.activation { activation := .relu }, true⟩, ⟨.fc { weights := ofFn [5, 2] w₂, biases := ofFn [1, 2] fun _ => 0 }, true⟩,
          ⟨.activation { activation := .softmax }, true⟩], rng := () }
    PlainModel (net.compile (.crossEntropy (1 / 100)) (.newAdam o)) 3 [1, 4, 4] [2] ∧
    ∃ q : Batch 3, q.x = x ∧ q.y = y ∧ q.order 0 = 1 ∧ q.order 1 = 2 ∧ q.order 2 = 0 := by
  intro net
  have d : ∀ {ds : List Nat}, ds ≠ [] → (∀ a ∈ ds, 0 < a) → ds.prod < 2 ^ 31 → Dims ds := fun a b c => ⟨a, b, c⟩
  have hc : Chain net.layers [3, 1, 4, 4] [3, 2] := by
    refine .cons (es := [3, 1, 2, 2]) (.pool (n := 3) (c := 1) (h := 4) (w := 4) (p := 2) (s := 2)
      (d (by simp) (by simp) (by simp)) (by omega) (by omega) (by omega) (by omega)) ?_
    refine .cons (es := [3, 4]) (.flatten (d := 3) (ds := [1, 2, 2]) (d (by simp) (by simp) (by simp)) (by simp)) ?_
    refine .cons (es := [3, 5]) (.dense (d (by simp) (by simp) (by simp)) (d (by simp) (by simp) (by simp))
      (d (by simp) (by simp) (by simp)) rfl rfl) ?_
    refine .cons (es := [3, 5]) (.elementwise (d (by simp) (by simp) (by simp)) (by intro h; cases h)) ?_
    refine .cons (es := [3, 2]) (.dense (d (by simp) (by simp) (by simp)) (d (by simp) (by simp) (by simp))
      (d (by simp) (by simp) (by simp)) rfl rfl) ?_
    exact .cons (es := [3, 2]) (.softmax (d (by simp) (by simp) (by simp)) (by simp) rfl) (.nil _)
  refine ⟨⟨(C67_compiled net (.crossEntropy (1 / 100)) hc ⟨3, 2, rfl, by simp, by simp, by simp⟩ ⟨0, 0, 0, 0, false⟩
    ⟨0, 0, 0, 0, false, 0⟩ o).2.2, ?_⟩, ⟨x, y, fun i => (i + 1) % 3, fun i hi => Nat.mod_lt _ (by norm_num), ?_⟩, rfl, rfl, rfl, rfl, rfl⟩
  · intro l hl
    simp only [net, compile, List.mem_cons, List.not_mem_nil, or_false] at hl
    rcases hl with rfl | rfl | rfl | rfl | rfl | rfl
    · exact .maxPool _ _
    · exact .flatten _ _
    · exact .fc _ _
    · exact .activation _ _
    · exact .fc _ _
    · exact .activation _ _
  · intro i hi j hj h
    dsimp only at h
    omega

/-! ### Convolution layers -/

theorem train_once {ρ : Type} (E : Engine ρ ℝ) (net n1 n2 n3 : Net ρ ℝ) (x z : Tensor ℝ) (p y g : List Nat → ℝ) {ds : List Nat} (hd : Dims ds)
    (s1 : predict E x net = (.ok (ofFn ds p), n1)) (hL : n1.loss = some .mse) (f2 : Loss.mse.gradient (ofFn ds p) (ofFn ds y) = .ok (ofFn ds g))
    (s2 : backward (ofFn ds g) n1 = (.ok z, n2)) (s3 : updateWeights n2 = (.ok (), n3)) :
    ∃ rs, trainCall E [x] [ofFn ds y] 1 net = (.ok (), n3, rs) := by
  have h := Epochs.succ (E := E) (ps := [(x, ofFn ds y)]) (n := 0)
    (Steps.cons ⟨_, n1, .mse, _, _, n2, s1, hL, C29_compute hd _ _, f2, s2, s3⟩ (.nil _)) (.zero _)
  exact ⟨_, (C55_train E [x] [ofFn ds y] 1 net n3 _ (by simp) (by simp)).2 h⟩

/-- One training step of a convolution layer with a 1 × 1 kernel on a batch of samples of one pixel. -/
theorem conv_pixel_step {ρ : Type} {n : Nat} (hd : Dims [n, 1, 1, 1]) (E : Engine ρ ℝ) (c : Conv ℝ) (mode : Bool) (net : Net ρ ℝ) (hl : net.layers = [⟨.conv c, mode⟩])
    (hc : c = ⟨1, 1, 1, 1, 1, 0, 1, ofFn [1, 1, 1, 1] fun _ => 0, ofFn [1, 1] fun _ => 0, none, none, none⟩)
    (hL : net.loss = some .mse) {lr : ℝ} {opt : Optimizer (Nat × Bool) ℝ} (ho : net.optimizer = some opt) (hp : PlainSGD lr opt)
    (x y : List Nat → ℝ) :
    ∃ k c' rs, trainCall E [ofFn [n, 1, 1, 1] x] [ofFn [n, 1, 1, 1] y] 1 net = (.ok (), k, rs) ∧ k.layers = [⟨.conv c', mode⟩] ∧
      c'.weights = ofFn [1, 1, 1, 1] fun _ => lr * (x [0, 0, 0, 0] * y [0, 0, 0, 0] * 2 / n) := by
  subst hc
  have hn0 := hd.pos n (by simp)
  have hn : (n : ℝ) ≠ 0 := by positivity
  have hlt : n * 1 * 1 * 1 < 2 ^ 31 := by simpa using hd.lt
  have hk : Dims [1, 1, 1, 1] := ⟨by simp, by simp, by decide⟩
  have hb : Dims [1, 1] := ⟨by simp, by simp, by decide⟩
  have ht : ∀ x : ℝ, MathFn.toFloat x = x := fun _ => rfl
  let c : Conv ℝ := ⟨1, 1, 1, 1, 1, 0, 1, ofFn [1, 1, 1, 1] fun _ => 0, ofFn [1, 1] fun _ => 0, none, none, none⟩
  let c1 : Conv ℝ := { c with input := some (ofFn [n, 1, 1, 1] x) }
  obtain ⟨p, f1, hp0⟩ : ∃ p : List Nat → ℝ, Conv.forward (ofFn [n, 1, 1, 1] x) c = (.ok (ofFn [n, 1, 1, 1] p), c1) ∧ p [0, 0, 0, 0] = 0 :=
    ⟨_, conv_forward ht hd hk hb le_rfl le_rfl hlt _ _ x c rfl rfl rfl rfl rfl rfl, by simp [Spec.conv]⟩
  obtain ⟨g, f2, hg⟩ : ∃ g : List Nat → ℝ, Loss.mse.gradient (ofFn [n, 1, 1, 1] p) (ofFn [n, 1, 1, 1] y) = .ok (ofFn [n, 1, 1, 1] g) ∧
      g [0, 0, 0, 0] = -y [0, 0, 0, 0] * 2 / n :=
    ⟨_, mse_gradient_ofFn hd p y, by simp [hp0]⟩
  have f3 := conv_backward (oh := 1) (ow := 1) ht hd hk hd (by norm_num) (by norm_num) x g _ _ c1 rfl rfl rfl rfl rfl
  have hne : ((0 : Nat), false) ≠ (0, true) := by simp
  obtain ⟨opt', f4⟩ := plain_pair hne hp [1, 1, 1, 1] [1, 1] (fun _ => 0) (fun _ => 0) (convWeightGrad 1 1 x g) (convBiasGrad 1 1 g)
  let c2 : Conv ℝ := { c1 with weightGradients := some (ofFn [1, 1, 1, 1] (convWeightGrad 1 1 x g)),
                               biasGradients := some (ofFn [1, 1] (convBiasGrad 1 1 g)) }
  let c3 : Conv ℝ := { c2 with weights := ofFn [1, 1, 1, 1] fun i => 0 - lr * convWeightGrad 1 1 x g i,
                               biases := ofFn [1, 1] fun i => 0 - lr * convBiasGrad 1 1 g i }
  let n1 : Net ρ ℝ := { net with layers := [⟨.conv c1, mode⟩] }
  let n2 : Net ρ ℝ := { net with layers := [⟨.conv c2, mode⟩] }
  let n3 : Net ρ ℝ := { net with layers := [⟨.conv c3, mode⟩], optimizer := some opt' }
  have s1 : predict E (ofFn [n, 1, 1, 1] x) net = (.ok (ofFn [n, 1, 1, 1] p), n1) := by
    have : Layer.forward E (ofFn [n, 1, 1, 1] x) (⟨.conv c, mode⟩, net.rng) = (.ok (ofFn [n, 1, 1, 1] p), (⟨.conv c1, mode⟩, net.rng)) :=
      congrArg (fun q : Res (Tensor ℝ) × Conv ℝ => (q.1, ((⟨.conv q.2, mode⟩ : Layer ℝ), net.rng))) f1
    unfold predict
    rw [hl, forwardLayers_cons, this]
    rfl
  have s2 : backward (ofFn [n, 1, 1, 1] g) n1 = (.ok (ofFn [n, 1, 1, 1] (convInputGrad 1 1 1 1 (fun _ => 0) g)), n2) := by
    have : Layer.backward (ofFn [n, 1, 1, 1] g) ⟨.conv c1, mode⟩ =
        (.ok (ofFn [n, 1, 1, 1] (convInputGrad 1 1 1 1 (fun _ => 0) g)), ⟨.conv c2, mode⟩) :=
      congrArg (fun q : Res (Tensor ℝ) × Conv ℝ => (q.1, (⟨.conv q.2, mode⟩ : Layer ℝ))) f3
    unfold backward
    rw [show n1.layers = [⟨.conv c1, mode⟩] from rfl]
    simp only [backwardLayers]
    rw [this]
  have s3 : updateWeights n2 = (.ok (), n3) := by
    have : Layer.updateWeights (0, false) (0, true) (⟨.conv c2, mode⟩, opt) = (.ok (), ⟨.conv c3, mode⟩, opt') := by
      simp only [Layer.updateWeights, c2, c1, c, f4]
      rfl
    rw [net_updateWeights_eq n2 opt ho, show n2.layers = [⟨.conv c2, mode⟩] from rfl, updateLayers_cons, this]
    rfl
  obtain ⟨rs, s4⟩ := train_once E net n1 n2 n3 _ _ _ _ _ hd s1 hL f2 s2 s3
  refine ⟨n3, c3, rs, s4, rfl, ?_⟩
  refine ofFn_congr fun i hi => ?_
  obtain ⟨a, b, u, v, rfl, ha, hb, hu, hv⟩ := valid4_iff.1 hi
  obtain ⟨rfl, rfl, rfl, rfl⟩ : a = 0 ∧ b = 0 ∧ u = 0 ∧ v = 0 := by omega
  simp [convWeightGrad, hg]
  ring

/-- **C87 refuted for convolution.**  Two samples of one pixel, one step of plain gradient descent: with the samples in one order the
kernel moves, with the samples in the other order it does not. -/
theorem C87_convolution_refuted {ρ : Type} (E : Engine ρ ℝ) (net : Net ρ ℝ)
    (hl : net.layers = [⟨.conv ⟨1, 1, 1, 1, 1, 0, 1, ofFn [1, 1, 1, 1] fun _ => 0, ofFn [1, 1] fun _ => 0, none, none, none⟩, true⟩])
    (hL : net.loss = some .mse) {lr : ℝ} (hlr : lr ≠ 0) {opt : Optimizer (Nat × Bool) ℝ} (ho : net.optimizer = some opt)
    (hp : PlainSGD lr opt) :
    ∃ (x y : List Nat → ℝ) (π : Nat → Nat) (k k' : Net ρ ℝ) (c c' : Conv ℝ) (rs rs' : List (Tensor ℝ)), Reorders 2 π ∧
      trainCall E [ofFn [2, 1, 1, 1] x] [ofFn [2, 1, 1, 1] y] 1 net = (.ok (), k, rs) ∧
      trainCall E [ofFn [2, 1, 1, 1] (pick π x)] [ofFn [2, 1, 1, 1] (pick π y)] 1 net = (.ok (), k', rs') ∧
      k.layers = [⟨.conv c, true⟩] ∧ k'.layers = [⟨.conv c', true⟩] ∧ c.weights ≠ c'.weights := by
  obtain ⟨k, c, rs, h1, h2, h3⟩ := conv_pixel_step (n := 2) ⟨by simp, by simp, by decide⟩ E _ true net hl rfl hL ho hp
    (fun i => if i.headD 0 = 0 then 1 else 0) (fun i => if i.headD 0 = 0 then 1 else 0)
  obtain ⟨k', c', rs', h1', h2', h3'⟩ := conv_pixel_step (n := 2) ⟨by simp, by simp, by decide⟩ E _ true net hl rfl hL ho hp
    (pick (fun i => 1 - i) fun i => if i.headD 0 = 0 then 1 else 0) (pick (fun i => 1 - i) fun i => if i.headD 0 = 0 then 1 else 0)
  refine ⟨_, _, fun i => 1 - i, k, k', c, c', rs, rs', ⟨fun i hi => by dsimp only; omega, fun i hi j hj h => by dsimp only at h; omega⟩, h1, h1', h2, h2', ?_⟩
  rw [h3, h3']
  intro h
  have h4 := congrArg (fun t : Tensor ℝ => t.data) h
  simp [ofFn_data, indices, pick, hlr] at h4

/-! ### Dropout layers -/

/-- One training step of a dropout layer on a batch of samples with one feature. -/
theorem dropout_pixel_step {ρ : Type} {n : Nat} (hd : Dims [n, 1]) (E : Engine ρ ℝ) (rate : ℝ) (net : Net ρ ℝ)
    (hl : net.layers = [⟨.dropout { dropoutRate := rate }, true⟩]) (hL : net.loss = some .mse) {opt : Optimizer (Nat × Bool) ℝ}
    (ho : net.optimizer = some opt) (hr : RemembersFrom opt 0 net.layers) (x y : List Nat → ℝ) :
    ∃ k v, trainCall E [ofFn [n, 1] x] [ofFn [n, 1] y] 1 net = (.ok (), k, [ofFn [1] fun _ => v]) ∧
      v = mse [n, 1] (fun i => x i * (if rate < cmin (cmax (drawAt E n (ravel [n, 1] i) net.rng) 0) 1 then 1 else 0) * (1 / (1 - rate))) y := by
  have hw : WellShaped net [n, 1] [n, 1] := by
    refine ⟨?_, ⟨_, hL, hd⟩, opt, ho, hr⟩
    rw [hl]
    exact .cons (.dropout hd) (.nil _)
  obtain ⟨k, v, hs, -⟩ := C67_step E net hw _ _ ⟨x, rfl⟩ ⟨y, rfl⟩
  have h := Epochs.succ (E := E) (ps := [(ofFn [n, 1] x, ofFn [n, 1] y)]) (n := 0) (Steps.cons hs (.nil _)) (.zero _)
  refine ⟨k, v, ?_, ?_⟩
  · have := (C55_train E [ofFn [n, 1] x] [ofFn [n, 1] y] 1 net k _ (by simp) (by simp)).2 h
    simpa using this
  · obtain ⟨pred, n1, L, g, g', n2, s1, s2, s3, -⟩ := hs
    have hf := dropout_forward_training E hd x { dropoutRate := rate } net.rng (createRandom_ofFn E [n, 1] 0 1 net.rng)
    unfold predict at s1
    rw [hl] at s1
    simp only [forwardLayers, Layer.forward, Layer.onKind, hf, Prod.mk.injEq, Except.ok.injEq] at s1
    obtain ⟨rfl, rfl⟩ := s1
    obtain rfl : L = .mse := by
      simp only at s2
      rw [hL] at s2
      exact (Option.some.inj s2).symm
    rw [C29_compute hd, Except.ok.injEq] at s3
    have := ofFn_inj s3 (valid1_iff.2 ⟨0, rfl, by omega⟩)
    rw [show [n, 1].prod = n by simp] at this
    exact this.symm

/-- **C87 refuted for dropout.**  Whenever the engine draws a number that drops the first element and then one that keeps the second,
training a dropout layer on two samples prints another loss when the samples are swapped. -/
theorem C87_dropout_refuted {ρ : Type} (E : Engine ρ ℝ) {rate : ℝ} (hrate : rate ≠ 1) (net : Net ρ ℝ)
    (hl : net.layers = [⟨.dropout { dropoutRate := rate }, true⟩]) (hL : net.loss = some .mse) {opt : Optimizer (Nat × Bool) ℝ}
    (ho : net.optimizer = some opt) (hr : RemembersFrom opt 0 net.layers)
    (h1 : ¬ kept rate (drawAt E 2 0 net.rng)) (h2 : kept rate (drawAt E 2 1 net.rng)) :
    ∃ (x y : List Nat → ℝ) (π : Nat → Nat) (k k' : Net ρ ℝ) (rs rs' : List (Tensor ℝ)), Reorders 2 π ∧
      trainCall E [ofFn [2, 1] x] [ofFn [2, 1] y] 1 net = (.ok (), k, rs) ∧
      trainCall E [ofFn [2, 1] (pick π x)] [ofFn [2, 1] (pick π y)] 1 net = (.ok (), k', rs') ∧ rs ≠ rs' := by
  obtain ⟨k, v, e1, e2⟩ := dropout_pixel_step (n := 2) ⟨by simp, by simp, by decide⟩ E rate net hl hL ho hr (fun i => if i.headD 0 = 0 then 1 else 0) (fun _ => 0)
  obtain ⟨k', v', e1', e2'⟩ := dropout_pixel_step (n := 2) ⟨by simp, by simp, by decide⟩ E rate net hl hL ho hr (pick (fun i => 1 - i) fun i => if i.headD 0 = 0 then 1 else 0)
    (pick (fun i => 1 - i) fun _ => 0)
  refine ⟨_, _, fun i => 1 - i, k, k', _, _, ⟨fun i hi => by dsimp only; omega, fun i hi j hj h => by dsimp only at h; omega⟩, e1, e1', ?_⟩
  have c1 := (kept_iff_cmin rate (drawAt E 2 0 net.rng)).not.2 h1
  have c2 := (kept_iff_cmin rate (drawAt E 2 1 net.rng)).2 h2
  have hv : v = 0 := by
    rw [e2]
    simp [mse, total2, Finset.sum_range_succ, ravel2, c1, c2]
  have hv' : v' ≠ 0 := by
    rw [e2']
    simp [mse, total2, Finset.sum_range_succ, ravel2, c1, c2, pick, sub_eq_zero, hrate.symm]
  intro h
  simp only [List.cons.injEq, and_true] at h
  have := ofFn_inj h (valid1_iff.2 ⟨0, rfl, by omega⟩)
  exact hv' (this.symm.trans hv)

/-- Such models and engines exist. -/
example : ∃ (E : Engine Bool ℝ) (net : Net Bool ℝ) (opt : Optimizer (Nat × Bool) ℝ),
    net.layers = [⟨.dropout { dropoutRate := 1 / 2 }, true⟩] ∧ net.loss = some .mse ∧ net.optimizer = some opt ∧
    RemembersFrom opt 0 net.layers ∧ ¬ kept (1 / 2) (drawAt E 2 0 net.rng) ∧ kept (1 / 2) (drawAt E 2 1 net.rng) := by
  have hd : Dims [2, 1] := ⟨by simp, by simp, by decide⟩
  let net : Net Bool ℝ := { layers := [⟨.dropout { dropoutRate := 1 / 2 }, true⟩], rng := false }
  have hc : Chain net.layers [2, 1] [2, 1] := .cons (.dropout hd) (.nil _)
  obtain ⟨-, -, opt, h1, h2⟩ := (C67_compiled net .mse hc hd ⟨0, 0, 0, 0, false⟩ ⟨0, 0, 0, 0, false, 0⟩ ⟨1 / 1000, 9 / 10, 999 / 1000, 1 / 100, 0, 0, 0, 1, 0⟩).2.2
  refine ⟨⟨fun _ => false, fun _ r => (if r then 1 else 0, true)⟩, net.compile .mse _, opt, rfl, rfl, h1, h2, ?_, ?_⟩ <;>
    norm_num [kept, drawAt, engineAfter, net, compile]

end SmartDNN
