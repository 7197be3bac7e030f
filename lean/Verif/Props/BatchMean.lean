import Verif.Props.RowOrder

/-!
# A training step on a batch is the average of the steps on its samples (C88)

Dense, activation, flatten and max pooling layers, both losses, plain SGD.  With a convolution or a dropout layer it is not.
-/

namespace SmartDNN
open Net Spec

/-! ### Specification -/

/-- The `i`-th sample of a batch, as a batch of one sample. -/
def Spec.rowAt (i : Nat) (f : List Nat → ℝ) : List Nat → ℝ := fun idx => f (i :: idx.tail)

/-- The average of `b` numbers. -/
noncomputable def Spec.meanOver (b : Nat) (u : Nat → ℝ) : ℝ := (∑ i ∈ Finset.range b, u i) / b

/-! ### One layer -/

theorem dims_row {b : Nat} {ds : List Nat} (h : Dims (b :: ds)) : Dims (1 :: ds) := by
  refine ⟨by simp, ?_, ?_⟩
  · intro d hd
    rcases List.mem_cons.1 hd with rfl | hd
    · exact one_pos
    · exact h.pos d (by simp [hd])
  · have h1 := h.pos b (by simp)
    have h2 := h.lt
    rw [List.prod_cons] at h2 ⊢
    rw [one_mul]
    exact lt_of_le_of_lt (Nat.le_mul_of_pos_left _ h1) h2

theorem typed_one {l : Layer ℝ} {b : Nat} {ds es : List Nat} (h : Typed l (b :: ds) (b :: es)) (hp : PlainKind l) :
    Typed l (1 :: ds) (1 :: es) := by
  cases h with
  | dense hx hw hg hlw hlb => exact .dense (dims_row hx) hw (dims_row hg) hlw hlb
  | elementwise hd ha => exact .elementwise (dims_row hd) ha
  | softmax hd hne ha => exact .softmax (dims_row hd) hne ha
  | flatten hd hr => exact .flatten (dims_row hd) hr
  | conv => cases hp
  | pool hd hp0 hs hph hpw => exact .pool (dims_row hd) hp0 hs hph hpw
  | dropout => cases hp

/-- A dense layer with parameters `w`, `bias` and the gradients `gw`, `gb`. -/
def Stored (n m : Nat) (w bias : List Nat → ℝ) (mode : Bool) (gw gb : List Nat → ℝ) (l : Layer ℝ) : Prop :=
  ∃ f : FC ℝ, l = ⟨.fc f, mode⟩ ∧ f.weights = ofFn [n, m] w ∧ f.biases = ofFn [1, m] bias ∧
    f.weightGradients = some (ofFn [n, m] gw) ∧ f.biasGradients = some (ofFn [1, m] gb)

theorem poolGrad_row {n c h w p s : Nat} (ninf a : ℝ) (f g : List Nat → ℝ) {r i j y : Nat} (hr : r < n) :
    poolGrad 1 c p s h w ninf (rowAt r f) (fun i => a * rowAt r g i) [0, i, j, y] = a * poolGrad n c p s h w ninf f g [r, i, j, y] := by
  unfold poolGrad
  rw [total_cons', total_cons', Finset.sum_range_one, Finset.sum_eq_single_of_mem r (Finset.mem_range.2 hr)]
  · rw [← total_mul_left]
    refine total_congr fun k hk => ?_
    have key : poolRoute p s h w ninf (rowAt r f) (0 :: k) = [0, i, j, y] ↔ poolRoute p s h w ninf f (r :: k) = [r, i, j, y] := by
      show [0, _, _, _] = _ ↔ [r, _, _, _] = _
      simp only [List.cons.injEq, true_and]
      exact Iff.rfl
    by_cases h1 : poolRoute p s h w ninf f (r :: k) = [r, i, j, y]
    · rw [if_pos h1, if_pos (key.2 h1)]
      rfl
    · rw [if_neg h1, if_neg (fun h => h1 (key.1 h)), mul_zero]
  · intro q _ hq
    refine (total_congr fun k hk => ?_).trans (total_zero _)
    rw [if_neg]
    intro h
    exact hq (List.cons.inj h).1

theorem mean_step {ρ : Type} {l : Layer ℝ} {b : Nat} (hb : 0 < b) {ds es : List Nat} (h : Typed l (b :: ds) (b :: es)) (hp : PlainKind l)
    (E : Engine ρ ℝ) (r : ρ) (x : List Nat → ℝ) :
    ∃ y k, Layer.forward E (ofFn (b :: ds) x) (l, r) = (.ok (ofFn (b :: es) y), (k, r)) ∧
      ∀ g, ∃ z j, ∃ fam : Nat → Layer ℝ, Layer.backward (ofFn (b :: es) g) k = (.ok (ofFn (b :: ds) z), j) ∧
        (∀ i < b, ∃ ki, Layer.forward E (ofFn (1 :: ds) (rowAt i x)) (l, r) = (.ok (ofFn (1 :: es) (rowAt i y)), (ki, r)) ∧
          Layer.backward (ofFn (1 :: es) fun idx => b * rowAt i g idx) ki = (.ok (ofFn (1 :: ds) fun idx => b * rowAt i z idx), fam i)) ∧
        ∀ f mode, l = ⟨.fc f, mode⟩ → ∃ n m w bias, ∃ u v : Nat → List Nat → ℝ,
          Stored n m w bias mode (fun idx => meanOver b fun i => u i idx) (fun idx => meanOver b fun i => v i idx) j ∧
          ∀ i < b, Stored n m w bias mode (u i) (v i) (fam i) := by
  have hb0 : (b : ℝ) ≠ 0 := by positivity
  have h1 := typed_one h hp
  cases h with
  | @dense b n m w bias f mode hx hw hg hlw hlb =>
    have hx1 := dims_row hx
    have hg1 := dims_row hg
    have fwd : ∀ i, Layer.forward E (ofFn [1, n] (rowAt i x)) (⟨.fc f, mode⟩, r) =
        (.ok (ofFn [1, m] (rowAt i (affine n w bias x))), (⟨.fc { f with input := some (ofFn [1, n] (rowAt i x)) }, mode⟩, r)) := by
      intro i
      simp only [Layer.forward, Layer.onKind]
      rw [C37_batch hg1 w bias (rowAt i x) f hlw hlb]
      refine congrArg (fun y => ((.ok y : Res (Tensor ℝ)), _)) (ofFn_congr fun i hi => ?_)
      obtain ⟨a, c, rfl, ha, hb⟩ := valid2_iff.1 hi
      rfl
    refine ⟨affine n w bias x, ⟨.fc { f with input := some (ofFn [b, n] x) }, mode⟩, ?_, fun g => ?_⟩
    · simp only [Layer.forward, Layer.onKind]
      rw [C37_batch hg w bias x f hlw hlb]
    · have b1 := fc_backprop hx hw hg w bias x g f hlw hlb
      have c1 : Layer.backward (ofFn [b, m] g) ⟨.fc { f with input := some (ofFn [b, n] x) }, mode⟩ = _ :=
        congrArg (fun p => (p.1, (⟨.fc p.2, mode⟩ : Layer ℝ))) b1
      have c2 : ∀ i, Layer.backward (ofFn [1, m] fun idx => b * rowAt i g idx) ⟨.fc { f with input := some (ofFn [1, n] (rowAt i x)) }, mode⟩ = _ :=
        fun i => congrArg (fun p => (p.1, (⟨.fc p.2, mode⟩ : Layer ℝ)))
          (fc_backprop hx1 hw hg1 w bias (rowAt i x) (fun idx => b * rowAt i g idx) f hlw hlb)
      refine ⟨_, _, fun i => _, c1, fun i hi => ⟨_, fwd i, (c2 i).trans (congrArg (fun y => ((.ok y : Res (Tensor ℝ)), _))
        (ofFn_congr fun idx hidx => ?_))⟩, ?_⟩
      · obtain ⟨a, c, rfl, ha, hb⟩ := valid2_iff.1 hidx
        simp only [rowAt, List.getD_cons_zero, List.getD_cons_succ, List.tail_cons, Finset.mul_sum]
        exact Finset.sum_congr rfl fun k _ => by ring
      · intro f' mode' he
        obtain ⟨rfl, rfl⟩ : f = f' ∧ mode = mode' := by simpa using he
        refine ⟨n, m, w, bias, fun i idx => x [i, idx.getD 0 0] * (b * g [i, idx.getD 1 0]), fun i idx => b * g [i, idx.getD 1 0],
          ⟨_, rfl, hlw, hlb, ?_, ?_⟩, fun i hi => ⟨_, rfl, hlw, hlb, ?_, ?_⟩⟩
        · refine congrArg some (ofFn_congr fun idx _ => ?_)
          rw [meanOver, eq_div_iff hb0, Finset.sum_mul]
          exact Finset.sum_congr rfl fun k _ => by ring
        · refine congrArg some (ofFn_congr fun idx _ => ?_)
          rw [meanOver, eq_div_iff hb0, Finset.sum_mul]
          exact Finset.sum_congr rfl fun k _ => by ring
        · refine congrArg some (ofFn_congr fun idx _ => ?_)
          rw [Finset.sum_range_one]
          rfl
        · refine congrArg some (ofFn_congr fun idx _ => ?_)
          rw [Finset.sum_range_one]
          rfl
  | @elementwise _ a mode hd ha =>
    obtain ⟨φ, ψ, e1, e2⟩ := act_pointwise a.activation ha
    have fwd : ∀ b x, Layer.forward E (ofFn (b :: ds) x) (⟨.activation a, mode⟩, r) =
        (.ok (ofFn (b :: ds) fun i => φ (x i)), (⟨.activation { a with input := some (ofFn (b :: ds) x) }, mode⟩, r)) := fun b x =>
      congrArg (fun y => (y, (⟨⟨.activation { a with input := some (ofFn (b :: ds) x) }, mode⟩, r⟩ : Layer ℝ × ρ))) (e1 _ x).1
    have bwd : ∀ b x g, Dims (b :: ds) → Layer.backward (ofFn (b :: ds) g) ⟨.activation { a with input := some (ofFn (b :: ds) x) }, mode⟩ =
        (.ok (ofFn (b :: ds) fun i => ψ (x i) (g i)), ⟨.activation { a with input := some (ofFn (b :: ds) x) }, mode⟩) := fun b x g hd =>
      congrArg (fun y => (y, (⟨.activation { a with input := some (ofFn (b :: ds) x) }, mode⟩ : Layer ℝ))) ((e1 _ x).2 hd g)
    refine ⟨_, _, fwd b x, fun g => ⟨_, _, fun i => ⟨.activation { a with input := some (ofFn (1 :: ds) (rowAt i x)) }, mode⟩, bwd b x g hd,
       fun i hi => ⟨_, fwd 1 (rowAt i x), (bwd 1 _ _ (dims_row hd)).trans ?_⟩, ?_⟩⟩
    · refine congrArg (fun y => ((.ok y : Res (Tensor ℝ)), _)) (ofFn_congr fun idx _ => ?_)
      exact e2 _ _ _
    · intro f mode' he
      cases he
  | @softmax _ _ a mode hd hne ha =>
    obtain ⟨φ, ψ, e1, e2⟩ := softmax_rows hne
    rw [← ha] at e1
    have fwd : ∀ b x, Dims (b :: ds) → Layer.forward E (ofFn (b :: ds) x) (⟨.activation a, mode⟩, r) =
        (.ok (ofFn (b :: ds) fun i => φ (fun j => x (i.headD 0 :: j)) i.tail), (⟨.activation { a with input := some (ofFn (b :: ds) x) }, mode⟩, r)) := fun b x hd =>
      congrArg (fun y => (y, (⟨⟨.activation { a with input := some (ofFn (b :: ds) x) }, mode⟩, r⟩ : Layer ℝ × ρ))) (e1 b hd x).1
    have bwd : ∀ b x g, Dims (b :: ds) → Layer.backward (ofFn (b :: ds) g) ⟨.activation { a with input := some (ofFn (b :: ds) x) }, mode⟩ =
        (.ok (ofFn (b :: ds) fun i => ψ (fun j => x (i.headD 0 :: j)) (fun j => g (i.headD 0 :: j)) i.tail),
          ⟨.activation { a with input := some (ofFn (b :: ds) x) }, mode⟩) := fun b x g hd =>
      congrArg (fun y => (y, (⟨.activation { a with input := some (ofFn (b :: ds) x) }, mode⟩ : Layer ℝ))) ((e1 b hd x).2 g)
    refine ⟨_, _, fwd b x hd, fun g => ⟨_, _, fun i => ⟨.activation { a with input := some (ofFn (1 :: ds) (rowAt i x)) }, mode⟩, bwd b x g hd,
       fun i hi => ⟨_, fwd 1 (rowAt i x) (dims_row hd), (bwd 1 _ _ (dims_row hd)).trans ?_⟩, ?_⟩⟩
    · refine congrArg (fun y => ((.ok y : Res (Tensor ℝ)), _)) (ofFn_congr fun idx _ => ?_)
      exact e2 _ _ _ _
    · intro f mode' he
      cases he
  | @flatten _ _ f mode hd hr =>
    have fwd : ∀ b, Dims (b :: ds) → ∀ x : List Nat → ℝ, Layer.forward E (ofFn (b :: ds) x) (⟨.flatten f, mode⟩, r) =
        (.ok (ofFn [b, ds.prod] fun i => x (i.headD 0 :: (indices ds).getD (i.tail.headD 0) [])),
          (⟨.flatten { f with originalShape := some (shapeOf (b :: ds)) }, mode⟩, r)) := by
      intro b hd x
      have hpr : [b, ds.prod].prod = (b :: ds).prod := by simp
      simp only [Layer.forward, Layer.onKind]
      rw [flatten_forward hd hr, reinterpret_ofFn hpr]
      refine congrArg (fun y => ((.ok y : Res (Tensor ℝ)), _)) (ofFn_congr fun i hi => ?_)
      obtain ⟨a, c, rfl, ha, hb⟩ := valid2_iff.1 hi
      rw [reindex_flat ha hb]
      rfl
    have bwd : ∀ b, Dims (b :: ds) → ∀ g : List Nat → ℝ, Layer.backward (ofFn [b, ds.prod] g)
        ⟨.flatten { f with originalShape := some (shapeOf (b :: ds)) }, mode⟩ =
        (.ok (ofFn (b :: ds) fun i => g [i.headD 0, ravel ds i.tail]),
          ⟨.flatten { f with originalShape := some (shapeOf (b :: ds)) }, mode⟩) := by
      intro b hd g
      have hpr : [b, ds.prod].prod = (b :: ds).prod := by simp
      refine congrArg (fun y => (y, (⟨.flatten { f with originalShape := some (shapeOf (b :: ds)) }, mode⟩ : Layer ℝ))) ?_
      show (Tensor.reshape _ _) = _
      rw [shapeOf_dims, reshape_back hd hpr.symm]
      refine congrArg Except.ok (ofFn_congr fun i hi => ?_)
      obtain ⟨a, is, rfl, ha, hb⟩ := validIdx_cons_iff.1 hi
      rw [reindex_unflat ha hb]
      rfl
    refine ⟨_, _, fwd b hd x, fun g => ⟨_, _, fun _ => ⟨.flatten { f with originalShape := some (shapeOf (1 :: ds)) }, mode⟩, bwd b hd g,
       fun i hi => ⟨_, fwd 1 (dims_row hd) (rowAt i x),
      bwd 1 (dims_row hd) _⟩, ?_⟩⟩
    intro f mode' he
    cases he
  | conv => cases hp
  | @pool _ c h w p s ninf inp mode hd hp0 hs hph hpw =>
    have e1 : poolOut p s h = (h - p) / s + 1 := if_pos hph
    have e2 : poolOut p s w = (w - p) / s + 1 := if_pos hpw
    rw [← e1, ← e2]
    have fwd : ∀ b, Dims [b, c, h, w] → ∀ x : List Nat → ℝ, Layer.forward E (ofFn [b, c, h, w] x) (⟨.maxPool ⟨p, s, 0, ninf, inp⟩, mode⟩, r) =
        (.ok (ofFn [b, c, poolOut p s h, poolOut p s w]
          fun idx => (poolFold p s h w ninf (fun y z => x [idx.getD 0 0, idx.getD 1 0, y, z]) (idx.getD 2 0) (idx.getD 3 0)).1),
          (⟨.maxPool ⟨p, s, 0, ninf, some (ofFn [b, c, h, w] x)⟩, mode⟩, r)) := fun b hd x =>
      congrArg (fun q : Res (Tensor ℝ) × MaxPool ℝ => (q.1, ((⟨.maxPool q.2, mode⟩ : Layer ℝ), r)))
        (pool_forward_fold hd (dims_poolOut (s := s) hd hp0) hs (Or.inl hph) (Or.inl hpw) x ninf inp)
    have bwd : ∀ b, Dims [b, c, h, w] → ∀ x g : List Nat → ℝ, Layer.backward (ofFn [b, c, poolOut p s h, poolOut p s w] g)
        ⟨.maxPool ⟨p, s, 0, ninf, some (ofFn [b, c, h, w] x)⟩, mode⟩ =
        (.ok (ofFn [b, c, h, w] (poolGrad b c p s h w ninf x g)), ⟨.maxPool ⟨p, s, 0, ninf, some (ofFn [b, c, h, w] x)⟩, mode⟩) :=
      fun b hd x g => congrArg (fun q : Res (Tensor ℝ) × MaxPool ℝ => (q.1, (⟨.maxPool q.2, mode⟩ : Layer ℝ)))
        (pool_backward_fold (s := s) hd hp0 x g ninf)
    refine ⟨_, _, fwd b hd x, fun g => ⟨_, _, fun i => ⟨.maxPool ⟨p, s, 0, ninf, some (ofFn [1, c, h, w] (rowAt i x))⟩, mode⟩, bwd b hd x g,
       fun i hi => ⟨_, (fwd 1 (dims_row hd) (rowAt i x)).trans ?_,
      (bwd 1 (dims_row hd) (rowAt i x) _).trans ?_⟩, ?_⟩⟩
    · refine congrArg (fun y => ((.ok y : Res (Tensor ℝ)), _)) (ofFn_congr fun i hi => ?_)
      obtain ⟨a, j, y, z, rfl, -, -, -, -⟩ := valid4_iff.1 hi
      rfl
    · refine congrArg (fun y => ((.ok y : Res (Tensor ℝ)), _)) (ofFn_congr fun idx hidx => ?_)
      obtain ⟨a, j, y, z, rfl, ha, -, -, -⟩ := valid4_iff.1 hidx
      obtain rfl : a = 0 := by omega
      exact poolGrad_row ninf b x g hi
    · intro f mode' he
      cases he
  | dropout => cases hp

/-! ### The layers of a model -/

theorem mean_chain {ρ : Type} {b : Nat} (hb : 0 < b) (E : Engine ρ ℝ) {ls : List (Layer ℝ)} {ds es : List Nat} (h : Chain ls ds es) :
    ∀ {ds' : List Nat}, ds = b :: ds' → (∀ l ∈ ls, PlainKind l) → ∀ (r : ρ) (x : List Nat → ℝ),
    ∃ es' y ks, es = b :: es' ∧ Chain ls (1 :: ds') (1 :: es') ∧ forwardLayers E ls (ofFn ds x) r = (.ok (ofFn es y), ks, r) ∧
      ∀ g, ∃ z js, ∃ fam : Nat → List (Layer ℝ), backwardLayers ks (ofFn es g) = (.ok (ofFn ds z), js) ∧
        (∀ i < b, ∃ ki, forwardLayers E ls (ofFn (1 :: ds') (rowAt i x)) r = (.ok (ofFn (1 :: es') (rowAt i y)), ki, r) ∧
          backwardLayers ki (ofFn (1 :: es') fun idx => b * rowAt i g idx) = (.ok (ofFn (1 :: ds') fun idx => b * rowAt i z idx), fam i)) ∧
        ∀ (p : Nat) (f : FC ℝ) (mode : Bool), ls[p]? = some ⟨.fc f, mode⟩ → ∃ n m w bias, ∃ u v : Nat → List Nat → ℝ,
          (∃ j, js[p]? = some j ∧
            Stored n m w bias mode (fun idx => meanOver b fun i => u i idx) (fun idx => meanOver b fun i => v i idx) j) ∧
          ∀ i < b, ∃ j, (fam i)[p]? = some j ∧ Stored n m w bias mode (u i) (v i) j := by
  induction h with
  | nil ds =>
    intro ds' hds hp r x
    subst hds
    exact ⟨ds', x, [], rfl, .nil _, rfl, fun g => ⟨g, [], fun _ => [], rfl, fun i hi => ⟨[], rfl, rfl⟩, fun p f mode he => by simp at he⟩⟩
  | @cons l ls ds es hs hl hls ih =>
    intro ds' hds hp r x
    subst hds
    obtain ⟨es', rfl⟩ := typed_head hl
    obtain ⟨y, k, f1, f2⟩ := mean_step hb hl (hp l (by simp)) E r x
    obtain ⟨hs', z, ks, k0, k1, k2, k3⟩ := ih rfl (fun a ha => hp a (by simp [ha])) r y
    refine ⟨hs', z, k :: ks, k0, .cons (typed_one hl (hp l (by simp))) k1, ?_, fun g => ?_⟩
    · rw [forwardLayers_cons, f1]
      simp only
      rw [k2]
    · obtain ⟨v, vs, fam, b1, b2, b3⟩ := k3 g
      obtain ⟨w, j, fj, c1, c2, c3⟩ := f2 v
      refine ⟨w, j :: vs, fun i => fj i :: fam i, ?_, fun i hi => ?_, fun p f mode he => ?_⟩
      · unfold backwardLayers
        rw [b1]
        simp only
        rw [c1]
      · obtain ⟨ki, d1, d2⟩ := c2 i hi
        obtain ⟨kis, e1, e2⟩ := b2 i hi
        refine ⟨ki :: kis, ?_, ?_⟩
        · rw [forwardLayers_cons, d1]
          simp only
          rw [e1]
        · unfold backwardLayers
          rw [e2]
          simp only
          rw [d2]
      · cases p with
        | zero =>
          simp only [List.getElem?_cons_zero, Option.some.injEq] at he
          obtain ⟨n, m, w, bias, u, v, s1, s2⟩ := c3 f mode he
          exact ⟨n, m, w, bias, u, v, ⟨j, rfl, s1⟩, fun i hi => ⟨_, rfl, s2 i hi⟩⟩
        | succ p =>
          rw [List.getElem?_cons_succ] at he
          obtain ⟨n, m, w, bias, u, v, ⟨j, s0, s1⟩, s2⟩ := b3 p f mode he
          refine ⟨n, m, w, bias, u, v, ⟨j, s0, s1⟩, fun i hi => ?_⟩
          obtain ⟨j, s3, s4⟩ := s2 i hi
          exact ⟨j, s3, s4⟩

theorem loss_mean {b : Nat} (hb : 0 < b) {L : Loss ℝ} {es : List Nat} (h : LossFits L (b :: es)) (p t : List Nat → ℝ) :
    LossFits L (1 :: es) ∧ ∃ g, ∃ vs : Nat → ℝ, L.compute (ofFn (b :: es) p) (ofFn (b :: es) t) = .ok (ofFn [1] fun _ => meanOver b vs) ∧
      L.gradient (ofFn (b :: es) p) (ofFn (b :: es) t) = .ok (ofFn (b :: es) g) ∧
      ∀ i < b, L.compute (ofFn (1 :: es) (rowAt i p)) (ofFn (1 :: es) (rowAt i t)) = .ok (ofFn [1] fun _ => vs i) ∧
        L.gradient (ofFn (1 :: es) (rowAt i p)) (ofFn (1 :: es) (rowAt i t)) = .ok (ofFn (1 :: es) fun idx => b * rowAt i g idx) := by
  have hb0 : (b : ℝ) ≠ 0 := by positivity
  cases L with
  | mse =>
    have h1 := dims_row h
    refine ⟨h1, _, fun i => mse (1 :: es) (rowAt i p) (rowAt i t), ?_, mse_gradient_ofFn h p t, fun i hi => ⟨C29_compute h1 _ _, ?_⟩⟩
    · rw [C29_compute h]
      refine congrArg (fun v : ℝ => (.ok (ofFn [1] fun _ => v) : Res (Tensor ℝ))) ?_
      unfold mse meanOver
      simp only [total_cons', List.prod_cons, one_mul, Finset.sum_range_one, rowAt, List.tail_cons, ← Finset.sum_div]
      push_cast
      rw [div_div, mul_comm (b : ℝ)]
    · rw [mse_gradient_ofFn h1]
      refine congrArg Except.ok (ofFn_congr fun idx _ => ?_)
      have hp0 : (es.prod : ℝ) ≠ 0 := by
        have := prod_ne_zero' h1
        simpa using this
      simp only [rowAt, List.prod_cons, one_mul]
      push_cast
      field_simp
  | crossEntropy eps =>
    obtain ⟨b', k, he, hd⟩ := h
    simp only [List.cons.injEq] at he
    obtain ⟨rfl, rfl⟩ := he
    have h1 := dims_row hd
    refine ⟨⟨1, k, rfl, h1⟩, _, fun i => crossEntropy eps 1 k (rowAt i p) (rowAt i t), ?_, C31_value hd eps p t,
      fun i hi => ⟨C30_compute h1 eps _ _, ?_⟩⟩
    · rw [C30_compute hd]
      refine congrArg (fun v : ℝ => (.ok (ofFn [1] fun _ => v) : Res (Tensor ℝ))) ?_
      unfold crossEntropy meanOver
      simp only [total_cons', Finset.sum_range_one, rowAt, List.tail_cons]
      simp [Finset.sum_neg_distrib]
    · rw [C31_value h1]
      refine congrArg Except.ok (ofFn_congr fun idx _ => ?_)
      simp only [rowAt]
      push_cast
      field_simp

/-! ### The theorem -/

theorem stored_update {lr : ℝ} {ls js : List (Layer ℝ)} {opt opt' : Optimizer (Nat × Bool) ℝ} (ho : PlainSGD lr opt)
    (hu : updateLayers 0 js opt = (.ok (), ls, opt')) {p : Nat} {j : Layer ℝ} (hj : js[p]? = some j) {n m : Nat} {w bias gw gb : List Nat → ℝ}
    {mode : Bool} (hs : Stored n m w bias mode gw gb j) :
    ∃ f : FC ℝ, ls[p]? = some ⟨.fc f, mode⟩ ∧ f.weights = ofFn [n, m] (fun i => w i - lr * gw i) ∧
      f.biases = ofFn [1, m] (fun i => bias i - lr * gb i) := by
  obtain ⟨f, rfl, h1, h2, h3, h4⟩ := hs
  obtain ⟨o, o', l', r1, r2, r3⟩ := (updateLayers_each (PlainSGD lr) (fun i l opt h => layer_plain h l) js 0 opt ls opt' ho hu).2 p _ hj
  obtain ⟨o2, hpair⟩ := plain_pair (k0 := (0 + p, false)) (k1 := (0 + p, true)) (by simp) r1 [n, m] [1, m] w bias gw gb
  unfold Layer.updateWeights at r2
  dsimp only at r2
  rw [h3, h4] at r2
  dsimp only at r2
  rw [h1, h2, hpair] at r2
  simp only [Prod.mk.injEq] at r2
  refine ⟨{ f with weights := ofFn [n, m] fun i => w i - lr * gw i, biases := ofFn [1, m] fun i => bias i - lr * gb i }, ?_, rfl, rfl⟩
  rw [r3, ← r2.2.1, h3, h4]

/-- The stages of a successful step, in terms of the layers. -/
theorem step_stages {ρ : Type} {E : Engine ρ ℝ} {x y : Tensor ℝ} {net k : Net ρ ℝ} {v : ℝ} (hs : StepOk E x y net k v) {pred g z : Tensor ℝ}
    {ks js : List (Layer ℝ)} {L : Loss ℝ} (hL : net.loss = some L) (h1 : forwardLayers E net.layers x net.rng = (.ok pred, ks, net.rng))
    (h2 : L.gradient pred y = .ok g) (h3 : backwardLayers ks g = (.ok z, js)) {opt : Optimizer (Nat × Bool) ℝ}
    (ho : net.optimizer = some opt) :
    L.compute pred y = .ok (ofFn [1] fun _ => v) ∧ ∃ opt', updateLayers 0 js opt = (.ok (), k.layers, opt') := by
  obtain ⟨pred', n1, L', g', z', n2, s1, s2, s3, s4, s5, s6⟩ := hs
  unfold predict at s1
  rw [h1] at s1
  simp only [Prod.mk.injEq, Except.ok.injEq] at s1
  obtain ⟨rfl, rfl⟩ := s1
  simp only at s2
  rw [hL, Option.some.injEq] at s2
  subst s2
  rw [h2, Except.ok.injEq] at s4
  subst s4
  unfold backward at s5
  simp only at s5
  rw [h3] at s5
  simp only [Prod.mk.injEq, Except.ok.injEq] at s5
  obtain ⟨rfl, rfl⟩ := s5
  refine ⟨s3, ?_⟩
  rw [net_updateWeights_eq { net with layers := js } opt ho] at s6
  simp only at s6
  rcases hu : updateLayers 0 js opt with ⟨res, ls, opt'⟩
  rw [hu] at s6
  simp only [Prod.mk.injEq] at s6
  obtain ⟨rfl, rfl⟩ := s6
  exact ⟨opt', rfl⟩

theorem one_step_call {ρ : Type} {E : Engine ρ ℝ} {x y : Tensor ℝ} {net k : Net ρ ℝ} {v : ℝ} (hs : StepOk E x y net k v) :
    trainCall E [x] [y] 1 net = (.ok (), k, [ofFn [1] fun _ => v]) := by
  have h := Epochs.succ (E := E) (ps := [(x, y)]) (n := 0) (Steps.cons hs (.nil _)) (.zero _)
  have := (C55_train E [x] [y] 1 net k _ (by simp) (by simp)).2 h
  simpa using this

/-- **C88** for models of dense, activation, flatten and max pooling layers, trained with plain SGD.  One step on a batch succeeds, and
so does one step from the same model on each sample alone.  The loss printed for the batch is the average of the losses printed for the
samples, and every weight and bias after the step on the batch is the average of its values after the steps on the samples.  Missing
for the full property: convolution layers (`C88_convolution_refuted`) and dropout layers (`C88_dropout_refuted`). -/
theorem C88_step_partial {ρ : Type} {b : Nat} {ds es : List Nat} (E : Engine ρ ℝ) (net : Net ρ ℝ) (h : PlainModel net b ds es)
    (lr : ℝ) (hopt : ∃ opt, net.optimizer = some opt ∧ PlainSGD lr opt) (x y : List Nat → ℝ) :
    ∃ (k : Net ρ ℝ) (ks : Nat → Net ρ ℝ) (vs : Nat → ℝ),
      trainCall E [ofFn (b :: ds) x] [ofFn (b :: es) y] 1 net = (.ok (), k, [ofFn [1] fun _ => meanOver b vs]) ∧
      (∀ i < b, trainCall E [ofFn (1 :: ds) (rowAt i x)] [ofFn (1 :: es) (rowAt i y)] 1 net = (.ok (), ks i, [ofFn [1] fun _ => vs i])) ∧
      ∀ (p : Nat) (f : FC ℝ) (mode : Bool), net.layers[p]? = some ⟨.fc f, mode⟩ →
        ∃ (n m : Nat) (u v : Nat → List Nat → ℝ) (f' : FC ℝ), k.layers[p]? = some ⟨.fc f', mode⟩ ∧
          f'.weights = ofFn [n, m] (fun idx => meanOver b fun i => u i idx) ∧
          f'.biases = ofFn [1, m] (fun idx => meanOver b fun i => v i idx) ∧
          ∀ i < b, ∃ fi : FC ℝ, (ks i).layers[p]? = some ⟨.fc fi, mode⟩ ∧ fi.weights = ofFn [n, m] (u i) ∧ fi.biases = ofFn [1, m] (v i) := by
  obtain ⟨hwell, hp⟩ := h
  obtain ⟨opt, ho, hplain⟩ := hopt
  obtain ⟨hc, ⟨L, hL, hfit⟩, opt', ho', hr⟩ := id hwell
  obtain rfl : opt = opt' := Option.some.inj (ho.symm.trans ho')
  have hb : 0 < b := by
    cases L with
    | mse => exact Dims.pos hfit b (by simp)
    | crossEntropy eps =>
      obtain ⟨b', k, he, hd⟩ := hfit
      simp only [List.cons.injEq] at he
      obtain ⟨rfl, -⟩ := he
      exact hd.pos b (by simp)
  have hb0 : (b : ℝ) ≠ 0 := by positivity
  obtain ⟨es', q, us, e0, hc1, f1, f2⟩ := mean_chain hb E hc rfl hp net.rng x
  simp only [List.cons.injEq, true_and] at e0
  subst e0
  obtain ⟨hfit1, g, vs, l1, l2, l3⟩ := loss_mean hb hfit q y
  obtain ⟨z, js, fam, b1, b2, b3⟩ := f2 g
  have hwell1 : WellShaped net (1 :: ds) (1 :: es) := ⟨hc1, ⟨L, hL, hfit1⟩, opt, ho, hr⟩
  obtain ⟨k, v, hs, -⟩ := C67_step E net hwell _ _ ⟨x, rfl⟩ ⟨y, rfl⟩
  have hrow := fun i => C67_step E net hwell1 _ _ ⟨rowAt i x, rfl⟩ ⟨rowAt i y, rfl⟩
  choose ks ws hks _ using hrow
  obtain ⟨c1, o1, hu⟩ := step_stages hs hL f1 l2 b1 ho
  have hv : v = meanOver b vs := by
    rw [c1, Except.ok.injEq] at l1
    exact ofFn_inj l1 (valid1_iff.2 ⟨0, rfl, by omega⟩)
  have hrows : ∀ i < b, ws i = vs i ∧ ∃ o, updateLayers 0 (fam i) opt = (.ok (), (ks i).layers, o) := by
    intro i hi
    obtain ⟨ki, d1, d2⟩ := b2 i hi
    obtain ⟨c2, hu2⟩ := step_stages (hks i) hL d1 (l3 i hi).2 d2 ho
    have := (l3 i hi).1
    rw [c2, Except.ok.injEq] at this
    exact ⟨ofFn_inj this (valid1_iff.2 ⟨0, rfl, by omega⟩), hu2⟩
  refine ⟨k, ks, vs, ?_, fun i hi => ?_, fun p f mode hf => ?_⟩
  · rw [← hv]
    exact one_step_call hs
  · rw [← (hrows i hi).1]
    exact one_step_call (hks i)
  · obtain ⟨n, m, w, bias, u, v, ⟨j, j1, j2⟩, j3⟩ := b3 p f mode hf
    obtain ⟨f', g1, g2, g3⟩ := stored_update hplain hu j1 j2
    have key : ∀ a : ℝ, ∀ d : Nat → ℝ, a - lr * meanOver b d = meanOver b fun i => a - lr * d i := by
      intro a d
      unfold meanOver
      rw [Finset.sum_sub_distrib, Finset.sum_const, Finset.card_range, nsmul_eq_mul, ← Finset.mul_sum]
      field_simp
    refine ⟨n, m, fun i idx => w idx - lr * u i idx, fun i idx => bias idx - lr * v i idx, f', g1, ?_, ?_, fun i hi => ?_⟩
    · rw [g2]
      exact ofFn_congr fun idx _ => key _ _
    · rw [g3]
      exact ofFn_congr fun idx _ => key _ _
    · obtain ⟨j, j4, j5⟩ := j3 i hi
      obtain ⟨o, hu2⟩ := (hrows i hi).2
      exact stored_update hplain hu2 j4 j5

/-- The hypotheses are met: a pooling and a flatten layer, a hidden ReLU layer and softmax with cross entropy, on a batch of three images. -/
example (lr : ℝ) (w₁ w₂ : List Nat → ℝ) :
    let net : Net Unit ℝ :=
      { layers := [⟨.maxPool ⟨2, 2, 0, -1000, none⟩, true⟩, ⟨.flatten {}, true⟩, ⟨.fc { weights := ofFn [4, 5] w₁, biases := ofFn [1, 5] fun _ => 0 }, true⟩,
          ⟨.activation { activation := .relu }, true⟩, ⟨.fc { weights := ofFn [5, 2] w₂, biases := ofFn [1, 2] fun _ => 0 }, true⟩,
          ⟨.activation { activation := .softmax }, true⟩], rng := () }
    let net' := net.compile (.crossEntropy (1 / 100)) (.newSGD ⟨lr, 0, 0, 0, false⟩)
    PlainModel net' 3 [1, 4, 4] [2] ∧ ∃ opt, net'.optimizer = some opt ∧ PlainSGD lr opt := by
  intro net net'
  have d : ∀ {ds : List Nat}, ds ≠ [] → (∀ a ∈ ds, 0 < a) → ds.prod < 2 ^ 31 → Dims ds := fun a b c => ⟨a, b, c⟩
  have hc : Chain net.layers [3, 1, 4, 4] [3, 2] := by
    refine .cons (es := [3, 1, 2, 2]) (.pool (n := 3) (c := 1) (h := 4) (w := 4) (p := 2) (s := 2)
      (d (by simp) (by simp) (by simp)) (by omega) (by omega) (by omega) (by omega)) ?_
    refine .cons (es := [3, 4]) (.flatten (d := 3) (ds := [1, 2, 2]) (d (by simp) (by simp) (by simp)) (by simp)) ?_
    refine .cons (es := [3, 5]) (.dense (d (by simp) (by simp) (by simp)) (d (by simp) (by simp) (by simp))
      (d (by simp) (by simp) (by simp)) rfl rfl) ?_
    refine .cons (es := [3, 5]) (.elementwise (d (by simp) (by simp) (by simp)) (by intro h; cases h)) ?_
    refine .cons (es := [3, 2]) (.dense (d (by simp) (by simp) (by simp)) (d (by simp) (by simp) (by simp))
      (d (by simp) (by simp) (by simp)) rfl rfl) ?_
    exact .cons (es := [3, 2]) (.softmax (d (by simp) (by simp) (by simp)) (by simp) rfl) (.nil _)
  refine ⟨⟨(C67_compiled net (.crossEntropy (1 / 100)) hc ⟨3, 2, rfl, by simp, by simp, by simp⟩ ⟨lr, 0, 0, 0, false⟩
    ⟨0, 0, 0, 0, false, 0⟩ ⟨1, 1/2, 1/2, 1, 0, 0, 0, 1, 1⟩).1, ?_⟩, _, rfl, _, rfl, rfl, rfl, rfl⟩
  intro l hl
  simp only [net', net, compile, List.mem_cons, List.not_mem_nil, or_false] at hl
  rcases hl with rfl | rfl | rfl | rfl | rfl | rfl
  · exact .maxPool _ _
  · exact .flatten _ _
  · exact .fc _ _
  · exact .activation _ _
  · exact .fc _ _
  · exact .activation _ _

/-! ### Convolution and dropout layers -/

/-- **C88 refuted for convolution.**  Two samples of one pixel, one step of plain gradient descent: the kernel after the step on the batch
is not the average of the kernels after the steps on the samples. -/
theorem C88_convolution_refuted {ρ : Type} (E : Engine ρ ℝ) (net : Net ρ ℝ)
    (hl : net.layers = [⟨.conv ⟨1, 1, 1, 1, 1, 0, 1, ofFn [1, 1, 1, 1] fun _ => 0, ofFn [1, 1] fun _ => 0, none, none, none⟩, true⟩])
    (hL : net.loss = some .mse) {lr : ℝ} (hlr : lr ≠ 0) {opt : Optimizer (Nat × Bool) ℝ} (ho : net.optimizer = some opt)
    (hp : PlainSGD lr opt) :
    ∃ (x y : List Nat → ℝ) (k : Net ρ ℝ) (ks : Nat → Net ρ ℝ) (c : Conv ℝ) (cs : Nat → Conv ℝ) (w : ℝ) (ws : Nat → ℝ) (rs : List (Tensor ℝ))
      (rss : Nat → List (Tensor ℝ)),
      trainCall E [ofFn [2, 1, 1, 1] x] [ofFn [2, 1, 1, 1] y] 1 net = (.ok (), k, rs) ∧
      (∀ i < 2, trainCall E [ofFn [1, 1, 1, 1] (rowAt i x)] [ofFn [1, 1, 1, 1] (rowAt i y)] 1 net = (.ok (), ks i, rss i)) ∧
      k.layers = [⟨.conv c, true⟩] ∧ c.weights = ofFn [1, 1, 1, 1] (fun _ => w) ∧
      (∀ i < 2, (ks i).layers = [⟨.conv (cs i), true⟩] ∧ (cs i).weights = ofFn [1, 1, 1, 1] fun _ => ws i) ∧ w ≠ meanOver 2 ws := by
  obtain ⟨k, c, rs, h1, h2, h3⟩ := conv_pixel_step (n := 2) ⟨by simp, by simp, by decide⟩ E _ true net hl rfl hL ho hp
    (fun i => if i.headD 0 = 1 then 1 else 0) (fun i => if i.headD 0 = 1 then 1 else 0)
  have hrow := fun i => conv_pixel_step (n := 1) ⟨by simp, by simp, by decide⟩ E _ true net hl rfl hL ho hp
    (rowAt i fun i => if i.headD 0 = 1 then 1 else 0) (rowAt i fun i => if i.headD 0 = 1 then 1 else 0)
  choose ks cs rss r1 r2 r3 using hrow
  refine ⟨_, _, k, ks, c, cs, _, _, rs, rss, h1, fun i _ => r1 i, h2, h3, fun i _ => ⟨r2 i, r3 i⟩, ?_⟩
  simp [meanOver, rowAt, hlr.symm]

/-- **C88 refuted for dropout.**  Whenever the engine draws a number that drops an element and then one that keeps the next, the loss
printed for a batch of two samples is not the average of the losses printed for the samples. -/
theorem C88_dropout_refuted {ρ : Type} (E : Engine ρ ℝ) {rate : ℝ} (hrate : rate ≠ 1) (net : Net ρ ℝ)
    (hl : net.layers = [⟨.dropout { dropoutRate := rate }, true⟩]) (hL : net.loss = some .mse) {opt : Optimizer (Nat × Bool) ℝ}
    (ho : net.optimizer = some opt) (hr : RemembersFrom opt 0 net.layers)
    (h1 : ¬ kept rate (drawAt E 2 0 net.rng)) (h2 : kept rate (drawAt E 2 1 net.rng)) (h3 : ¬ kept rate (drawAt E 1 0 net.rng)) :
    ∃ (x y : List Nat → ℝ) (k : Net ρ ℝ) (ks : Nat → Net ρ ℝ) (v : ℝ) (vs : Nat → ℝ),
      trainCall E [ofFn [2, 1] x] [ofFn [2, 1] y] 1 net = (.ok (), k, [ofFn [1] fun _ => v]) ∧
      (∀ i < 2, trainCall E [ofFn [1, 1] (rowAt i x)] [ofFn [1, 1] (rowAt i y)] 1 net = (.ok (), ks i, [ofFn [1] fun _ => vs i])) ∧
      v ≠ meanOver 2 vs := by
  obtain ⟨k, v, e1, e2⟩ := dropout_pixel_step (n := 2) ⟨by simp, by simp, by decide⟩ E rate net hl hL ho hr (fun _ => 1) (fun _ => 0)
  have hrow := fun i => dropout_pixel_step (n := 1) ⟨by simp, by simp, by decide⟩ E rate net hl hL ho hr (rowAt i fun _ => 1) (rowAt i fun _ => 0)
  choose ks vs r1 r2 using hrow
  refine ⟨_, _, k, ks, v, vs, e1, fun i _ => r1 i, ?_⟩
  have c1 := (kept_iff_cmin rate (drawAt E 2 0 net.rng)).not.2 h1
  have c2 := (kept_iff_cmin rate (drawAt E 2 1 net.rng)).2 h2
  have c3 := (kept_iff_cmin rate (drawAt E 1 0 net.rng)).not.2 h3
  have hv : v ≠ 0 := by
    rw [e2]
    simp [mse, total2, Finset.sum_range_succ, ravel2, c1, c2, sub_eq_zero, hrate.symm]
  have hvs : ∀ i, vs i = 0 := by
    intro i
    rw [r2 i]
    simp [mse, total2, ravel2, c3, rowAt]
  simpa [meanOver, hvs] using hv

/-- The hypotheses of `C88_convolution_refuted` are met by a compiled model. -/
example : ∃ (net : Net Unit ℝ) (opt : Optimizer (Nat × Bool) ℝ),
    net.layers = [⟨.conv ⟨1, 1, 1, 1, 1, 0, 1, ofFn [1, 1, 1, 1] fun _ => 0, ofFn [1, 1] fun _ => 0, none, none, none⟩, true⟩] ∧
    net.loss = some .mse ∧ net.optimizer = some opt ∧ PlainSGD (1 / 10) opt :=
  ⟨Net.compile .mse (.newSGD ⟨1 / 10, 0, 0, 0, false⟩) ⟨_, none, none, ()⟩, _, rfl, rfl, rfl, _, rfl, rfl, rfl, rfl⟩

/-- The hypotheses of `C88_dropout_refuted` are met. -/
example : ∃ (E : Engine Bool ℝ) (net : Net Bool ℝ) (opt : Optimizer (Nat × Bool) ℝ),
    net.layers = [⟨.dropout { dropoutRate := 1 / 2 }, true⟩] ∧ net.loss = some .mse ∧ net.optimizer = some opt ∧
    RemembersFrom opt 0 net.layers ∧ ¬ kept (1 / 2) (drawAt E 2 0 net.rng) ∧ kept (1 / 2) (drawAt E 2 1 net.rng) ∧
    ¬ kept (1 / 2) (drawAt E 1 0 net.rng) := by
  have hd : Dims [2, 1] := ⟨by simp, by simp, by decide⟩
  let net : Net Bool ℝ := { layers := [⟨.dropout { dropoutRate := 1 / 2 }, true⟩], rng := false }
  have hc : Chain net.layers [2, 1] [2, 1] := .cons (.dropout hd) (.nil _)
  obtain ⟨-, -, opt, h1, h2⟩ := (C67_compiled net .mse hc hd ⟨0, 0, 0, 0, false⟩ ⟨0, 0, 0, 0, false, 0⟩ ⟨1 / 1000, 9 / 10, 999 / 1000, 1 / 100, 0, 0, 0, 1, 0⟩).2.2
  refine ⟨⟨fun _ => false, fun _ r => (if r then 1 else 0, true)⟩, net.compile .mse _, opt, rfl, rfl, h1, h2, ?_, ?_, ?_⟩ <;>
    norm_num [kept, drawAt, engineAfter, net, compile]

end SmartDNN
