import Verif.Proofs.Nan
import Verif.Props.Train

/-!
# NaN is not lost (C82)

With IEEE arithmetic (Spec/Ieee.lean) a NaN in the data shows in everything computed from it: elementwise operations, sums, products, layers,
losses, optimizer steps, and whole training runs.  Two layers of the library break this: ReLU and max pooling.
-/

set_option linter.unusedSectionVars false

namespace SmartDNN
open Spec Ieee Net

variable {R : Format} [MathFn (Ieee R)]

/-! ### Specification -/

/-- Row `r` of the `(b, n)` array `x` contains a NaN; it consists of NaN. -/
def Spec.HasNan (n : Nat) (x : List Nat → Ieee R) (r : Nat) : Prop := ∃ j < n, x [r, j] = .nan
def Spec.RowNan (n : Nat) (x : List Nat → Ieee R) (r : Nat) : Prop := ∀ j < n, x [r, j] = .nan

/-- A layer that maps `(b, n)` arrays to `(b, m)` arrays: fully connected, or an activation other than ReLU. -/
inductive Spec.Fits (b : Nat) : Layer (Ieee R) → Nat → Nat → Prop where
  | dense {n m : Nat} {w bias : List Nat → Ieee R} {l : FC (Ieee R)} {mode : Bool} (hx : Dims [b, n]) (hw : Dims [n, m]) (hg : Dims [b, m])
      (hlw : l.weights = ofFn [n, m] w) (hlb : l.biases = ofFn [1, m] bias) : Fits b ⟨.fc l, mode⟩ n m
  | act {n : Nat} {l : ActLayer (Ieee R)} {mode : Bool} (hd : Dims [b, n]) (ha : KeepsNan l.activation) : Fits b ⟨.activation l, mode⟩ n n

/-- Layers that fit together. -/
inductive Spec.NanStack (b : Nat) : List (Layer (Ieee R)) → Nat → Nat → Prop where
  | nil (n : Nat) : NanStack b [] n n
  | cons {l : Layer (Ieee R)} {ls : List (Layer (Ieee R))} {n m k : Nat} (hl : Fits b l n m) (hls : NanStack b ls m k) : NanStack b (l :: ls) n k

/-- Some parameter of the layer is NaN; all are. -/
def Spec.SomeNan (l : Layer (Ieee R)) : Prop := ∃ p, params l = some p ∧ (.nan ∈ p.1.data ∨ .nan ∈ p.2.data)
def Spec.OnlyNan (l : Layer (Ieee R)) : Prop := ∀ p, params l = some p → (∀ v ∈ p.1.data, v = .nan) ∧ ∀ v ∈ p.2.data, v = .nan

/-- What the optimizer remembers for the parameters of the layers numbered from `i` on has their dimensions (a new optimizer remembers
nothing). -/
def Spec.OptFor (opt : Optimizer (Nat × Bool) (Ieee R)) : Nat → List (Layer (Ieee R)) → Prop
  | _, [] => True
  | i, l :: ls => (∀ n m w b, params l = some (ofFn [n, m] w, ofFn [1, m] b) → OptAt opt (i, false) [n, m] ∧ OptAt opt (i, true) [1, m]) ∧
      OptFor opt (i + 1) ls

/-! ### Single operations -/

/-- `+`, `-`, `*` on tensors, with broadcasting: the result is NaN wherever an operand is. -/
theorem C82_elementwise {a b : List Nat} (ha : Dims a) (hb : Dims b) (h : Compat a b) (f g : List Nat → Ieee R) :
    (∃ s, (ofFn a f).add (ofFn b g) = .ok (ofFn (bdims a b) s) ∧ ∀ i, f (proj a i) = .nan ∨ g (proj b i) = .nan → s i = .nan) ∧
    (∃ s, (ofFn a f).sub (ofFn b g) = .ok (ofFn (bdims a b) s) ∧ ∀ i, f (proj a i) = .nan ∨ g (proj b i) = .nan → s i = .nan) ∧
    (∃ s, (ofFn a f).mul (ofFn b g) = .ok (ofFn (bdims a b) s) ∧ ∀ i, f (proj a i) = .nan ∨ g (proj b i) = .nan → s i = .nan) := by
  refine ⟨⟨_, binop_ofFn _ ha hb h f g, ?_⟩, ⟨_, binop_ofFn _ ha hb h f g, ?_⟩, ⟨_, binop_ofFn _ ha hb h f g, ?_⟩⟩ <;> rintro i (h | h) <;> rw [h]
  · exact nan_add _
  · exact add_nan _
  · exact nan_sub _
  · exact sub_nan _
  · exact nan_mul _
  · exact mul_nan _

/-- The sum of a tensor with a NaN is NaN. -/
theorem C82_sum (ds : List Nat) (f : List Nat → Ieee R) (h : .nan ∈ (ofFn ds f).data) : (ofFn ds f).sumAll = .ok (ofFn [1] fun _ => .nan) := by
  rw [sumAll_ofFn]
  have : lsum ((indices ds).map f) = .nan := lsum_nan h
  rw [this]

/-- Matrix products: a NaN in a row of the first factor makes the row of the product NaN, one in a column of the second factor the column. -/
theorem C82_matmul (m k n : Nat) (h : Dims [m, n]) (f g : List Nat → Ieee R) :
    ∃ p, (ofFn [m, k] f).matmul (ofFn [k, n] g) = .ok (ofFn [m, n] p) ∧
      ∀ i j, (∃ q < k, f [i, q] = .nan ∨ g [q, j] = .nan) → p [i, j] = .nan := by
  refine ⟨_, C15_product m k n h f g, ?_⟩
  rintro i j ⟨q, hq, hn⟩
  exact dot_nan hq hn

/-- Activations other than ReLU: NaN stays NaN; softmax spreads it over the row.  Missing: ReLU, see `C82_relu_refuted`. -/
theorem C82_activation_partial (L : Libm R) (a : Act (Ieee R)) (ds : List Nat) (f : List Nat → Ieee R) (hk : a ≠ .relu)
    (hs : a = .softmax → Dims ds ∧ 2 ≤ ds.length) :
    ∃ g, a.forward (ofFn ds f) = .ok (ofFn ds g) ∧ (∀ i, ValidIdx ds i → f i = .nan → g i = .nan) ∧
      (a = .softmax → ∀ r x y, ValidIdx ds (r :: y) → f (r :: y) = .nan → g (r :: x) = .nan) := by
  by_cases ha : a = .softmax
  · subst ha
    obtain ⟨hd, hr⟩ := hs rfl
    match ds, hd, hr with
    | d :: e :: ds, hd, _ =>
      obtain ⟨g, h1, h2⟩ := softmax_nan L hd (by simp) f
      refine ⟨g, h1, fun i hi h => ?_, fun _ r x y hy h => h2 r x y (ValidIdx.cons.1 hy).2 h⟩
      obtain ⟨r, x, rfl, -, hx⟩ := validIdx_cons_iff.1 hi
      exact h2 r x x hx h
  · obtain ⟨g, h1, h2⟩ := act_nan L a ha (by cases a <;> first | exact absurd rfl hk | trivial) ds f
    exact ⟨g, h1, fun i _ h => h2 i h, fun h => absurd h ha⟩

/-- ReLU turns every NaN into 0. -/
theorem C82_relu_refuted (ds : List Nat) (f : List Nat → Ieee R) :
    ∃ g, Act.relu.forward (ofFn ds f) = .ok (ofFn ds g) ∧ (∀ i, f i = .nan → g i = 0) ∧ ∀ i, g i ≠ .nan := by
  refine ⟨_, map_ofFn ds f _, fun i hi => ?_, fun i hc => ?_⟩
  · beta_reduce
    rw [hi]
    unfold cmax
    rw [if_neg (not_lt_nan _)]
  · beta_reduce at hc
    unfold cmax at hc
    split at hc
    · next h =>
      rw [hc] at h
      exact not_lt_nan _ h
    · rw [zero_def] at hc
      cases hc

/-- Losses: a NaN in predictions or targets makes the loss NaN, and the gradient at that place. -/
theorem C82_loss (L : Libm R) {b k : Nat} (hd : Dims [b, k]) (loss : Loss (Ieee R)) (p t : List Nat → Ieee R) :
    ∃ v g, loss.compute (ofFn [b, k] p) (ofFn [b, k] t) = .ok (ofFn [1] fun _ => v) ∧ loss.gradient (ofFn [b, k] p) (ofFn [b, k] t) = .ok (ofFn [b, k] g) ∧
      ∀ i, ValidIdx [b, k] i → p i = .nan ∨ t i = .nan → v = .nan ∧ g i = .nan := by
  cases loss with
  | mse => exact mse_nan hd p t
  | crossEntropy eps => exact cce_nan L hd eps p t

/-- Every optimizer, any options: a parameter whose gradient is NaN, or which is NaN already, is NaN after `optimize`. -/
theorem C82_optimizer {K : Type} [DecidableEq K] (w : World K (Ieee R)) (k : K) {ds : List Nat} (f g : List Nat → Ieee R) (lr : Ieee R)
    (hf : w.mem k = ofFn ds f) (ho : OptAt w.opt k ds) :
    ∃ w' f', World.optimizeM ⟨[k], [ofFn ds g], lr⟩ w = (.ok (), w') ∧ w'.mem k = ofFn ds f' ∧ ∀ i, f i = .nan ∨ g i = .nan → f' i = .nan := by
  have hb : OptAt (w.begin lr).opt k ds := by
    obtain ⟨mem, o⟩ := w
    cases o <;> exact ho
  obtain ⟨w', f', h1, h2, h3, -⟩ := stepPair_nan lr (w.begin lr) k f g (by rw [begin_mem]; exact hf) hb
  refine ⟨w', f', ?_, h2, h3⟩
  unfold World.optimizeM
  rw [if_neg (by simp)]
  simp only [List.zip_cons_cons, List.zip_nil_left, updateTensors_eq, List.foldlM_cons, List.foldlM_nil, h1, Except.bind_ok', Except.pure_eq']

/-! ### One layer -/

theorem some_nan_iff {ds es : List Nat} {w b : List Nat → Ieee R} {l : Layer (Ieee R)} (h : params l = some (ofFn ds w, ofFn es b)) :
    SomeNan l ↔ (∃ i, ValidIdx ds i ∧ w i = .nan) ∨ ∃ i, ValidIdx es i ∧ b i = .nan := by
  unfold SomeNan
  rw [h]
  constructor
  · rintro ⟨p, hp, h⟩
    cases hp
    rwa [nan_mem_ofFn, nan_mem_ofFn] at h
  · intro h
    refine ⟨_, rfl, ?_⟩
    rwa [nan_mem_ofFn, nan_mem_ofFn]

theorem only_nan_iff {ds es : List Nat} {w b : List Nat → Ieee R} {l : Layer (Ieee R)} (h : params l = some (ofFn ds w, ofFn es b)) :
    OnlyNan l ↔ (∀ i, ValidIdx ds i → w i = .nan) ∧ ∀ i, ValidIdx es i → b i = .nan := by
  unfold OnlyNan
  rw [h]
  constructor
  · intro h
    have := h _ rfl
    rwa [all_nan_ofFn, all_nan_ofFn] at this
  · rintro h p hp
    cases hp
    rwa [all_nan_ofFn, all_nan_ofFn]

/-- A layer after `backward`, as `Fits`, with the gradients `gw`, `gb` it stored. -/
inductive Graded (b : Nat) (G : Nat → Nat → (List Nat → Ieee R) → (List Nat → Ieee R) → Prop) : Layer (Ieee R) → Nat → Nat → Prop where
  | dense {n m : Nat} {w bias gw gb : List Nat → Ieee R} {l : FC (Ieee R)} {mode : Bool} (hx : Dims [b, n]) (hw : Dims [n, m]) (hg : Dims [b, m])
      (hlw : l.weights = ofFn [n, m] w) (hlb : l.biases = ofFn [1, m] bias) (h1 : l.weightGradients = some (ofFn [n, m] gw))
      (h2 : l.biasGradients = some (ofFn [1, m] gb)) (hG : G n m gw gb) : Graded b G ⟨.fc l, mode⟩ n m
  | act {n : Nat} {l : ActLayer (Ieee R)} {mode : Bool} (hd : Dims [b, n]) (ha : KeepsNan l.activation) : Graded b G ⟨.activation l, mode⟩ n n

/-- What is known about the gradients a layer stored. -/
def GradNan (P Q : Prop) (n m : Nat) (gw gb : List Nat → Ieee R) : Prop :=
  (P → ∃ i, ValidIdx [1, m] i ∧ gb i = .nan) ∧ (Q → (∀ i, ValidIdx [n, m] i → gw i = .nan) ∧ ∀ i, ValidIdx [1, m] i → gb i = .nan)

theorem act_row (L : Libm R) {b n : Nat} (hd : Dims [b, n]) (a : Act (Ieee R)) (ha : KeepsNan a) (x : List Nat → Ieee R) :
    ∃ y, a.forward (ofFn [b, n] x) = .ok (ofFn [b, n] y) ∧ (∀ r, HasNan n x r → HasNan n y r) ∧ (∀ r, RowNan n x r → RowNan n y r) := by
  by_cases hs : a = .softmax
  · subst hs
    obtain ⟨y, h1, h2⟩ := softmax_nan L hd (by simp) x
    refine ⟨y, h1, ?_, fun r h j hj => h2 r [j] [j] (valid1_iff.2 ⟨j, rfl, hj⟩) (h j hj)⟩
    rintro r ⟨j, hj, h⟩
    exact ⟨j, hj, h2 r [j] [j] (valid1_iff.2 ⟨j, rfl, hj⟩) h⟩
  · obtain ⟨y, h1, h2⟩ := act_nan L a hs ha [b, n] x
    refine ⟨y, h1, ?_, fun r h j hj => h2 _ (h j hj)⟩
    rintro r ⟨j, hj, h⟩
    exact ⟨j, hj, h2 _ h⟩

theorem act_back_row {b n : Nat} (hd : Dims [b, n]) (a : Act (Ieee R)) (x g : List Nat → Ieee R) :
    ∃ z, a.backward (ofFn [b, n] x) (ofFn [b, n] g) = .ok (ofFn [b, n] z) ∧ (∀ r, HasNan n g r → HasNan n z r) ∧
      (∀ r, RowNan n g r → RowNan n z r) := by
  by_cases hs : a = .softmax
  · subst hs
    obtain ⟨z, h1, h2⟩ := softmax_back_nan hd (by simp) x g
    refine ⟨z, h1, ?_, fun r h j hj => h2 r [j] [j] (valid1_iff.2 ⟨j, rfl, hj⟩) (h j hj)⟩
    rintro r ⟨j, hj, h⟩
    exact ⟨j, hj, h2 r [j] [j] (valid1_iff.2 ⟨j, rfl, hj⟩) h⟩
  · obtain ⟨z, h1, h2⟩ := act_back_nan hd a hs x g
    refine ⟨z, h1, ?_, fun r h j hj => h2 _ (h j hj)⟩
    rintro r ⟨j, hj, h⟩
    exact ⟨j, hj, h2 _ h⟩

theorem layer_step {ρ : Type} (L : Libm R) {b n m : Nat} {l : Layer (Ieee R)} (h : Fits b l n m) (E : Engine ρ (Ieee R)) (rg : ρ)
    (x : List Nat → Ieee R) :
    ∃ y l', Layer.forward E (ofFn [b, n] x) (l, rg) = (.ok (ofFn [b, m] y), (l', rg)) ∧ Fits b l' n m ∧ params l' = params l ∧
      (∀ r, HasNan n x r → HasNan m y r) ∧ (∀ r, RowNan n x r → RowNan m y r) ∧
      (Trainable l → ∀ r, HasNan n x r → RowNan m y r) ∧ (SomeNan l → ∀ r < b, HasNan m y r) ∧
      ∀ g, ∃ z l'', Layer.backward (ofFn [b, m] g) l' = (.ok (ofFn [b, n] z), l'') ∧ Graded b (GradNan (∃ r < b, HasNan m g r) (∃ r < b, RowNan m g r)) l'' n m ∧ params l'' = params l ∧
        (∀ r, HasNan m g r → HasNan n z r) ∧ (∀ r, RowNan m g r → RowNan n z r) := by
  cases h with
  | @dense n m w bias l mode hx hw hg hlw hlb =>
    have hn : 0 < n := hw.pos n (by simp)
    have hm : 0 < m := hw.pos m (by simp)
    have hrow : ∀ r, HasNan n x r → RowNan m (denseRow n w bias x) r := by
      rintro r ⟨j, hj, h⟩ i hi
      show dot n _ _ + _ = _
      rw [dot_nan hj (Or.inl h), nan_add]
    refine ⟨denseRow n w bias x, ⟨.fc { l with input := some (ofFn [b, n] x) }, mode⟩, ?_, .dense hx hw hg hlw hlb, rfl,
      fun r h => ⟨0, hm, hrow r h 0 hm⟩, fun r h => hrow r ⟨0, hn, h 0 hn⟩, fun _ => hrow, ?_, fun g => ?_⟩
    · have hf : FC.forward (ofFn [b, n] x) l = (.ok (ofFn [b, m] (denseRow n w bias x)), { l with input := some (ofFn [b, n] x) }) := by
        unfold FC.forward
        rw [Mut.modify_bind, Mut.get_bind, Mut.lift_apply, hlw, hlb, fc_affine_batch hg]
      simp only [Layer.forward, Layer.onKind, hf]
    · intro hs r hr
      have := (some_nan_iff (l := ⟨.fc l, mode⟩) (ds := [n, m]) (es := [1, m]) (w := w) (b := bias) (by simp only [params, hlw, hlb])).1 hs
      rcases this with ⟨i, hi, h⟩ | ⟨i, hi, h⟩
      · obtain ⟨p, q, rfl, hp, hq⟩ := valid2_iff.1 hi
        refine ⟨q, hq, ?_⟩
        show dot n _ _ + _ = _
        rw [dot_nan hp (Or.inr h), nan_add]
      · obtain ⟨p, q, rfl, hp, hq⟩ := valid2_iff.1 hi
        obtain rfl : p = 0 := by omega
        refine ⟨q, hq, ?_⟩
        show dot n _ _ + bias [0, q] = _
        rw [h, add_nan]
    · have hb := fc_backward (l := { l with input := some (ofFn [b, n] x) }) hx hw hg (w := w) (bias := bias) (x := x) (g := g)
        (gin := ofFn [b, m] g) hlw hlb rfl (ensure2D_mat _ _ _) (ensure2D_mat _ _ _)
      have hB : Layer.backward (ofFn [b, m] g) ⟨.fc { l with input := some (ofFn [b, n] x) }, mode⟩ =
          (.ok (ofFn [b, n] (fun idx => dot m (fun j => g [idx.getD 0 0, j]) (fun j => w [idx.getD 1 0, j]))),
            ⟨.fc { l with
              input := some (ofFn [b, n] x)
              weightGradients := some (ofFn [n, m] (fun idx => dot b (fun i => x [i, idx.getD 0 0]) (fun i => g [i, idx.getD 1 0])))
              biasGradients := some (ofFn [1, m] (fun idx => lsum ((List.range b).map (fun i => g [i, idx.getD 1 0])))) }, mode⟩) := by
        simp only [Layer.backward, Layer.onKind, hb]
      refine ⟨_, _, hB, ?_, rfl, ?_, ?_⟩
      · refine .dense hx hw hg hlw hlb rfl rfl ⟨?_, ?_⟩
        · rintro ⟨r, hr, j, hj, h⟩
          exact ⟨[0, j], valid2_iff.2 ⟨0, j, rfl, by omega, hj⟩, lsum_nan (List.mem_map.2 ⟨r, List.mem_range.2 hr, h⟩)⟩
        · rintro ⟨r, hr, h⟩
          constructor
          · intro i hi
            obtain ⟨p, q, rfl, hp, hq⟩ := valid2_iff.1 hi
            exact dot_nan hr (Or.inr (h q hq))
          · intro i hi
            obtain ⟨p, q, rfl, hp, hq⟩ := valid2_iff.1 hi
            exact lsum_nan (List.mem_map.2 ⟨r, List.mem_range.2 hr, h q hq⟩)
      · rintro r ⟨j, hj, h⟩
        exact ⟨0, hn, dot_nan hj (Or.inl h)⟩
      · intro r h j hj
        exact dot_nan hm (Or.inl (h 0 hm))
  | @act n l mode hd ha =>
    obtain ⟨y, y1, y2, y3⟩ := act_row L hd l.activation ha x
    refine ⟨y, ⟨.activation { l with input := some (ofFn [b, n] x) }, mode⟩,
      congrArg (fun y => (y, (⟨⟨.activation { l with input := some (ofFn [b, n] x) }, mode⟩, rg⟩ : Layer (Ieee R) × ρ))) y1, .act hd ha, rfl, y2, y3,
      fun h => ?_, ?_, fun g => ?_⟩
    · exact absurd h (by rw [params_trainable]; rintro ⟨p, hp⟩; cases hp)
    · rintro ⟨p, hp, -⟩
      cases hp
    · obtain ⟨z, z1, z2, z3⟩ := act_back_row hd l.activation x g
      exact ⟨z, _, congrArg (fun y => (y, (⟨.activation { l with input := some (ofFn [b, n] x) }, mode⟩ : Layer (Ieee R)))) z1, .act hd ha, rfl, z2, z3⟩

/-! ### Stacks of layers -/

inductive GradedStack (b : Nat) (P Q : Prop) : List (Layer (Ieee R)) → Nat → Nat → Prop where
  | nil (n : Nat) : GradedStack b P Q [] n n
  | cons {l : Layer (Ieee R)} {ls : List (Layer (Ieee R))} {n m k : Nat} (hl : Graded b (GradNan P Q) l n m) (hls : GradedStack b P Q ls m k) :
      GradedStack b P Q (l :: ls) n k

theorem Graded.mono {b n m : Nat} {l : Layer (Ieee R)} {P Q P' Q' : Prop} (h : Graded b (GradNan P Q) l n m) (hP : P' → P) (hQ : Q' → Q) :
    Graded b (GradNan P' Q') l n m := by
  cases h with
  | dense hx hw hg hlw hlb h1 h2 hG => exact .dense hx hw hg hlw hlb h1 h2 ⟨fun h => hG.1 (hP h), fun h => hG.2 (hQ h)⟩
  | act hd ha => exact .act hd ha

theorem trainable_params {l l' : Layer (Ieee R)} (h : params l' = params l) : Trainable l' ↔ Trainable l := by
  rw [params_trainable, params_trainable, h]

theorem someNan_params {l l' : Layer (Ieee R)} (h : params l' = params l) : SomeNan l' ↔ SomeNan l := by
  unfold SomeNan
  rw [h]

theorem onlyNan_params {l l' : Layer (Ieee R)} (h : params l' = params l) : OnlyNan l' ↔ OnlyNan l := by
  unfold OnlyNan
  rw [h]

theorem stack_step {ρ : Type} (L : Libm R) {b n k : Nat} {ls : List (Layer (Ieee R))} (h : NanStack b ls n k) (E : Engine ρ (Ieee R)) (rg : ρ) :
    ∀ x : List Nat → Ieee R,
    ∃ y ls', forwardLayers E ls (ofFn [b, n] x) rg = (.ok (ofFn [b, k] y), ls', rg) ∧ List.Forall₂ (fun l l' => params l' = params l) ls ls' ∧
      (∀ r, HasNan n x r → HasNan k y r) ∧ (∀ r, RowNan n x r → RowNan k y r) ∧
      ((∃ l ∈ ls, Trainable l) → ∀ r, HasNan n x r → RowNan k y r) ∧ ((∃ l ∈ ls, SomeNan l) → ∀ r < b, HasNan k y r) ∧
      ∀ g, ∃ z ls'', backwardLayers ls' (ofFn [b, k] g) = (.ok (ofFn [b, n] z), ls'') ∧
        GradedStack b (∃ r < b, HasNan k g r) (∃ r < b, RowNan k g r) ls'' n k ∧ List.Forall₂ (fun l l' => params l' = params l) ls ls'' ∧
        (∀ r, HasNan k g r → HasNan n z r) ∧ (∀ r, RowNan k g r → RowNan n z r) := by
  induction h with
  | nil n =>
    exact fun x => ⟨x, [], rfl, .nil, fun _ h => h, fun _ h => h, by simp, by simp, fun g => ⟨g, [], rfl, .nil n, .nil, fun _ h => h, fun _ h => h⟩⟩
  | @cons l ls n m k hl hls ih =>
    intro x
    obtain ⟨y, l', f1, f2, f3, f4, f5, f6, f7, f8⟩ := layer_step L hl E rg x
    obtain ⟨u, ls', k1, k3, k4, k5, k6, k7, k8⟩ := ih y
    refine ⟨u, l' :: ls', ?_, .cons f3 k3, fun r h => k4 r (f4 r h), fun r h => k5 r (f5 r h), ?_, ?_, fun g => ?_⟩
    · unfold forwardLayers
      rw [f1]
      simp only
      rw [k1]
    · rintro ⟨a, ha, ht⟩ r hr
      rcases List.mem_cons.1 ha with rfl | ha
      · exact k5 r (f6 ht r hr)
      · exact k6 ⟨a, ha, ht⟩ r (f4 r hr)
    · rintro ⟨a, ha, ht⟩ r hr
      rcases List.mem_cons.1 ha with rfl | ha
      · exact k4 r (f7 ht r hr)
      · exact k7 ⟨a, ha, ht⟩ r hr
    · obtain ⟨z, ls'', b1, b2, b4, b5, b6⟩ := k8 g
      obtain ⟨v, l'', c1, c2, c4, c5, c6⟩ := f8 z
      refine ⟨v, l'' :: ls'', ?_, .cons (c2.mono ?_ ?_) b2, .cons c4 b4, fun r h => c5 r (b5 r h), fun r h => c6 r (b6 r h)⟩
      · unfold backwardLayers
        rw [b1]
        simp only
        rw [c1]
      · rintro ⟨r, hr, h⟩
        exact ⟨r, hr, b5 r h⟩
      · rintro ⟨r, hr, h⟩
        exact ⟨r, hr, b6 r h⟩

/-! ### Updates -/

theorem ofFn_dims {ds es : List Nat} {f g : List Nat → Ieee R} (h : ofFn ds f = ofFn es g) : ds = es := by
  have := congrArg (fun t => t.shape.dims) h
  simp only [ofFn_shape, shapeOf_dims] at this
  exact ints_inj this

theorem layer_update {b n m i : Nat} {l : Layer (Ieee R)} {P Q : Prop} (h : Graded b (GradNan P Q) l n m) (opt : Optimizer (Nat × Bool) (Ieee R))
    (ho : ∀ n m w b, params l = some (ofFn [n, m] w, ofFn [1, m] b) → OptAt opt (i, false) [n, m] ∧ OptAt opt (i, true) [1, m]) :
    ∃ l' opt', Layer.updateWeights (i, false) (i, true) (l, opt) = (.ok (), l', opt') ∧ Fits b l' n m ∧
      (∀ n m w b, params l' = some (ofFn [n, m] w, ofFn [1, m] b) → OptAt opt' (i, false) [n, m] ∧ OptAt opt' (i, true) [1, m]) ∧
      (∀ k' fs, k' ≠ (i, false) → k' ≠ (i, true) → OptAt opt k' fs → OptAt opt' k' fs) ∧
      (Trainable l → Trainable l') ∧ (SomeNan l → SomeNan l') ∧ (P → Trainable l → SomeNan l') ∧ (OnlyNan l → OnlyNan l') ∧ (Q → OnlyNan l') := by
  cases h with
  | @dense n m w bias gw gb l mode hx hw hg hlw hlb h1 h2 hG =>
    have hp : params (⟨.fc l, mode⟩ : Layer (Ieee R)) = some (ofFn [n, m] w, ofFn [1, m] bias) := by simp only [params, hlw, hlb]
    obtain ⟨o0, o1⟩ := ho n m w bias hp
    obtain ⟨w', b', opt', e, nw, nb, q0, q1, q2⟩ := optimizePair_nan (k0 := (i, false)) (k1 := (i, true)) (by simp) opt o0 o1 w bias gw gb
    have hp' : params (⟨.fc { l with weights := ofFn [n, m] w', biases := ofFn [1, m] b' }, mode⟩ : Layer (Ieee R)) =
      some (ofFn [n, m] w', ofFn [1, m] b') := rfl
    refine ⟨⟨.fc { l with weights := ofFn [n, m] w', biases := ofFn [1, m] b' }, mode⟩, opt', ?_, .dense hx hw hg rfl rfl, ?_, fun k' fs a c d => q2 k' a c fs d,
      fun _ => trivial, ?_, ?_, ?_, ?_⟩
    · simp only [Layer.updateWeights, h1, h2, hlw, hlb, e]
    · intro n' m' w2 b2 h
      rw [hp'] at h
      injection h with h
      injection h with h3 h4
      obtain h5 := ofFn_dims h3
      rw [← h5]
      rw [← ofFn_dims h4]
      exact ⟨q0, q1⟩
    · rw [some_nan_iff hp, some_nan_iff hp']
      rintro (⟨j, hj, h⟩ | ⟨j, hj, h⟩)
      · exact Or.inl ⟨j, hj, nw j (Or.inl h)⟩
      · exact Or.inr ⟨j, hj, nb j (Or.inl h)⟩
    · intro hP _
      rw [some_nan_iff hp']
      obtain ⟨j, hj, h⟩ := hG.1 hP
      exact Or.inr ⟨j, hj, nb j (Or.inr h)⟩
    · rw [only_nan_iff hp, only_nan_iff hp']
      rintro ⟨h3, h4⟩
      exact ⟨fun j hj => nw j (Or.inl (h3 j hj)), fun j hj => nb j (Or.inl (h4 j hj))⟩
    · intro hQ
      rw [only_nan_iff hp']
      obtain ⟨h3, h4⟩ := hG.2 hQ
      exact ⟨fun j hj => nw j (Or.inr (h3 j hj)), fun j hj => nb j (Or.inr (h4 j hj))⟩
  | @act n l mode hd ha =>
    refine ⟨_, _, rfl, .act hd ha, fun n m w b h => ho n m w b h, fun _ _ _ _ h => h, fun h => h, fun h => h, fun _ h => ?_, fun h => h, fun _ p h => ?_⟩
    · exact absurd h (by rw [params_trainable]; rintro ⟨p, hp⟩; cases hp)
    · cases h

theorem optFor_frame {opt opt' : Optimizer (Nat × Bool) (Ieee R)} {ls : List (Layer (Ieee R))} :
    ∀ {i : Nat}, (∀ j c fs, i ≤ j → OptAt opt (j, c) fs → OptAt opt' (j, c) fs) → OptFor opt i ls → OptFor opt' i ls := by
  induction ls with
  | nil => exact fun _ _ => trivial
  | cons l ls ih =>
    rintro i h ⟨h1, h2⟩
    exact ⟨fun n m w b hp => ⟨h _ _ _ le_rfl (h1 n m w b hp).1, h _ _ _ le_rfl (h1 n m w b hp).2⟩, ih (fun j c fs hj => h j c fs (by omega)) h2⟩

theorem optFor_params {opt : Optimizer (Nat × Bool) (Ieee R)} {ls ls' : List (Layer (Ieee R))} (h : List.Forall₂ (fun l l' => params l' = params l) ls ls') :
    ∀ {i : Nat}, OptFor opt i ls → OptFor opt i ls' := by
  induction h with
  | nil => exact fun _ => trivial
  | cons h _ ih =>
    rintro i ⟨h1, h2⟩
    exact ⟨fun n m w b hp => h1 n m w b (by rw [← h]; exact hp), ih h2⟩

theorem stack_update {b n k : Nat} {ls : List (Layer (Ieee R))} {P Q : Prop} (h : GradedStack b P Q ls n k) :
    ∀ (i : Nat) (opt : Optimizer (Nat × Bool) (Ieee R)), OptFor opt i ls →
    ∃ ls' opt', updateLayers i ls opt = (.ok (), ls', opt') ∧ NanStack b ls' n k ∧ OptFor opt' i ls' ∧
      (∀ j c fs, j < i → OptAt opt (j, c) fs → OptAt opt' (j, c) fs) ∧
      ((∃ l ∈ ls, Trainable l) → ∃ l ∈ ls', Trainable l) ∧ ((∃ l ∈ ls, SomeNan l) → ∃ l ∈ ls', SomeNan l) ∧
      (P → (∃ l ∈ ls, Trainable l) → ∃ l ∈ ls', SomeNan l) ∧ ((∀ l ∈ ls, OnlyNan l) → ∀ l ∈ ls', OnlyNan l) ∧ (Q → ∀ l ∈ ls', OnlyNan l) := by
  induction h with
  | nil n => exact fun i opt _ => ⟨[], opt, rfl, .nil n, trivial, fun _ _ _ _ h => h, by simp, by simp, by simp, by simp, by simp⟩
  | @cons l ls n m k hl hls ih =>
    rintro i opt ⟨ho, hos⟩
    obtain ⟨l', o1, a1, a2, a3, a4, a5, a6, a7, a8, a9⟩ := layer_update (i := i) hl opt ho
    obtain ⟨ls', o2, b1, b2, b3, b4, b5, b6, b7, b8, b9⟩ := ih (i + 1) o1 (optFor_frame (fun j c fs hj h => a4 _ _ (by simp; omega) (by simp; omega) h) hos)
    refine ⟨l' :: ls', o2, ?_, .cons a2 b2, ⟨fun n m w b hp => ?_, b3⟩, fun j c fs hj h => ?_, ?_, ?_, ?_, ?_, ?_⟩
    · rw [updateLayers_cons, a1]
      simp only
      rw [b1]
    · obtain ⟨c1, c2⟩ := a3 n m w b hp
      exact ⟨b4 _ _ _ (by omega) c1, b4 _ _ _ (by omega) c2⟩
    · exact b4 _ _ _ (by omega) (a4 _ _ (by simp; omega) (by simp; omega) h)
    · rintro ⟨a, ha, ht⟩
      rcases List.mem_cons.1 ha with rfl | ha
      · exact ⟨l', by simp, a5 ht⟩
      · obtain ⟨c, hc, h⟩ := b5 ⟨a, ha, ht⟩
        exact ⟨c, by simp [hc], h⟩
    · rintro ⟨a, ha, ht⟩
      rcases List.mem_cons.1 ha with rfl | ha
      · exact ⟨l', by simp, a6 ht⟩
      · obtain ⟨c, hc, h⟩ := b6 ⟨a, ha, ht⟩
        exact ⟨c, by simp [hc], h⟩
    · rintro hP ⟨a, ha, ht⟩
      rcases List.mem_cons.1 ha with rfl | ha
      · exact ⟨l', by simp, a7 hP ht⟩
      · obtain ⟨c, hc, h⟩ := b7 hP ⟨a, ha, ht⟩
        exact ⟨c, by simp [hc], h⟩
    · intro h a ha
      rcases List.mem_cons.1 ha with rfl | ha
      · exact a8 (h l (by simp))
      · exact b8 (fun c hc => h c (by simp [hc])) a ha
    · intro hQ a ha
      rcases List.mem_cons.1 ha with rfl | ha
      · exact a9 hQ
      · exact b9 hQ a ha

/-! ### Whole models -/

/-- A compiled model of fully connected layers and activations other than ReLU, with at least one fully connected layer, for samples of
dimensions `(b, n)` and targets of dimensions `(b, k)`. -/
structure Spec.NanModel {ρ : Type} (b n k : Nat) (net : Net ρ (Ieee R)) : Prop where
  stack : NanStack b net.layers n k
  dims : Dims [b, k]
  trainable : ∃ l ∈ net.layers, Trainable l
  loss : ∃ L, net.loss = some L
  optimizer : ∃ opt, net.optimizer = some opt ∧ OptFor opt 0 net.layers

theorem exists_params {ls ls' : List (Layer (Ieee R))} (P : Layer (Ieee R) → Prop) (hP : ∀ l l', params l' = params l → P l → P l')
    (h : List.Forall₂ (fun l l' => params l' = params l) ls ls') : (∃ l ∈ ls, P l) → ∃ l ∈ ls', P l := by
  induction h with
  | nil => simp
  | cons h _ ih =>
    rintro ⟨a, ha, hp⟩
    rcases List.mem_cons.1 ha with rfl | ha
    · exact ⟨_, by simp, hP _ _ h hp⟩
    · obtain ⟨c, hc, h⟩ := ih ⟨a, ha, hp⟩
      exact ⟨c, by simp [hc], h⟩

theorem forall_params {ls ls' : List (Layer (Ieee R))} (P : Layer (Ieee R) → Prop) (hP : ∀ l l', params l' = params l → P l → P l')
    (h : List.Forall₂ (fun l l' => params l' = params l) ls ls') : (∀ l ∈ ls, P l) → ∀ l ∈ ls', P l := by
  induction h with
  | nil => simp
  | cons h _ ih =>
    intro hp a ha
    rcases List.mem_cons.1 ha with rfl | ha
    · exact hP _ _ h (hp _ (by simp))
    · exact ih (fun c hc => hp c (by simp [hc])) a ha

theorem valid_row {b k r j : Nat} (hr : r < b) (hj : j < k) : ValidIdx [b, k] [r, j] := by
  simp [ValidIdx, hr, hj]

/-- One training step. -/
theorem nan_step {ρ : Type} (L : Libm R) (E : Engine ρ (Ieee R)) {b n k : Nat} {net : Net ρ (Ieee R)} (h : NanModel b n k net) (x t : List Nat → Ieee R) :
    ∃ net' v, StepOk E (ofFn [b, n] x) (ofFn [b, k] t) net net' v ∧ NanModel b n k net' ∧
      ((∃ r < b, HasNan n x r ∨ HasNan k t r) → v = .nan ∧ ∃ l ∈ net'.layers, SomeNan l) ∧
      ((∃ l ∈ net.layers, SomeNan l) → v = .nan ∧ ∃ l ∈ net'.layers, SomeNan l) ∧
      ((∃ r < b, HasNan n x r) → ∀ l ∈ net'.layers, OnlyNan l) ∧ ((∀ l ∈ net.layers, OnlyNan l) → ∀ l ∈ net'.layers, OnlyNan l) := by
  obtain ⟨hs, hd, ht, ⟨loss, hl⟩, opt, ho, hof⟩ := h
  have hb : 0 < b := hd.pos b (by simp)
  obtain ⟨y, ls1, f1, f3, f4, f5, f6, f7, f8⟩ := stack_step L hs E net.rng x
  obtain ⟨v, g, c1, c2, c3⟩ := C82_loss L hd loss y t
  obtain ⟨z, ls2, g1, g2, g3, -, -⟩ := f8 g
  obtain ⟨ls3, opt', u1, u2, u3, -, u5, u6, u7, u8, u9⟩ := stack_update g2 0 opt (optFor_params g3 hof)
  have tr2 : ∃ l ∈ ls2, Trainable l := exists_params _ (fun _ _ h => (trainable_params h).2) g3 ht
  have hgrad : ∀ r < b, HasNan k y r ∨ HasNan k t r → v = .nan ∧ HasNan k g r := by
    rintro r hr (⟨j, hj, h⟩ | ⟨j, hj, h⟩)
    · obtain ⟨h1, h2⟩ := c3 _ (valid_row hr hj) (Or.inl h)
      exact ⟨h1, j, hj, h2⟩
    · obtain ⟨h1, h2⟩ := c3 _ (valid_row hr hj) (Or.inr h)
      exact ⟨h1, j, hj, h2⟩
  refine ⟨{ net with layers := ls3, optimizer := some opt' }, v, ⟨_, { net with layers := ls1 }, loss, _, ofFn [b, n] z, { net with layers := ls2 }, ?_, hl, c1, c2, ?_, ?_⟩,
    ⟨u2, hd, u5 tr2, ⟨loss, hl⟩, opt', rfl, u3⟩, ?_, ?_, ?_, ?_⟩
  · simp only [predict, f1]
  · simp only [backward, g1]
  · rw [net_updateWeights_eq { net with layers := ls2 } opt ho]
    simp only [u1]
  · rintro ⟨r, hr, h⟩
    obtain ⟨h1, h2⟩ := hgrad r hr (h.imp (f4 r) id)
    exact ⟨h1, u7 ⟨r, hr, h2⟩ tr2⟩
  · intro h
    exact ⟨(hgrad 0 hb (Or.inl (f7 h 0 hb))).1, u6 (exists_params _ (fun _ _ h => (someNan_params h).2) g3 h)⟩
  · rintro ⟨r, hr, h⟩
    exact u9 ⟨r, hr, fun j hj => (c3 _ (valid_row hr hj) (Or.inl (f6 ht r h j hj))).2⟩
  · exact fun h => u8 (forall_params _ (fun _ _ h => (onlyNan_params h).2) g3 h)

/-- The samples of a data set: pairs of an input and a target. -/
def Spec.tensors (b n k : Nat) (ps : List ((List Nat → Ieee R) × (List Nat → Ieee R))) : List (Tensor (Ieee R) × Tensor (Ieee R)) :=
  ps.map fun p => (ofFn [b, n] p.1, ofFn [b, k] p.2)

theorem nan_steps {ρ : Type} (L : Libm R) (E : Engine ρ (Ieee R)) {b n k : Nat} (ps : List ((List Nat → Ieee R) × (List Nat → Ieee R))) :
    ∀ {net : Net ρ (Ieee R)}, NanModel b n k net →
    ∃ net' vs, Steps E (tensors b n k ps) net net' vs ∧ NanModel b n k net' ∧
      ((∃ p ∈ ps, ∃ r < b, HasNan n p.1 r ∨ HasNan k p.2 r) → .nan ∈ vs ∧ ∃ l ∈ net'.layers, SomeNan l) ∧
      ((∃ l ∈ net.layers, SomeNan l) → (ps ≠ [] → .nan ∈ vs) ∧ ∃ l ∈ net'.layers, SomeNan l) ∧
      ((∃ p ∈ ps, ∃ r < b, HasNan n p.1 r) → ∀ l ∈ net'.layers, OnlyNan l) ∧ ((∀ l ∈ net.layers, OnlyNan l) → ∀ l ∈ net'.layers, OnlyNan l) := by
  induction ps with
  | nil => exact fun {net} h => ⟨net, [], .nil net, h, by simp, fun h => ⟨by simp, h⟩, by simp, fun h => h⟩
  | cons p ps ih =>
    intro net h
    obtain ⟨net1, v, a1, a2, a3, a4, a5, a6⟩ := nan_step L E h p.1 p.2
    obtain ⟨net2, vs, b1, b2, b3, b4, b5, b6⟩ := ih a2
    refine ⟨net2, v :: vs, .cons a1 b1, b2, ?_, ?_, ?_, fun h => b6 (a6 h)⟩
    · rintro ⟨q, hq, hn⟩
      rcases List.mem_cons.1 hq with rfl | hq
      · obtain ⟨h1, h2⟩ := a3 hn
        exact ⟨by simp [h1], (b4 h2).2⟩
      · obtain ⟨h1, h2⟩ := b3 ⟨q, hq, hn⟩
        exact ⟨by simp [h1], h2⟩
    · intro hn
      obtain ⟨h1, h2⟩ := a4 hn
      exact ⟨fun _ => by simp [h1], (b4 h2).2⟩
    · rintro ⟨q, hq, hn⟩
      rcases List.mem_cons.1 hq with rfl | hq
      · exact b6 (a5 hn)
      · exact b5 ⟨q, hq, hn⟩

theorem nan_epochs {ρ : Type} (L : Libm R) (E : Engine ρ (Ieee R)) {b n k : Nat} (ps : List ((List Nat → Ieee R) × (List Nat → Ieee R))) (hne : ps ≠ [])
    (m : Nat) : ∀ {net : Net ρ (Ieee R)}, NanModel b n k net →
    ∃ net' rs, Epochs E (tensors b n k ps) m net net' rs ∧ NanModel b n k net' ∧ rs.length = m ∧
      ((∃ p ∈ ps, ∃ r < b, HasNan n p.1 r ∨ HasNan k p.2 r) ∨ (∃ l ∈ net.layers, SomeNan l) → ∀ r ∈ rs, r = ofFn [1] fun _ => .nan) ∧
      ((∃ p ∈ ps, ∃ r < b, HasNan n p.1 r ∨ HasNan k p.2 r) → 0 < m → ∃ l ∈ net'.layers, SomeNan l) ∧
      ((∃ l ∈ net.layers, SomeNan l) → ∃ l ∈ net'.layers, SomeNan l) ∧
      ((∃ p ∈ ps, ∃ r < b, HasNan n p.1 r) → 0 < m → ∀ l ∈ net'.layers, OnlyNan l) ∧ ((∀ l ∈ net.layers, OnlyNan l) → ∀ l ∈ net'.layers, OnlyNan l) := by
  induction m with
  | zero => exact fun {net} h => ⟨net, [], .zero net, h, rfl, by simp, fun _ h => absurd h (by omega), fun h => h, fun _ h => absurd h (by omega), fun h => h⟩
  | succ m ih =>
    intro net h
    obtain ⟨net1, vs, a1, a2, a3, a4, a5, a6⟩ := nan_steps L E ps h
    obtain ⟨net2, rs, b1, b2, b3, b4, b5, b6, b7, b8⟩ := ih a2
    refine ⟨net2, _ :: rs, .succ a1 b1, b2, by simp [b3], fun hn r hr => ?_, fun hn _ => b6 (a3 hn).2, fun hn => b6 (a4 hn).2, fun hn _ => b8 (a5 hn),
      fun h => b8 (a6 h)⟩
    have key : .nan ∈ vs ∧ ∃ l ∈ net1.layers, SomeNan l := by
      rcases hn with hn | hn
      · exact a3 hn
      · exact ⟨(a4 hn).1 hne, (a4 hn).2⟩
    rcases List.mem_cons.1 hr with rfl | hr
    · have h1 : vs.foldl (· + ·) 0 = (.nan : Ieee R) := lsum_nan key.1
      rw [h1, nan_div]
    · exact b4 (Or.inr key.2) r hr

/-- **C82.** Training on data with a NaN, for any number of epochs, with any loss and optimizer: `train` reports no error, every loss it prints is
NaN, and some parameter is NaN afterwards.  If an input contains a NaN, all parameters of the model are NaN afterwards.
Missing: models with ReLU or max pooling (`C82_hidden_refuted`, `C82_maxpool_refuted`), and the other kinds of layer. -/
theorem C82_train_partial {ρ : Type} (L : Libm R) (E : Engine ρ (Ieee R)) {b n k : Nat} (net : Net ρ (Ieee R)) (h : NanModel b n k net)
    (ps : List ((List Nat → Ieee R) × (List Nat → Ieee R))) (epochs : Int) (he : 0 < epochs)
    (hn : ∃ p ∈ ps, ∃ r < b, HasNan n p.1 r ∨ HasNan k p.2 r) :
    ∃ net', trainCall E (ps.map fun p => ofFn [b, n] p.1) (ps.map fun p => ofFn [b, k] p.2) epochs net =
        (.ok (), net', List.replicate epochs.toNat (ofFn [1] fun _ => .nan)) ∧
      (∃ l ∈ net'.layers, SomeNan l) ∧ ((∃ p ∈ ps, ∃ r < b, HasNan n p.1 r) → ∀ l ∈ net'.layers, OnlyNan l) := by
  have hne : ps ≠ [] := by
    rintro rfl
    simp at hn
  obtain ⟨net', rs, h1, -, h3, h4, h5, -, h7, -⟩ := nan_epochs L E ps hne epochs.toNat h
  refine ⟨net', ?_, h5 hn (by omega), fun hx => h7 hx (by omega)⟩
  have hz : (ps.map fun p => (ofFn [b, n] p.1 : Tensor (Ieee R))).zip (ps.map fun p => ofFn [b, k] p.2) = tensors b n k ps := by
    rw [List.zip_map', tensors]
  rw [C55_train E _ _ epochs net net' _ (by simp) (by rw [List.length_map]; exact natCast_ne_zero (List.length_pos_iff.2 hne)), hz]
  rw [← h3, ← List.eq_replicate_of_mem (h4 (Or.inl hn))]
  exact h3 ▸ h1

/-- A model with a NaN parameter never recovers: trained on any data of the right dimensions, every loss is NaN and a NaN parameter remains. -/
theorem C82_no_recovery_partial {ρ : Type} (L : Libm R) (E : Engine ρ (Ieee R)) {b n k : Nat} (net : Net ρ (Ieee R)) (h : NanModel b n k net)
    (ps : List ((List Nat → Ieee R) × (List Nat → Ieee R))) (hne : ps ≠ []) (epochs : Int) (hn : ∃ l ∈ net.layers, SomeNan l) :
    ∃ net', trainCall E (ps.map fun p => ofFn [b, n] p.1) (ps.map fun p => ofFn [b, k] p.2) epochs net =
        (.ok (), net', List.replicate epochs.toNat (ofFn [1] fun _ => .nan)) ∧
      (∃ l ∈ net'.layers, SomeNan l) ∧ ((∀ l ∈ net.layers, OnlyNan l) → ∀ l ∈ net'.layers, OnlyNan l) := by
  obtain ⟨net', rs, h1, -, h3, h4, -, h6, -, h8⟩ := nan_epochs L E ps hne epochs.toNat h
  refine ⟨net', ?_, h6 hn, h8⟩
  have hz : (ps.map fun p => (ofFn [b, n] p.1 : Tensor (Ieee R))).zip (ps.map fun p => ofFn [b, k] p.2) = tensors b n k ps := by
    rw [List.zip_map', tensors]
  rw [C55_train E _ _ epochs net net' _ (by simp) (by rw [List.length_map]; exact natCast_ne_zero (List.length_pos_iff.2 hne)), hz]
  rw [← h3, ← List.eq_replicate_of_mem (h4 (Or.inr hn))]
  exact h3 ▸ h1

/-- Predictions: a NaN in a row of the input makes the whole row of the prediction NaN; a NaN parameter puts a NaN in every row. -/
theorem C82_predict_partial {ρ : Type} (L : Libm R) (E : Engine ρ (Ieee R)) {b n k : Nat} (net : Net ρ (Ieee R)) (h : NanStack b net.layers n k)
    (x : List Nat → Ieee R) :
    ∃ y net', predict E (ofFn [b, n] x) net = (.ok (ofFn [b, k] y), net') ∧
      ((∃ l ∈ net.layers, Trainable l) → ∀ r, HasNan n x r → ∀ j < k, y [r, j] = .nan) ∧
      ((∃ l ∈ net.layers, SomeNan l) → ∀ r < b, HasNan k y r) := by
  obtain ⟨y, ls1, f1, -, -, -, f6, f7, -⟩ := stack_step L h E net.rng x
  exact ⟨y, { net with layers := ls1 }, by simp only [predict, f1], fun ht r hr => f6 ht r hr, f7⟩

/-! ### Where NaN is lost -/

theorem zero_mul_fin {a : Ieee R} (h : a.Finite) : 0 * a = 0 := by
  obtain ⟨x, hx, hb, rfl⟩ := h
  rw [zero_def]
  show ofReal R (0 * x) = _
  rw [zero_mul]
  exact zero_def

theorem zero_add_fin {a : Ieee R} (h : a.Finite) : 0 + a = a := by
  obtain ⟨x, hx, hb, rfl⟩ := h
  rw [zero_def]
  show ofReal R (0 + x) = _
  rw [zero_add]
  exact ofReal_val hx hb

theorem finite_zero : (0 : Ieee R).Finite := by
  rw [zero_def]
  exact ⟨_, _, _, rfl⟩

theorem lsum_zero : ∀ l : List (Ieee R), (∀ v ∈ l, v = 0) → lsum l = 0 := by
  intro l
  unfold lsum
  induction l with
  | nil => exact fun _ => rfl
  | cons a l ih =>
    intro h
    rw [List.foldl_cons, h a (by simp), zero_add_fin finite_zero]
    exact ih fun v hv => h v (by simp [hv])

/-- A hidden ReLU layer hides NaN: for a network of a fully connected layer, ReLU and a fully connected layer with finite parameters, every row of
the input that contains a NaN is predicted to be the biases of the last layer, which are finite. -/
theorem C82_hidden_refuted {ρ : Type} (E : Engine ρ (Ieee R)) {b n h m : Nat} (hd1 : Dims [b, n]) (hd2 : Dims [b, h]) (hd3 : Dims [b, m])
    (l1 l3 : FC (Ieee R)) (l2 : ActLayer (Ieee R)) (m1 m2 m3 : Bool) (w1 b1 w3 b3 : List Nat → Ieee R) (h1 : l1.weights = ofFn [n, h] w1)
    (h2 : l1.biases = ofFn [1, h] b1) (h3 : l2.activation = .relu) (h4 : l3.weights = ofFn [h, m] w3) (h5 : l3.biases = ofFn [1, m] b3)
    (hw : ∀ i, ValidIdx [h, m] i → (w3 i).Finite) (hb : ∀ i, ValidIdx [1, m] i → (b3 i).Finite) (loss : Option (Loss (Ieee R)))
    (opt : Option (Optimizer (Nat × Bool) (Ieee R))) (rg : ρ) (x : List Nat → Ieee R) :
    ∃ y, (predict E (ofFn [b, n] x) ⟨[⟨.fc l1, m1⟩, ⟨.activation l2, m2⟩, ⟨.fc l3, m3⟩], loss, opt, rg⟩).1 = .ok (ofFn [b, m] y) ∧
      ∀ r < b, HasNan n x r → ∀ j < m, y [r, j] = b3 [0, j] ∧ (y [r, j]).Finite := by
  have f1 : FC.forward (ofFn [b, n] x) l1 = (.ok (ofFn [b, h] (denseRow n w1 b1 x)), { l1 with input := some (ofFn [b, n] x) }) := by
    unfold FC.forward
    rw [Mut.modify_bind, Mut.get_bind, Mut.lift_apply, h1, h2, fc_affine_batch hd2]
  obtain ⟨u, f2, f3, -⟩ := C82_relu_refuted [b, h] (denseRow n w1 b1 x)
  have f4 : FC.forward (ofFn [b, h] u) l3 = (.ok (ofFn [b, m] (denseRow h w3 b3 u)), { l3 with input := some (ofFn [b, h] u) }) := by
    unfold FC.forward
    rw [Mut.modify_bind, Mut.get_bind, Mut.lift_apply, h4, h5, fc_affine_batch hd3]
  have f5 : ActLayer.forward (ofFn [b, h] (denseRow n w1 b1 x)) l2 = (.ok (ofFn [b, h] u), { l2 with input := some (ofFn [b, h] (denseRow n w1 b1 x)) }) := by
    unfold ActLayer.forward
    rw [Mut.modify_bind, Mut.get_bind, Mut.lift_apply, h3, f2]
  refine ⟨denseRow h w3 b3 u, ?_, fun r hr hn j hj => ?_⟩
  · simp only [predict, forwardLayers, Layer.forward, Layer.onKind, f1, f5, f4]
  · have hv : (b3 [0, j]).Finite := hb _ (valid2_iff.2 ⟨0, j, rfl, by omega, hj⟩)
    have hu : ∀ q, u [r, q] = 0 := by
      intro q
      apply f3
      obtain ⟨k, hk, e⟩ := hn
      show dot n _ _ + _ = _
      rw [dot_nan hk (Or.inl e), nan_add]
    have : denseRow h w3 b3 u [r, j] = b3 [0, j] := by
      show dot h (fun q => u [r, q]) (fun q => w3 [q, j]) + b3 [0, j] = _
      have hz : dot h (fun q => u [r, q]) (fun q => w3 [q, j]) = 0 := by
        apply lsum_zero
        intro v hv
        obtain ⟨q, hq, rfl⟩ := List.mem_map.1 hv
        beta_reduce
        rw [hu, zero_mul_fin (hw _ (valid2_iff.2 ⟨q, j, rfl, List.mem_range.1 hq, hj⟩))]
      rw [hz, zero_add_fin hv]
    rw [this]
    exact ⟨rfl, hv⟩

theorem forI_post {σ : Type} {n : Int} {f : Int → σ → Res σ} (P : σ → Prop) (h : ∀ i s s', P s → f i s = .ok s' → P s') :
    ∀ {s s' : σ}, P s → forI n s f = .ok s' → P s' := by
  unfold forI forN
  generalize List.range n.toNat = l
  induction l with
  | nil =>
    intro s s' hs he
    cases he
    exact hs
  | cons a l ih =>
    intro s s' hs he
    rw [List.foldlM_cons] at he
    obtain ⟨s1, h1, h2⟩ := bind_ok he
    exact ih (h _ _ _ hs h1) h2

theorem setAt_no_nan {t t' : Tensor (Ieee R)} {i : List Int} {v : Ieee R} (h : .nan ∉ t.data) (hv : v ≠ .nan) (he : t.setAt i v = .ok t') :
    .nan ∉ t'.data := by
  obtain ⟨k, -, he⟩ := bind_ok he
  obtain ⟨d, hd, he⟩ := bind_ok he
  cases he
  unfold wr at hd
  split at hd
  · cases hd
    intro hc
    rcases List.mem_or_eq_of_mem_set hc with hc | hc
    · exact h hc
    · exact hv hc.symm
  · cases hd

/-- Max pooling hides NaN: whatever the input, window, stride and padding, no entry of the result is NaN. -/
theorem C82_maxpool_refuted (l : MaxPool (Ieee R)) (hl : l.negInf ≠ .nan) (x y : Tensor (Ieee R)) (l' : MaxPool (Ieee R))
    (h : MaxPool.forward x l = (.ok y, l')) : .nan ∉ y.data := by
  unfold MaxPool.forward at h
  by_cases hr : x.shape.rank ≠ 4
  · rw [if_pos hr] at h
    cases h
  rw [if_neg hr] at h
  have h : ({ l with input := some x } : MaxPool (Ieee R)).pool x = .ok y := congrArg Prod.fst h
  have hl : ({ l with input := some x } : MaxPool (Ieee R)).negInf ≠ .nan := hl
  generalize ({ l with input := some x } : MaxPool (Ieee R)) = l at h hl
  unfold MaxPool.pool at h
  obtain ⟨b, -, h⟩ := bind_ok h
  obtain ⟨c, -, h⟩ := bind_ok h
  obtain ⟨d, -, h⟩ := bind_ok h
  obtain ⟨e, -, h⟩ := bind_ok h
  obtain ⟨oh, -, h⟩ := bind_ok h
  obtain ⟨ow, -, h⟩ := bind_ok h
  obtain ⟨s, -, h⟩ := bind_ok h
  have hfm : ∀ n ic oh ow r, l.findMax x n ic oh ow = .ok r → r.1 ≠ .nan := by
    intro n ic oh ow r hr
    unfold MaxPool.findMax at hr
    obtain ⟨h', -, hr⟩ := bind_ok hr
    obtain ⟨w', -, hr⟩ := bind_ok hr
    refine forI_post (fun st : Ieee R × Int × Int => st.1 ≠ .nan) ?_ hl hr
    intro ph st st' hs he
    split at he
    · cases he
      exact hs
    · refine forI_post (fun st : Ieee R × Int × Int => st.1 ≠ .nan) ?_ hs he
      intro pw st st' hs he
      split at he
      · cases he
        exact hs
      · obtain ⟨v, -, he⟩ := bind_ok he
        cases he
        by_cases hlt : st.1 < v
        · rw [if_pos hlt]
          rintro rfl
          exact not_lt_nan _ hlt
        · rw [if_neg hlt]
          exact hs
  refine forI_post (fun t : Tensor (Ieee R) => .nan ∉ t.data) (fun n s s' hs he => ?_) ?_ h
  · refine forI_post (fun t : Tensor (Ieee R) => .nan ∉ t.data) (fun ic s s' hs he => ?_) hs he
    refine forI_post (fun t : Tensor (Ieee R) => .nan ∉ t.data) (fun oh s s' hs he => ?_) hs he
    refine forI_post (fun t : Tensor (Ieee R) => .nan ∉ t.data) (fun ow s s' hs he => ?_) hs he
    obtain ⟨m, hm, he⟩ := bind_ok he
    exact setAt_no_nan hs (hfm _ _ _ _ _ hm) he
  · intro hc
    have : (.nan : Ieee R) = 0 := List.eq_of_mem_replicate hc
    rw [zero_def] at this
    cases this

/-! ### The hypotheses are met -/

/-- New optimizers of all three kinds satisfy `OptFor` for all layers. -/
theorem optFor_new (so : SGDOptions (Ieee R)) (ro : RMSPropOptions (Ieee R)) (ao : AdamOptions (Ieee R)) (i : Nat) (ls : List (Layer (Ieee R))) :
    OptFor (.newSGD so) i ls ∧ OptFor (.newRMSProp ro) i ls ∧ OptFor (.newAdam ao) i ls := by
  induction ls generalizing i with
  | nil => exact ⟨trivial, trivial, trivial⟩
  | cons l ls ih =>
    have h0 : ∀ (c : Nat × Bool) ds, OptAt (.newSGD so : Optimizer (Nat × Bool) (Ieee R)) c ds ∧
        OptAt (.newRMSProp ro : Optimizer (Nat × Bool) (Ieee R)) c ds ∧ OptAt (.newAdam ao : Optimizer (Nat × Bool) (Ieee R)) c ds := by
      refine fun c ds => ⟨?_, ⟨?_, ?_, ?_⟩, ⟨?_, ?_⟩⟩ <;> intro t h <;> cases h
    exact ⟨⟨fun n m w b _ => ⟨(h0 _ _).1, (h0 _ _).1⟩, (ih (i + 1)).1⟩, ⟨fun n m w b _ => ⟨(h0 _ _).2.1, (h0 _ _).2.1⟩, (ih (i + 1)).2.1⟩,
      ⟨fun n m w b _ => ⟨(h0 _ _).2.2, (h0 _ _).2.2⟩, (ih (i + 1)).2.2⟩⟩

/-- A model with two fully connected layers, sigmoid and softmax, and a new Adam optimizer, for batches of 4 samples. -/
example (w1 b1 w2 b2 : List Nat → Ieee R) (ao : AdamOptions (Ieee R)) (eps : Ieee R) :
    NanModel 4 3 2 (⟨[⟨.fc ⟨ofFn [3, 5] w1, ofFn [1, 5] b1, none, none, none⟩, true⟩, ⟨.activation ⟨.sigmoid, none⟩, true⟩,
      ⟨.fc ⟨ofFn [5, 2] w2, ofFn [1, 2] b2, none, none, none⟩, true⟩, ⟨.activation ⟨.softmax, none⟩, true⟩],
      some (.crossEntropy eps), some (.newAdam ao), ()⟩ : Net Unit (Ieee R)) where
  stack := .cons (.dense ⟨by simp, by simp, by decide⟩ ⟨by simp, by simp, by decide⟩ ⟨by simp, by simp, by decide⟩ rfl rfl)
    (.cons (.act ⟨by simp, by simp, by decide⟩ trivial) (.cons (.dense ⟨by simp, by simp, by decide⟩ ⟨by simp, by simp, by decide⟩ ⟨by simp, by simp, by decide⟩ rfl rfl)
      (.cons (.act ⟨by simp, by simp, by decide⟩ trivial) (.nil 2))))
  dims := ⟨by simp, by simp, by decide⟩
  trainable := ⟨_, List.mem_cons_self .., trivial⟩
  loss := ⟨_, rfl⟩
  optimizer := ⟨_, rfl, (optFor_new ⟨0, 0, 0, 0, false⟩ ⟨0, 0, 0, 0, false, 0⟩ ao 0 _).2.2⟩

/-- Data with one NaN, in the second entry of the third row of the second input. -/
example : ∃ p ∈ [((fun _ => 0 : List Nat → Ieee R), (fun _ => 0 : List Nat → Ieee R)), ((fun i => if i = [2, 1] then .nan else 0), fun _ => 1)],
    ∃ r < 4, HasNan 3 p.1 r :=
  ⟨_, List.mem_cons_of_mem _ (List.mem_cons_self ..), 2, by omega, 1, by omega, by simp⟩

/-- A model with a NaN bias. -/
example : SomeNan (⟨.fc ⟨ofFn [3, 5] (fun _ => 0), ofFn [1, 5] (fun _ => .nan), none, none, none⟩, true⟩ : Layer (Ieee R)) :=
  ⟨_, rfl, Or.inr ((nan_mem_ofFn).2 ⟨[0, 0], by simp [ValidIdx], rfl⟩)⟩

/-- A parameter with a new optimizer, as `C82_optimizer` requires. -/
example (so : SGDOptions (Ieee R)) : OptAt (.newSGD so : Optimizer Nat (Ieee R)) 7 [3, 2] := by
  intro t h
  cases h

theorem forI_one {σ : Type} (s : σ) (f : Int → σ → Res σ) : forI 1 s f = f 0 s := by
  show (f 0 s >>= fun s => pure s) = _
  exact bind_pure _

/-- Max pooling of a plane of NaN gives `-inf`. -/
example : (MaxPool.forward (ofFn [1, 1, 1, 1] (fun _ => .nan)) (MaxPool.new (.inf true : Ieee R) 1 1 0)).1 = .ok (ofFn [1, 1, 1, 1] fun _ => .inf true) := by
  have hlt : ¬ (.inf true : Ieee R) < .nan := not_lt_nan _
  have hd : Dims [1, 1, 1, 1] := ⟨by simp, by simp, by decide⟩
  have ha := at_ofFn (T := Ieee R) hd (fun _ => .nan) (idx := [0, 0, 0, 0]) (by simp [ValidIdx])
  rw [ints4] at ha
  have hs := setAt_ofFn (T := Ieee R) hd (fun _ => 0) (idx := [0, 0, 0, 0]) (by simp [ValidIdx]) (.inf true)
  rw [ints4] at hs
  push_cast at ha hs
  unfold MaxPool.forward
  rw [if_neg (by simp)]
  simp only [Mut.modify_bind, Mut.get_bind, Mut.lift_apply, MaxPool.new]
  unfold MaxPool.pool MaxPool.findMax MaxPool.outDim
  have hm : Shape.make [((1 : Nat) : Int), ((1 : Nat) : Int), 1, 1] = .ok (shapeOf [1, 1, 1, 1]) := make_dims hd
  have h1 : ((((1 : Nat) : Int)) - 1).tdiv 1 + 1 = 1 := by decide
  simp only [ofFn_shape, get0, get1, get2, get3, Except.bind_ok', if_neg (show ¬ (1 : Int) = 0 by decide), h1, hm, zeros_shapeOf]
  simp only [Nat.cast_one, forI_one]
  norm_num
  rw [ha]
  simp only [Except.bind_ok', if_neg hlt, hs]
  congr 1

end SmartDNN
