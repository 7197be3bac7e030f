import Verif.Proofs.TensorOps
import Verif.Proofs.Elementwise
import Verif.Model.AdvOps
import Mathlib.Data.Rat.Defs
import Mathlib.Algebra.Order.Field.Basic

/-!
# Properties C06 - C09: element-wise arithmetic, compound assignment, scalars, maps
-/

namespace SmartDNN
open Spec

/-! ## C06 -/

/-- `a + b`, `a - b`, `a * b`, `a / b` on broadcastable shapes: the broadcast shape, and at every
index the operation applied to the operands' elements at the projected indices. -/
theorem C06_elementwise {T : Type} [Zero T] [Add T] [Sub T] [Mul T] [Div T] (a b : List Nat)
    (ha : Dims a) (hb : Dims b) (h : Compat a b) (f g : List Nat → T) :
    (ofFn a f).add (ofFn b g) = .ok (ofFn (bdims a b) (fun i => f (proj a i) + g (proj b i))) ∧
    (ofFn a f).sub (ofFn b g) = .ok (ofFn (bdims a b) (fun i => f (proj a i) - g (proj b i))) ∧
    (ofFn a f).mul (ofFn b g) = .ok (ofFn (bdims a b) (fun i => f (proj a i) * g (proj b i))) ∧
    (ofFn a f).div (ofFn b g) = .ok (ofFn (bdims a b) (fun i => f (proj a i) / g (proj b i))) :=
  ⟨binop_ofFn _ ha hb h f g, binop_ofFn _ ha hb h f g, binop_ofFn _ ha hb h f g,
    binop_ofFn _ ha hb h f g⟩

/-- The projected indices are valid, so every read is inside the operands' buffers. -/
theorem bdims_proj_valid (a b idx : List Nat) (ha : ∀ d ∈ a, 0 < d) (hb : ∀ d ∈ b, 0 < d)
    (h : Compat a b) (hv : ValidIdx (bdims a b) idx) :
    ValidIdx a (proj a idx) ∧ ValidIdx b (proj b idx) :=
  ⟨proj_valid (stretches_bdims_left ha hb h) hv, proj_valid (stretches_bdims_right ha hb h) hv⟩

/-- For equal shapes the projection is the identity: plain element-wise arithmetic. -/
theorem C06_same_shape {T : Type} [Zero T] [Add T] [Sub T] [Mul T] [Div T] (a : List Nat)
    (ha : Dims a) (f g : List Nat → T) :
    (ofFn a f).add (ofFn a g) = .ok (ofFn a (fun i => f i + g i)) ∧
    (ofFn a f).sub (ofFn a g) = .ok (ofFn a (fun i => f i - g i)) ∧
    (ofFn a f).mul (ofFn a g) = .ok (ofFn a (fun i => f i * g i)) ∧
    (ofFn a f).div (ofFn a g) = .ok (ofFn a (fun i => f i / g i)) := by
  have key : ∀ op : T → T → T, (ofFn a f).binop op (ofFn a g) = .ok (ofFn a (fun i => op (f i) (g i))) := by
    intro op
    rw [binop_ofFn op ha ha (compat_self a), bdims_self ha.pos]
    congr 1
    apply ofFn_congr
    intro idx hv
    rw [proj_self hv]
  exact ⟨key _, key _, key _, key _⟩

/-- Shapes that do not broadcast throw `std::invalid_argument`. -/
theorem C06_rejects {T : Type} [Zero T] [Add T] [Sub T] [Mul T] [Div T] (a b : List Nat)
    (h : ¬ Compat a b) (f g : List Nat → T) :
    (ofFn a f).add (ofFn b g) = .error .invalidArgument ∧
    (ofFn a f).sub (ofFn b g) = .error .invalidArgument ∧
    (ofFn a f).mul (ofFn b g) = .error .invalidArgument ∧
    (ofFn a f).div (ofFn b g) = .error .invalidArgument :=
  ⟨binop_err _ h f g, binop_err _ h f g, binop_err _ h f g, binop_err _ h f g⟩

example : (ofFn [2, 1] (fun i => (i.getD 0 0 : Int))).sub (ofFn [3] (fun i => (10 * i.getD 0 0 : Int))) =
    .ok (ofFn [2, 3] (fun i => (i.getD 0 0 : Int) - 10 * i.getD 1 0)) := rfl
example : Compat [2, 1] [3] ∧ Dims [2, 1] ∧ Dims [3] :=
  ⟨by decide, ⟨by simp, by simp, by simp⟩, ⟨by simp, by simp, by simp⟩⟩

/-! ## C07 -/

/-- `a op= b` when the shapes broadcast to a shape with as many elements as `a`: succeeds, `a` keeps
its shape and holds the flat elements of `a op b`. -/
theorem C07_assign_ok {T : Type} [Zero T] (op : T → T → T) (a b : List Nat) (ha : Dims a) (hb : Dims b)
    (h : Compat a b) (hsz : (bdims a b).prod = a.prod) (f g : List Nat → T) :
    ∃ c, (ofFn a f).binop op (ofFn b g) = .ok c ∧
      Tensor.binopInPlaceM op (some (ofFn b g)) (ofFn a f) = (.ok (), ⟨(ofFn a f).shape, c.data⟩) := by
  refine ⟨_, binop_ofFn op ha hb h f g, ?_⟩
  rw [inplace_ok op ha hb h hsz]
  congr 2
  have hflat : (indices a).map f = (indices (bdims a b)).map (fun idx => f (proj a idx)) := by
    -- `a` stretches to a shape with the same number of elements, so only 1-dimensions are added
    have hst := stretches_bdims_left ha.pos hb.pos h
    exact (stretch_same_size hst ha.pos (bdims_pos ha.pos) hsz f).symm
  rw [hflat, List.zipWith_map, List.zipWith_self]
  rfl

/-- When the shapes broadcast to exactly `a`'s shape (the usual case) the new value is `a op b`. -/
theorem C07_assign_same_shape {T : Type} [Zero T] (op : T → T → T) (a b : List Nat) (ha : Dims a)
    (hb : Dims b) (h : Stretches b a) (f g : List Nat → T) :
    Tensor.binopInPlaceM op (some (ofFn b g)) (ofFn a f) =
      (.ok (), ofFn a (fun i => op (f i) (g (proj b i)))) := by
  have hbd := h.bdims_eq ha.pos hb.pos
  rw [inplace_ok op ha hb h.compat.symm (by rw [hbd]), hbd, List.zipWith_map, List.zipWith_self]
  rfl

/-- Self-assignment `a op= a`: although the view reads the buffer that is being written, the result is
the element-wise `a op a`. -/
theorem C07_self {T : Type} (op : T → T → T) (a : List Nat) (ha : Dims a) (f : List Nat → T) :
    Tensor.binopInPlaceM op none (ofFn a f) = (.ok (), ofFn a (fun i => op (f i) (f i))) :=
  inplace_alias_ok op ha f

/-- In every other case an exception is thrown and `a` is unchanged. -/
theorem C07_fails_cleanly {T : Type} (op : T → T → T) (a b : List Nat) (ha : Dims a) (hb : Dims b)
    (h : ¬ (Compat a b ∧ (bdims a b).prod = a.prod)) (f g : List Nat → T) :
    ∃ e, e.isException = true ∧
      Tensor.binopInPlaceM op (some (ofFn b g)) (ofFn a f) = (.error e, ofFn a f) := by
  refine ⟨_, ?_, inplace_err op ha hb h f g⟩
  split_ifs <;> rfl

/-- The four compound operators are these instances. -/
theorem C07_operators {T : Type} [Add T] [Sub T] [Mul T] [Div T] (a b : List Nat) (ha : Dims a)
    (hb : Dims b) (h : Stretches b a) (f g : List Nat → T) :
    (ofFn a f).addAssign (some (ofFn b g)) = .ok (ofFn a (fun i => f i + g (proj b i))) ∧
    (ofFn a f).subAssign (some (ofFn b g)) = .ok (ofFn a (fun i => f i - g (proj b i))) ∧
    (ofFn a f).mulAssign (some (ofFn b g)) = .ok (ofFn a (fun i => f i * g (proj b i))) ∧
    (ofFn a f).divAssign (some (ofFn b g)) = .ok (ofFn a (fun i => f i / g (proj b i))) := by
  have hbd := h.bdims_eq ha.pos hb.pos
  have key : ∀ op : T → T → T, Tensor.binopInPlace op (ofFn a f) (some (ofFn b g)) =
      .ok (ofFn a (fun i => op (f i) (g (proj b i)))) := by
    intro op
    unfold Tensor.binopInPlace Mut.exec
    rw [inplace_ok op ha hb h.compat.symm (by rw [hbd]), hbd, List.zipWith_map, List.zipWith_self]
    rfl
  exact ⟨key _, key _, key _, key _⟩

example : Tensor.binopInPlaceM (· - ·) (some (ofFn [3] (fun i => (i.getD 0 0 : Int))))
    (ofFn [2, 3] (fun i => (10 * i.getD 0 0 : Int))) =
    (.ok (), ofFn [2, 3] (fun i => 10 * (i.getD 0 0 : Int) - i.getD 1 0)) := rfl
/-- same size, larger rank: the shape of `a` is kept -/
example : (Tensor.binopInPlaceM (· + ·) (some (ofFn [1, 3] (fun i => (i.getD 1 0 : Int))))
    (ofFn [3] (fun i => (i.getD 0 0 : Int)))).2.shape.dims = [3] := rfl
example : Compat [3] [1, 3] ∧ (bdims [3] [1, 3]).prod = [3].prod := ⟨by decide, rfl⟩
example : ¬ (Compat [3] [2, 3] ∧ (bdims [3] [2, 3]).prod = [3].prod) := by decide

/-! ## C08 -/

/-- Scalar arithmetic maps every element and keeps the shape. -/
theorem C08_scalar_ops {T : Type} [CommRing T] [Div T] (ds : List Nat) (f : List Nat → T) (s : T) :
    (ofFn ds f).addScalar s = .ok (ofFn ds (fun i => f i + s)) ∧
    (ofFn ds f).subScalar s = .ok (ofFn ds (fun i => f i - s)) ∧
    (ofFn ds f).mulScalar s = .ok (ofFn ds (fun i => f i * s)) ∧
    Tensor.scalarSub s (ofFn ds f) = .ok (ofFn ds (fun i => s - f i)) ∧
    Tensor.scalarDiv s (ofFn ds f) = .ok (ofFn ds (fun i => s / f i)) ∧
    (ofFn ds f).neg = .ok (ofFn ds (fun i => - f i)) := by
  refine ⟨map_ofFn .., map_ofFn .., map_ofFn .., ?_, scalarDiv_ofFn .., ?_⟩
  · rw [scalarSub_ofFn]
    congr 1
    apply ofFn_congr
    intro i _
    ring
  · rw [neg_ofFn]
    congr 1
    apply ofFn_congr
    intro i _
    ring

/-- `operator+=` with a scalar. -/
theorem C08_add_assign {T : Type} [Add T] (ds : List Nat) (f : List Nat → T) (s : T) :
    (ofFn ds f).addScalarAssign s = .ok (ofFn ds (fun i => f i + s)) := mapInPlace_ofFn ..

/-- Division by a non-zero scalar maps every element. -/
theorem C08_div_ok {T : Type} [Zero T] [DecidableEq T] [Div T] (ds : List Nat) (f : List Nat → T) (s : T)
    (hs : s ≠ 0) : (ofFn ds f).divScalar s = .ok (ofFn ds (fun i => f i / s)) ∧
      (ofFn ds f).divScalarAssign s = .ok (ofFn ds (fun i => f i / s)) := by
  unfold Tensor.divScalar Tensor.divScalarAssign
  rw [if_neg hs, if_neg hs]
  exact ⟨map_ofFn .., mapInPlace_ofFn ..⟩

/-- Division by zero throws `std::invalid_argument` (for any tensor), also in place. -/
theorem C08_div_zero {T : Type} [Zero T] [DecidableEq T] [Div T] (t : Tensor T) :
    t.divScalar 0 = .error .invalidArgument ∧ t.divScalarAssign 0 = .error .invalidArgument := by
  unfold Tensor.divScalar Tensor.divScalarAssign
  simp

example : Tensor.scalarSub 5 (ofFn [2, 2] (fun i => (i.getD 0 0 : Int))) =
    .ok (ofFn [2, 2] (fun i => 5 - (i.getD 0 0 : Int))) := rfl
example : (3 : ℚ) ≠ 0 := by norm_num

/-! ## C09 -/

/-- `apply` (fresh and in place) is the pointwise map. -/
theorem C09_apply {T : Type} (ds : List Nat) (f : List Nat → T) (φ : T → T) :
    (ofFn ds f).apply φ = .ok (ofFn ds (fun i => φ (f i))) ∧
    (ofFn ds f).mapInPlace φ = .ok (ofFn ds (fun i => φ (f i))) :=
  ⟨map_ofFn ds f φ, mapInPlace_ofFn ds f φ⟩

/-- `applyPair` on equal shapes. -/
theorem C09_applyPair {T : Type} [Zero T] (ds : List Nat) (f g : List Nat → T) (φ : T → T → T) :
    (ofFn ds f).applyPair (ofFn ds g) φ = .ok (ofFn ds (fun i => φ (f i) (g i))) :=
  applyPair_ofFn ds f g φ

/-- `applyPair` on different shapes throws `std::invalid_argument`. -/
theorem C09_applyPair_rejects {T : Type} [Zero T] (a b : List Nat) (h : a ≠ b) (f g : List Nat → T)
    (φ : T → T → T) : (ofFn a f).applyPair (ofFn b g) φ = .error .invalidArgument :=
  applyPair_err h f g φ

/-- `reciprocal` over an ordered field. -/
theorem C09_reciprocal {T : Type} [Field T] [LinearOrder T] (ds : List Nat) (f : List Nat → T) (eps : T) :
    (ofFn ds f).reciprocal (fun x e => decide (|x| > e)) eps =
      .ok (ofFn ds (fun i => if |f i| > eps then 1 / f i else 1 / eps)) := by
  unfold Tensor.reciprocal
  rw [(C09_apply ds f _).1]
  simp only [decide_eq_true_eq]

example : (ofFn [2] (fun i => (i.getD 0 0 : Int))).applyPair (ofFn [2] (fun i => (7 * i.getD 0 0 : Int)))
    (fun x y => x * 100 + y) = .ok (ofFn [2] (fun i => 107 * (i.getD 0 0 : Int))) := rfl

end SmartDNN
