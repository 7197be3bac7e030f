import Verif.Proofs.Mean
import Verif.Proofs.Slices
import Mathlib.Algebra.BigOperators.Ring.Finset

/-!
# Properties C14 - C17: transposition and matrix products
-/

namespace SmartDNN
open Spec

/-! ## C14 -/

/-- `transpose(t, i, j)`: dimensions and coordinates `i`, `j` exchanged. -/
theorem C14_transpose {T : Type} [Zero T] (ds : List Nat) (hd : Dims ds) (a b : Nat) (ha : a < ds.length)
    (hb : b < ds.length) (f : List Nat → T) :
    (ofFn ds f).transpose a b = .ok (ofFn (swapped a b ds) (fun idx => f (swapped a b idx))) :=
  transpose_ofFn hd ha hb f

/-- What `swapped` means: entry `i` of the exchanged list is entry `b` at `a`, entry `a` at `b`, and
entry `i` elsewhere. -/
theorem swapped_meaning {α : Type} (a b : Nat) (x : List α) (ha : a < x.length) (hb : b < x.length) (i : Nat) :
    (swapped a b x)[i]? = x[if i = a then b else if i = b then a else i]? := swapped_getElem? ha hb i

/-- It throws `std::invalid_argument` when an axis is out of range. -/
theorem C14_rejects {T : Type} [Zero T] (ds : List Nat) (a b : Nat) (h : ds.length ≤ a ∨ ds.length ≤ b)
    (f : List Nat → T) : (ofFn ds f).transpose a b = .error .invalidArgument := transpose_err h f

/-- Transposing twice gives back the tensor. -/
theorem C14_involution {T : Type} [Zero T] (ds : List Nat) (hd : Dims ds) (a b : Nat) (ha : a < ds.length)
    (hb : b < ds.length) (f : List Nat → T) :
    (do let t ← (ofFn ds f).transpose a b; t.transpose a b) = .ok (ofFn ds f) := by
  rw [transpose_ofFn hd ha hb]
  simp only [Except.bind_ok']
  rw [transpose_ofFn (dims_swapped hd ha hb) (by rw [swapped_length]; exact ha) (by rw [swapped_length]; exact hb),
    swapped_swapped ha hb]
  congr 1
  apply ofFn_congr
  intro idx hv
  rw [swapped_swapped (by rw [hv.length]; exact ha) (by rw [hv.length]; exact hb)]

/-- `transpose(t, i, i)` is `t`. -/
theorem C14_same_axis {T : Type} [Zero T] (ds : List Nat) (hd : Dims ds) (a : Nat) (ha : a < ds.length)
    (f : List Nat → T) : (ofFn ds f).transpose a a = .ok (ofFn ds f) := by
  rw [transpose_ofFn hd ha ha, swapped_same ha]
  congr 1
  apply ofFn_congr
  intro idx hv
  rw [swapped_same (by rw [hv.length]; exact ha)]

/-- The order of the two axes is irrelevant. -/
theorem C14_symmetric {T : Type} [Zero T] (ds : List Nat) (hd : Dims ds) (a b : Nat) (f : List Nat → T) :
    (ofFn ds f).transpose a b = (ofFn ds f).transpose b a := by
  by_cases h : a < ds.length ∧ b < ds.length
  · obtain ⟨ha, hb⟩ := h
    rw [transpose_ofFn hd ha hb, transpose_ofFn hd hb ha, swapped_comm ha hb]
    congr 1
    apply ofFn_congr
    intro idx hv
    have hl := hv.length
    rw [swapped_length] at hl
    rw [swapped_comm (by rw [hl]; exact ha) (by rw [hl]; exact hb)]
  · rw [transpose_err (by omega), transpose_err (by omega)]

example : (ofFn [2, 3, 4] (fun i => 100 * i.getD 0 0 + 10 * i.getD 1 0 + i.getD 2 0)).transpose 0 2 =
    .ok (ofFn [4, 3, 2] (fun i => 100 * i.getD 2 0 + 10 * i.getD 1 0 + i.getD 0 0)) := by rfl
example : Dims [2, 3, 4] := ⟨by simp, by simp, by simp⟩

/-! ## C15 -/

/-- 2-D `matmul`: element `(i, j)` is the sum over `p` (in increasing order) of `a(i,p) * b(p,j)`. -/
theorem C15_product {T : Type} [Zero T] [Add T] [Mul T] (m k n : Nat) (h : Dims [m, n]) (f g : List Nat → T) :
    (ofFn [m, k] f).matmul (ofFn [k, n] g) = .ok (ofFn [m, n] (fun idx =>
      dot k (fun p => f [idx.getD 0 0, p]) (fun p => g [p, idx.getD 1 0]))) := by
  rw [matmul_22, matrixMatrixMul_ok h]

/-- Different inner dimensions are rejected. -/
theorem C15_rejects {T : Type} [Zero T] [Add T] [Mul T] (m k k' n : Nat) (h : k ≠ k') (f g : List Nat → T) :
    (ofFn [m, k] f).matmul (ofFn [k', n] g) = .error .invalidArgument := by
  rw [matmul_22, matrixMatrixMul_err h]

theorem dot_eq_sum {T : Type} [NonUnitalNonAssocSemiring T] (k : Nat) (x y : Nat → T) :
    dot k x y = ∑ p ∈ Finset.range k, x p * y p := by
  unfold dot
  rw [lsum_eq_sum, ← List.sum_toFinset _ List.nodup_range, List.toFinset_range]

/-- The product is associative (exact arithmetic). -/
theorem C15_assoc {T : Type} [Semiring T] (m k l n : Nat) (h1 : Dims [m, l]) (h2 : Dims [k, n])
    (h3 : Dims [m, n]) (f g h : List Nat → T) :
    (do let ab ← (ofFn [m, k] f).matmul (ofFn [k, l] g); ab.matmul (ofFn [l, n] h)) =
    (do let bc ← (ofFn [k, l] g).matmul (ofFn [l, n] h); (ofFn [m, k] f).matmul bc) := by
  rw [C15_product m k l h1, C15_product k l n h2]
  simp only [Except.bind_ok']
  rw [C15_product m l n h3, C15_product m k n h3]
  congr 1
  apply ofFn_congr
  intro idx _
  simp only [dot_eq_sum, Finset.sum_mul, Finset.mul_sum, List.getD_cons_zero, List.getD_cons_succ]
  rw [Finset.sum_comm]
  simp only [mul_assoc]

/-- The product distributes over tensor addition on the right ... -/
theorem C15_distrib_right {T : Type} [Semiring T] (m k n : Nat) (ha : Dims [m, k]) (h : Dims [m, n])
    (f g u : List Nat → T) :
    (do let s ← (ofFn [m, k] f).add (ofFn [m, k] g); s.matmul (ofFn [k, n] u)) =
    (do let x ← (ofFn [m, k] f).matmul (ofFn [k, n] u)
        let y ← (ofFn [m, k] g).matmul (ofFn [k, n] u)
        x.add y) := by
  rw [C15_product m k n h, C15_product m k n h]
  unfold Tensor.add
  rw [binop_ofFn _ ha ha (compat_self _), bdims_self ha.pos]
  simp only [Except.bind_ok']
  rw [binop_ofFn _ h h (compat_self _), bdims_self h.pos, C15_product m k n h]
  congr 1
  apply ofFn_congr
  intro idx hv
  obtain ⟨i, j, rfl, hi, hj⟩ := valid2_iff.1 hv
  rw [proj_self hv]
  simp only [dot_eq_sum, List.getD_cons_zero, List.getD_cons_succ]
  rw [← Finset.sum_add_distrib]
  apply Finset.sum_congr rfl
  intro p hp
  rw [proj_self (valid2.2 ⟨hi, by simpa using hp⟩), add_mul]

/-- ... and on the left. -/
theorem C15_distrib_left {T : Type} [Semiring T] (m k n : Nat) (hb : Dims [k, n]) (h : Dims [m, n])
    (f g u : List Nat → T) :
    (do let s ← (ofFn [k, n] f).add (ofFn [k, n] g); (ofFn [m, k] u).matmul s) =
    (do let x ← (ofFn [m, k] u).matmul (ofFn [k, n] f)
        let y ← (ofFn [m, k] u).matmul (ofFn [k, n] g)
        x.add y) := by
  rw [C15_product m k n h, C15_product m k n h]
  unfold Tensor.add
  rw [binop_ofFn _ hb hb (compat_self _), bdims_self hb.pos]
  simp only [Except.bind_ok']
  rw [binop_ofFn _ h h (compat_self _), bdims_self h.pos, C15_product m k n h]
  congr 1
  apply ofFn_congr
  intro idx hv
  obtain ⟨i, j, rfl, hi, hj⟩ := valid2_iff.1 hv
  rw [proj_self hv]
  simp only [dot_eq_sum, List.getD_cons_zero, List.getD_cons_succ]
  rw [← Finset.sum_add_distrib]
  apply Finset.sum_congr rfl
  intro p hp
  rw [proj_self (valid2.2 ⟨by simpa using hp, hj⟩), mul_add]

/-- `identity(n)` is a right unit ... -/
theorem C15_identity_right {T : Type} [Semiring T] (m n : Nat) (ha : Dims [m, n]) (hn : Dims [n, n])
    (f : List Nat → T) :
    (do let e ← (Tensor.identity (n : Int) : Res (Tensor T)); (ofFn [m, n] f).matmul e) = .ok (ofFn [m, n] f) := by
  rw [identity_ok hn]
  simp only [Except.bind_ok']
  rw [C15_product m n n ha]
  congr 1
  apply ofFn_congr
  intro idx hv
  obtain ⟨i, j, rfl, hi, hj⟩ := valid2_iff.1 hv
  simp only [dot_eq_sum, List.getD_cons_zero, List.getD_cons_succ, mul_ite, mul_one, mul_zero]
  rw [Finset.sum_ite_eq' (Finset.range n) j (fun p => f [i, p]), if_pos (by simpa using hj)]

/-- ... and a left unit. -/
theorem C15_identity_left {T : Type} [Semiring T] (m n : Nat) (ha : Dims [m, n]) (hm : Dims [m, m])
    (f : List Nat → T) :
    (do let e ← (Tensor.identity (m : Int) : Res (Tensor T)); e.matmul (ofFn [m, n] f)) = .ok (ofFn [m, n] f) := by
  rw [identity_ok hm]
  simp only [Except.bind_ok']
  rw [C15_product m m n ha]
  congr 1
  apply ofFn_congr
  intro idx hv
  obtain ⟨i, j, rfl, hi, hj⟩ := valid2_iff.1 hv
  simp only [dot_eq_sum, List.getD_cons_zero, List.getD_cons_succ, ite_mul, one_mul, zero_mul]
  rw [Finset.sum_ite_eq (Finset.range m) i (fun p => f [p, j]), if_pos (by simpa using hi)]

/-- The transpose of a product is the product of the transposes in the other order. -/
theorem C15_transpose {T : Type} [CommSemiring T] (m k n : Nat) (ha : Dims [m, k]) (hb : Dims [k, n])
    (h : Dims [m, n]) (f g : List Nat → T) :
    (do let p ← (ofFn [m, k] f).matmul (ofFn [k, n] g); p.transpose 0 1) =
    (do let bt ← (ofFn [k, n] g).transpose 0 1
        let at_ ← (ofFn [m, k] f).transpose 0 1
        bt.matmul at_) := by
  have sw : ∀ x y : Nat, swapped 0 1 [x, y] = [y, x] := fun x y => rfl
  have hs : Dims [n, m] := by have := dims_swapped h (a := 0) (b := 1) (by simp) (by simp); rwa [sw] at this
  rw [C15_product m k n h, transpose_ofFn hb (by simp) (by simp), transpose_ofFn ha (by simp) (by simp)]
  simp only [Except.bind_ok']
  rw [transpose_ofFn h (by simp) (by simp), sw, sw, sw, C15_product n k m hs]
  congr 1
  apply ofFn_congr
  intro idx hv
  obtain ⟨i, j, rfl, hi, hj⟩ := valid2_iff.1 hv
  simp only [dot_eq_sum, List.getD_cons_zero, List.getD_cons_succ, sw, mul_comm]

example : Dims [2, 3] ∧ Dims [3, 4] ∧ Dims [2, 4] :=
  ⟨⟨by simp, by simp, by simp⟩, ⟨by simp, by simp, by simp⟩, ⟨by simp, by simp, by simp⟩⟩
example : (ofFn [2, 2] (fun i => (2 * i.getD 0 0 + i.getD 1 0 : Int))).matmul
    (ofFn [2, 2] (fun i => (2 * i.getD 0 0 + i.getD 1 0 : Int))) =
    .ok ⟨shapeOf [2, 2], [2, 3, 6, 11]⟩ := by rfl

/-! ## C16 -/

/-- vector . vector: the dot product. -/
theorem C16_vec_vec {T : Type} [Zero T] [Add T] [Mul T] (n : Nat) (f g : List Nat → T) :
    (ofFn [n] f).matmul (ofFn [n] g) = .ok (ofFn [1] (fun _ => dot n (fun p => f [p]) (fun p => g [p]))) := by
  rw [matmul_11, dotProduct_ok]

/-- vector . matrix. -/
theorem C16_vec_mat {T : Type} [Zero T] [Add T] [Mul T] (k n : Nat) (hk : Dims [k]) (hn : Dims [n])
    (f g : List Nat → T) :
    (ofFn [k] f).matmul (ofFn [k, n] g) = .ok (ofFn [n] (fun idx =>
      dot k (fun p => f [p]) (fun p => g [p, idx.getD 0 0]))) := matmul_12_ok hk hn f g

/-- matrix . vector. -/
theorem C16_mat_vec {T : Type} [Zero T] [Add T] [Mul T] (m n : Nat) (hm : Dims [m]) (f g : List Nat → T) :
    (ofFn [m, n] f).matmul (ofFn [n] g) = .ok (ofFn [m] (fun idx =>
      dot n (fun p => f [idx.getD 0 0, p]) (fun p => g [p]))) := by
  rw [matmul_21, matrixVectorMul_ok hm]

/-- 3-D . 2-D: every matrix of the batch times the matrix. -/
theorem C16_3d_2d {T : Type} [Zero T] [Add T] [Mul T] (b m k n : Nat) (ha : Dims [b, m, k]) (hb : Dims [k, n])
    (h : Dims [b, m, n]) (f g : List Nat → T) :
    (ofFn [b, m, k] f).matmul (ofFn [k, n] g) = .ok (ofFn [b, m, n] (fun idx =>
      dot k (fun p => f [idx.getD 0 0, idx.getD 1 0, p]) (fun p => g [p, idx.getD 2 0]))) := by
  rw [matmul_32, matmul3D2D_ok ha hb h]

/-- 2-D . 3-D: the matrix times every matrix of the batch. -/
theorem C16_2d_3d {T : Type} [Zero T] [Add T] [Mul T] (b m k n : Nat) (ha : Dims [m, k]) (hb : Dims [b, k, n])
    (h : Dims [b, m, n]) (f g : List Nat → T) :
    (ofFn [m, k] f).matmul (ofFn [b, k, n] g) = .ok (ofFn [b, m, n] (fun idx =>
      dot k (fun p => f [idx.getD 1 0, p]) (fun p => g [idx.getD 0 0, p, idx.getD 2 0]))) := by
  rw [matmul_23, matmul2D3D_ok ha hb h]

/-- N-D . N-D with equal batch dimensions `bs`: at batch index `x`, element `(i, j)` is the 2-D product
of the two matrices at `x`. -/
theorem C16_batched {T : Type} [Zero T] [Add T] [Mul T] (bs : List Nat) (hbs : bs ≠ []) (m k n : Nat)
    (ha : Dims (bs ++ [m, k])) (hb : Dims (bs ++ [k, n])) (h : Dims (bs ++ [m, n])) (f g : List Nat → T) :
    ∃ r, (ofFn (bs ++ [m, k]) f).matmul (ofFn (bs ++ [k, n]) g) = .ok (ofFn (bs ++ [m, n]) r) ∧
      ∀ x i j, ValidIdx bs x → i < m → j < n →
        r (x ++ [i, j]) = dot k (fun p => f (x ++ [i, p])) (fun p => g (x ++ [p, j])) := by
  refine ⟨_, by rw [matmul_batched hbs rfl, batchedMatmul_ok hbs ha hb h], ?_⟩
  intro x i j hx _ _
  have hl := hx.length
  have e1 : (x ++ [i, j]).take bs.length = x := by rw [← hl]; simp
  have e2 : (x ++ [i, j]).getD bs.length 0 = i := by rw [← hl]; simp [List.getD_eq_getElem?_getD]
  have e3 : (x ++ [i, j]).getD (bs.length + 1) 0 = j := by rw [← hl]; simp [List.getD_eq_getElem?_getD]
  simp only [e1, e2, e3]

/-- The rank pairs for which a product exists. -/
def Multipliable (ra rb : Nat) : Prop :=
  (1 ≤ ra ∧ ra ≤ 2 ∧ 1 ≤ rb ∧ rb ≤ 2) ∨ (ra = 3 ∧ rb = 2) ∨ (ra = 2 ∧ rb = 3) ∨ (ra = rb ∧ 3 ≤ ra)

/-- The dimensions contracted by the product: the last of the left operand, the last but one of the
right operand (the only one of a vector). -/
def innerL (a : List Nat) : Nat := a.getLastD 0
def innerR (b : List Nat) : Nat := if b.length = 1 then b.getD 0 0 else b.getD (b.length - 2) 0

/-- Every other rank combination throws `std::invalid_argument`. -/
theorem C16_rejects_ranks {T : Type} [Zero T] [Add T] [Mul T] (a b : List Nat) (ha : Dims a) (hb : Dims b)
    (h : ¬ Multipliable a.length b.length) (f g : List Nat → T) :
    (ofFn a f).matmul (ofFn b g) = .error .invalidArgument := by
  have h1 : 0 < a.length := List.length_pos_iff.2 ha.ne
  have h2 : 0 < b.length := List.length_pos_iff.2 hb.ne
  exact matmul_rank_err ha.ne hb.ne (by unfold Multipliable at h; omega) f g

theorem split_last2 {l : List Nat} (h : 2 ≤ l.length) : ∃ bs x y, l = bs ++ [x, y] ∧ bs.length = l.length - 2 := by
  obtain ⟨xs, y, rfl⟩ := List.eq_nil_or_concat l |>.resolve_left (by rintro rfl; simp at h)
  obtain ⟨bs, x, rfl⟩ := List.eq_nil_or_concat xs |>.resolve_left (by rintro rfl; simp at h)
  exact ⟨bs, x, y, by simp, by simp⟩

/-- Every inner-dimension mismatch throws `std::invalid_argument`. -/
theorem C16_rejects_inner {T : Type} [Zero T] [Add T] [Mul T] (a b : List Nat) (ha : Dims a) (hb : Dims b)
    (h : innerL a ≠ innerR b) (f g : List Nat → T) :
    (ofFn a f).matmul (ofFn b g) = .error .invalidArgument := by
  by_cases hm : Multipliable a.length b.length
  · rcases hm with ⟨h1, h2, h3, h4⟩ | ⟨h1, h2⟩ | ⟨h1, h2⟩ | ⟨h1, h2⟩
    · match a, b, h1, h2, h3, h4 with
      | [x], [y], _, _, _, _ => rw [matmul_11, dotProduct_err (by simpa [innerL, innerR] using h)]
      | [x], [y, z], _, _, _, _ => exact matmul_12_err ha (by simpa [innerL, innerR] using h) f g
      | [w, x], [y], _, _, _, _ => rw [matmul_21, matrixVectorMul_err (by simpa [innerL, innerR] using h)]
      | [w, x], [y, z], _, _, _, _ => exact C15_rejects _ _ _ _ (by simpa [innerL, innerR] using h) f g
    · match a, b, h1, h2 with
      | [v, w, x], [y, z], _, _ => rw [matmul_32, matmul3D2D_err (by simpa [innerL, innerR] using h)]
    · match a, b, h1, h2 with
      | [w, x], [u, y, z], _, _ => rw [matmul_23, matmul2D3D_err (by simpa [innerL, innerR] using h)]
    · obtain ⟨bs, x, y, rfl, hl1⟩ := split_last2 (show 2 ≤ a.length by omega)
      obtain ⟨bs', x', y', rfl, hl2⟩ := split_last2 (show 2 ≤ b.length by omega)
      have hl : bs'.length = bs.length := by simp at h1; omega
      have hne : bs ≠ [] := by rintro rfl; simp at h2
      rw [matmul_batched hne hl, batchedMatmul_inner_err hne hl]
      have : bs' ≠ [] := by rintro rfl; simp at hl; exact hne (List.length_eq_zero_iff.1 hl.symm)
      have : 0 < bs'.length := List.length_pos_iff.2 this
      simpa [innerL, innerR, List.getLastD_eq_getLast?, List.getD_eq_getElem?_getD] using h
  · exact C16_rejects_ranks a b ha hb hm f g

example : ¬ Multipliable 4 2 ∧ ¬ Multipliable 1 3 ∧ Multipliable 5 5 := by unfold Multipliable; omega
example : Dims ([2, 2] ++ [3, 4]) ∧ innerL ([2, 2] ++ [3, 4]) = 4 := ⟨⟨by simp, by simp, by simp⟩, by rfl⟩

/-! ## C17 -/

/-- Batch dimensions that broadcast because they are equal (partial: this is the only broadcasting case
that works, see the refutation). -/
theorem C17_equal_batches_partial {T : Type} [Zero T] [Add T] [Mul T] (bs : List Nat) (hbs : bs ≠ [])
    (m k n : Nat) (ha : Dims (bs ++ [m, k])) (hb : Dims (bs ++ [k, n])) (h : Dims (bs ++ [m, n]))
    (f g : List Nat → T) :
    (ofFn (bs ++ [m, k]) f).matmul (ofFn (bs ++ [k, n]) g) =
      .ok (ofFn (bs ++ [m, n]) (fun idx =>
        dot k (fun p => f (idx.take bs.length ++ [idx.getD bs.length 0, p]))
          (fun p => g (idx.take bs.length ++ [p, idx.getD (bs.length + 1) 0])))) := by
  rw [matmul_batched hbs rfl, batchedMatmul_ok hbs ha hb h]

/-- Whenever the batch dimensions differ, broadcastable or not, the product throws `std::out_of_range`
after it has already built a result of the broadcast batch shape: the claimed broadcasting does not
exist. -/
theorem C17_unequal_batches_refuted {T : Type} [Zero T] [Add T] [Mul T] (bs bs' : List Nat) (hbs : bs ≠ [])
    (hl : bs'.length = bs.length) (hne : bs ≠ bs') (m k n : Nat) (ha : Dims (bs ++ [m, k]))
    (hb : Dims (bs' ++ [k, n])) (h : Dims (List.zipWith max bs bs' ++ [m, n])) (f g : List Nat → T) :
    (ofFn (bs ++ [m, k]) f).matmul (ofFn (bs' ++ [k, n]) g) = .error .outOfRange := by
  rw [matmul_batched hbs hl, batchedMatmul_batch_err hbs hl hne ha hb h]

/-- A concrete broadcastable pair: `(2,1,1) . (1,1,1)`. -/
theorem C17_refuted : Compat [2] [1] ∧
    (ofFn [2, 1, 1] (fun _ => (1 : Int))).matmul (ofFn [1, 1, 1] (fun _ => 1)) = .error .outOfRange := by
  refine ⟨?_, by rfl⟩
  intro i
  cases i with
  | zero => exact Or.inr (Or.inr rfl)
  | succ i => exact Or.inr (Or.inr (dimR_of_ge (by simp)))

example : Dims ([2, 1] ++ [3, 4]) ∧ Dims ([1, 2] ++ [4, 5]) ∧ Dims (List.zipWith max [2, 1] [1, 2] ++ [3, 5]) ∧
    [2, 1] ≠ [1, 2] :=
  ⟨⟨by simp, by simp, by simp⟩, ⟨by simp, by simp, by simp⟩, ⟨by simp, by simp, by simp⟩, by decide⟩

end SmartDNN
