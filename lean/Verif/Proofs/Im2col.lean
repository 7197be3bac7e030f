import Verif.Model.Layers
import Verif.Spec.Im2col
import Verif.Proofs.Matmul
import Verif.Proofs.Slices

/-!
# Lemmas about `im2col` and `col2im`
-/

namespace SmartDNN
open Spec

theorem forN_indices6 {σ : Type _} (a b c d e f : Nat) (body : Nat → Nat → Nat → Nat → Nat → Nat → σ → Res σ) (s : σ) :
    forN a s (fun i s => forN b s (fun j s => forN c s (fun k s => forN d s (fun l s =>
      forN e s (fun m s => forN f s (fun n s => body i j k l m n s)))))) =
      (indices [a, b, c, d, e, f]).foldlM
        (fun s idx => body (idx.getD 0 0) (idx.getD 1 0) (idx.getD 2 0) (idx.getD 3 0) (idx.getD 4 0)
          (idx.getD 5 0) s) s := by
  simp only [foldlM_indices_cons, foldlM_indices_nil, List.getD_cons_zero, List.getD_cons_succ]

theorem valid6_iff {a b c d e f : Nat} {idx : List Nat} :
    ValidIdx [a, b, c, d, e, f] idx ↔ ∃ i j k l m n, idx = [i, j, k, l, m, n] ∧ i < a ∧ j < b ∧ k < c ∧ l < d ∧
      m < e ∧ n < f := by
  constructor
  · intro h
    match idx, h with
    | [i, j, k, l, m, n], h =>
      simp only [ValidIdx, List.forall₂_cons] at h
      exact ⟨i, j, k, l, m, n, rfl, h.1, h.2.1, h.2.2.1, h.2.2.2.1, h.2.2.2.2.1, h.2.2.2.2.2.1⟩
  · rintro ⟨i, j, k, l, m, n, rfl, h⟩
    simp [ValidIdx, List.forall₂_cons, h]

/-- Writing to pairwise different places: each place holds the value written there. -/
theorem foldl_upd_inj {T α : Type _} (L : List α) (p : α → List Nat) (v : α → T) (f0 : List Nat → T)
    (hp : ∀ x ∈ L, ∀ y ∈ L, p x = p y → x = y) :
    ∀ x ∈ L, L.foldl (fun f x => upd f (p x) (v x)) f0 (p x) = v x := by
  induction L using List.reverseRecOn with
  | nil => simp
  | append_singleton L y ih =>
    intro x hx
    rw [List.foldl_append]
    simp only [List.foldl_cons, List.foldl_nil]
    unfold upd
    by_cases h : p x = p y
    · rw [if_pos h, hp x hx y (by simp) h]
    · rw [if_neg h]
      have hxL : x ∈ L := by
        rcases List.mem_append.1 hx with h1 | h1
        · exact h1
        · rw [List.mem_singleton] at h1
          exact absurd (by rw [h1]) h
      exact ih (fun a ha b hb => hp a (by simp [ha]) b (by simp [hb])) x hxL

theorem colRow_eq (C KH KW c ky kx : Nat) : ravel [C, KH, KW] [c, ky, kx] = colRow KH KW c ky kx := by
  simp only [ravel, List.prod_cons, List.prod_nil, colRow]
  ring

theorem colCol_eq (N OH OW n oy ox : Nat) : ravel [N, OH, OW] [n, oy, ox] = colCol OH OW n oy ox := by
  simp only [ravel, List.prod_cons, List.prod_nil, colCol]
  ring

theorem colRow_lt {C KH KW c ky kx : Nat} (h1 : c < C) (h2 : ky < KH) (h3 : kx < KW) :
    colRow KH KW c ky kx < C * KH * KW := by
  rw [← colRow_eq C]
  have := ravel_lt (valid3_iff.2 ⟨c, ky, kx, rfl, h1, h2, h3⟩)
  simpa [mul_assoc] using this

theorem colCol_lt {N OH OW n oy ox : Nat} (h1 : n < N) (h2 : oy < OH) (h3 : ox < OW) :
    colCol OH OW n oy ox < OH * OW * N := by
  rw [← colCol_eq N]
  have := ravel_lt (valid3_iff.2 ⟨n, oy, ox, rfl, h1, h2, h3⟩)
  simp only [List.prod_cons, List.prod_nil, Nat.mul_one] at this
  rwa [mul_comm (OH * OW)]

theorem strides4 (a b c d : Nat) : strides [a, b, c, d] = [b * (c * d), c * d, d, 1] := by
  simp [strides]

theorem ravel4_int (a b c d n i y x : Nat) :
    ((n : Int) * ((b * (c * d) : Nat) : Int) + (i : Int) * ((c * d : Nat) : Int) + (y : Int) * ((d : Nat) : Int) +
      (x : Int) * ((1 : Nat) : Int)) = ((ravel [a, b, c, d] [n, i, y, x] : Nat) : Int) := by
  simp only [ravel, List.prod_cons, List.prod_nil]
  push_cast
  ring

/-- Target of one step of the unfolding loop. -/
def colPos (KH KW OH OW : Nat) (idx : List Nat) : List Nat :=
  [colRow KH KW (idx.getD 1 0) (idx.getD 2 0) (idx.getD 3 0), colCol OH OW (idx.getD 0 0) (idx.getD 4 0) (idx.getD 5 0)]

theorem colPos_inj {N C KH KW OH OW : Nat} {a b : List Nat} (ha : ValidIdx [N, C, KH, KW, OH, OW] a)
    (hb : ValidIdx [N, C, KH, KW, OH, OW] b) (h : colPos KH KW OH OW a = colPos KH KW OH OW b) : a = b := by
  obtain ⟨i, j, k, l, m, n, rfl, h1, h2, h3, h4, h5, h6⟩ := valid6_iff.1 ha
  obtain ⟨i', j', k', l', m', n', rfl, h1', h2', h3', h4', h5', h6'⟩ := valid6_iff.1 hb
  simp only [colPos, List.getD_cons_zero, List.getD_cons_succ, List.cons.injEq, and_true] at h
  obtain ⟨e1, e2⟩ := h
  rw [← colRow_eq C, ← colRow_eq C] at e1
  rw [← colCol_eq N, ← colCol_eq N] at e2
  have r1 := ravel_inj (valid3_iff.2 ⟨j, k, l, rfl, h2, h3, h4⟩) (valid3_iff.2 ⟨j', k', l', rfl, h2', h3', h4'⟩) e1
  have r2 := ravel_inj (valid3_iff.2 ⟨i, m, n, rfl, h1, h5, h6⟩) (valid3_iff.2 ⟨i', m', n', rfl, h1', h5', h6'⟩) e2
  simp only [List.cons.injEq, and_true] at r1 r2
  obtain ⟨rfl, rfl, rfl⟩ := r1
  obtain ⟨rfl, rfl, rfl⟩ := r2
  rfl

/-- Source of one step of the unfolding loop (when it lies inside the image). -/
def colSrc (s p d : Int) (idx : List Nat) : List Nat :=
  [idx.getD 0 0, idx.getD 1 0, (tap s p d (idx.getD 4 0) (idx.getD 2 0)).toNat,
    (tap s p d (idx.getD 5 0) (idx.getD 3 0)).toNat]

/-- The source of a step lies inside the image. -/
def colIn (H W : Nat) (s p d : Int) (idx : List Nat) : Prop :=
  0 ≤ tap s p d (idx.getD 4 0) (idx.getD 2 0) ∧ tap s p d (idx.getD 4 0) (idx.getD 2 0) < H ∧
    0 ≤ tap s p d (idx.getD 5 0) (idx.getD 3 0) ∧ tap s p d (idx.getD 5 0) (idx.getD 3 0) < W

instance (H W : Nat) (s p d : Int) (idx : List Nat) : Decidable (colIn H W s p d idx) := by
  unfold colIn; infer_instance

theorem colSrc_valid {N C H W KH KW OH OW : Nat} {s p d : Int} {idx : List Nat}
    (hv : ValidIdx [N, C, KH, KW, OH, OW] idx) (hi : colIn H W s p d idx) :
    ValidIdx [N, C, H, W] (colSrc s p d idx) := by
  obtain ⟨i, j, k, l, m, n, rfl, h1, h2, h3, h4, h5, h6⟩ := valid6_iff.1 hv
  obtain ⟨a1, a2, a3, a4⟩ := hi
  exact valid4_iff.2 ⟨_, _, _, _, rfl, h1, h2, by omega, by omega⟩

section
variable {T : Type} [Zero T]

theorem rowInt (KH KW c ky kx : Nat) :
    (c : Int) * KH * KW + (ky : Int) * KW + kx = ((colRow KH KW c ky kx : Nat) : Int) := by
  unfold colRow; push_cast; ring

theorem colInt (OH OW n oy ox : Nat) :
    ((n : Int) * OH + oy) * OW + ox = ((colCol OH OW n oy ox : Nat) : Int) := by
  unfold colCol; push_cast; ring

theorem colPos_valid {N C KH KW OH OW : Nat} {idx : List Nat} (hv : ValidIdx [N, C, KH, KW, OH, OW] idx) :
    ValidIdx [C * KH * KW, OH * OW * N] (colPos KH KW OH OW idx) := by
  obtain ⟨i, j, k, l, m, n, rfl, h1, h2, h3, h4, h5, h6⟩ := valid6_iff.1 hv
  exact valid2_iff.2 ⟨_, _, rfl, colRow_lt h2 h3 h4, colCol_lt h1 h5 h6⟩

theorem im2col_fold {N C H W KH KW OH OW : Nat} {s p d : Int}
    (hm : Dims [C * KH * KW, OH * OW * N]) (hoh : Conv.colDim H KH s p d = .ok (OH : Int))
    (how : Conv.colDim W KW s p d = .ok (OW : Int)) (f : List Nat → T) :
    Conv.im2col (ofFn [N, C, H, W] f) KH KW s p d =
      .ok (ofFn [C * KH * KW, OH * OW * N] ((indices [N, C, KH, KW, OH, OW]).foldl
        (fun g idx => upd g (colPos KH KW OH OW idx)
          (if colIn H W s p d idx then f (colSrc s p d idx) else 0)) (fun _ => 0))) := by
  unfold Conv.im2col
  have g0 : (ofFn [N, C, H, W] f).shape.get 0 = .ok (N : Int) := rfl
  have g1 : (ofFn [N, C, H, W] f).shape.get 1 = .ok (C : Int) := rfl
  have g2 : (ofFn [N, C, H, W] f).shape.get 2 = .ok (H : Int) := rfl
  have g3 : (ofFn [N, C, H, W] f).shape.get 3 = .ok (W : Int) := rfl
  have em := make_dims hm
  simp only [ints, List.map_cons, List.map_nil, Nat.cast_mul] at em
  rw [g0, g1, g2, g3]
  simp only [Except.bind_ok', hoh, how, em]
  have s0 : rd (ofFn [N, C, H, W] f).shape.stride 0 = .ok (C * (H * W)) := by
    rw [ofFn_shape, shapeOf_stride, strides4]; rfl
  have s1 : rd (ofFn [N, C, H, W] f).shape.stride 1 = .ok (H * W) := by
    rw [ofFn_shape, shapeOf_stride, strides4]; rfl
  have s2 : rd (ofFn [N, C, H, W] f).shape.stride 2 = .ok W := by
    rw [ofFn_shape, shapeOf_stride, strides4]; rfl
  have s3 : rd (ofFn [N, C, H, W] f).shape.stride 3 = .ok 1 := by
    rw [ofFn_shape, shapeOf_stride, strides4]; rfl
  rw [s0, s1, s2, s3]
  simp only [Except.bind_ok', forI_nat, zeros_shapeOf]
  rw [forN_indices6 N C KH KW OH OW (fun n c kh kw oh ow (col : Tensor T) =>
    if (oh : Int) * s + (kh : Int) * d - p ≥ 0 ∧ (oh : Int) * s + (kh : Int) * d - p < (H : Int) ∧
        (ow : Int) * s + (kw : Int) * d - p ≥ 0 ∧ (ow : Int) * s + (kw : Int) * d - p < (W : Int) then do
      let x ← (ofFn [N, C, H, W] f).get ((n : Int) * ((C * (H * W) : Nat) : Int) + (c : Int) * ((H * W : Nat) : Int) +
        ((oh : Int) * s + (kh : Int) * d - p) * ((W : Nat) : Int) +
        ((ow : Int) * s + (kw : Int) * d - p) * ((1 : Nat) : Int))
      col.setAt [(c : Int) * KH * KW + (kh : Int) * KW + kw, ((n : Int) * OH + oh) * OW + ow] x
    else col.setAt [(c : Int) * KH * KW + (kh : Int) * KW + kw, ((n : Int) * OH + oh) * OW + ow] 0)]
  refine foldlM_inv (fun g => ofFn [C * KH * KW, OH * OW * N] g) _ _ ?_
  intro idx hidx g
  have hv := mem_indices.1 hidx
  have hpv := colPos_valid hv
  obtain ⟨i, j, k, l, m, n, rfl, h1, h2, h3, h4, h5, h6⟩ := valid6_iff.1 hv
  simp only [List.getD_cons_zero, List.getD_cons_succ]
  rw [rowInt, colInt]
  have e2 : ([((colRow KH KW j k l : Nat) : Int), ((colCol OH OW i m n : Nat) : Int)] : List Int) =
      ints (colPos KH KW OH OW [i, j, k, l, m, n]) := rfl
  rw [e2]
  by_cases hin : colIn H W s p d [i, j, k, l, m, n]
  · rw [if_pos hin]
    have hin' := hin
    unfold colIn tap at hin'
    simp only [List.getD_cons_zero, List.getD_cons_succ] at hin'
    rw [if_pos hin']
    have hsv := colSrc_valid hv hin
    obtain ⟨a1, a2, a3, a4⟩ := hin'
    have ey : ((((m : Int) * s + (k : Int) * d - p).toNat : Nat) : Int) = (m : Int) * s + (k : Int) * d - p :=
      Int.toNat_of_nonneg a1
    have ex : ((((n : Int) * s + (l : Int) * d - p).toNat : Nat) : Int) = (n : Int) * s + (l : Int) * d - p :=
      Int.toNat_of_nonneg a3
    have er := ravel4_int N C H W i j ((m : Int) * s + (k : Int) * d - p).toNat ((n : Int) * s + (l : Int) * d - p).toNat
    rw [ey, ex] at er
    rw [er]
    have hg := get_ofFn f hsv
    have e3 : colSrc s p d [i, j, k, l, m, n] =
        [i, j, ((m : Int) * s + (k : Int) * d - p).toNat, ((n : Int) * s + (l : Int) * d - p).toNat] := rfl
    rw [e3] at hg ⊢
    rw [hg]
    simp only [Except.bind_ok']
    rw [setAt_ofFn hm _ hpv]
  · rw [if_neg hin]
    have hin' := hin
    unfold colIn tap at hin'
    simp only [List.getD_cons_zero, List.getD_cons_succ] at hin'
    rw [if_neg hin', setAt_ofFn hm _ hpv]

end

section
variable {T : Type} [Zero T] [Add T]

theorem col2im_fold {N C H W KH KW OH OW : Nat} {s p d : Int}
    (hm : Dims [C * KH * KW, OH * OW * N]) (hoh : Conv.colDim H KH s p d = .ok (OH : Int))
    (how : Conv.colDim W KW s p d = .ok (OW : Int)) (g : List Nat → T) :
    Conv.col2im (ofFn [C * KH * KW, OH * OW * N] g) (shapeOf [N, C, H, W]) KH KW s p d =
      .ok (ofFn [N, C, H, W] (((indices [N, C, KH, KW, OH, OW]).filter (fun idx => decide (colIn H W s p d idx))).foldl
        (fun f idx => upd f (colSrc s p d idx) (f (colSrc s p d idx) + g (colPos KH KW OH OW idx))) (fun _ => 0))) := by
  unfold Conv.col2im
  have g0 : (shapeOf [N, C, H, W]).get 0 = .ok (N : Int) := rfl
  have g1 : (shapeOf [N, C, H, W]).get 1 = .ok (C : Int) := rfl
  have g2 : (shapeOf [N, C, H, W]).get 2 = .ok (H : Int) := rfl
  have g3 : (shapeOf [N, C, H, W]).get 3 = .ok (W : Int) := rfl
  rw [g0, g1, g2, g3]
  simp only [Except.bind_ok', hoh, how]
  have s0 : rd (shapeOf [N, C, H, W]).stride 0 = .ok (C * (H * W)) := by
    rw [shapeOf_stride, strides4]; rfl
  have s1 : rd (shapeOf [N, C, H, W]).stride 1 = .ok (H * W) := by
    rw [shapeOf_stride, strides4]; rfl
  have s2 : rd (shapeOf [N, C, H, W]).stride 2 = .ok W := by
    rw [shapeOf_stride, strides4]; rfl
  have s3 : rd (shapeOf [N, C, H, W]).stride 3 = .ok 1 := by
    rw [shapeOf_stride, strides4]; rfl
  have hfill : (Tensor.zeros (shapeOf [N, C, H, W]) : Tensor T).fill 0 = .ok (ofFn [N, C, H, W] (fun _ => 0)) := by
    unfold Tensor.fill Tensor.zeros
    rw [if_pos (by simp)]
    simp only [shapeOf_size, List.drop_replicate, Nat.sub_self, List.replicate_zero,
      List.append_nil]
    exact congrArg Except.ok (zeros_shapeOf [N, C, H, W])
  rw [hfill, s0, s1, s2, s3]
  simp only [Except.bind_ok', forI_nat]
  rw [forN_indices6 N C KH KW OH OW (fun n c kh kw oh ow (output : Tensor T) =>
    if (oh : Int) * s + (kh : Int) * d - p ≥ 0 ∧ (oh : Int) * s + (kh : Int) * d - p < (H : Int) ∧
        (ow : Int) * s + (kw : Int) * d - p ≥ 0 ∧ (ow : Int) * s + (kw : Int) * d - p < (W : Int) then do
      let x ← (ofFn [C * KH * KW, OH * OW * N] g).at_ [(c : Int) * KH * KW + (kh : Int) * KW + kw, ((n : Int) * OH + oh) * OW + ow]
      let y ← output.get ((n : Int) * ((C * (H * W) : Nat) : Int) + (c : Int) * ((H * W : Nat) : Int) +
        ((oh : Int) * s + (kh : Int) * d - p) * ((W : Nat) : Int) +
        ((ow : Int) * s + (kw : Int) * d - p) * ((1 : Nat) : Int))
      output.set ((n : Int) * ((C * (H * W) : Nat) : Int) + (c : Int) * ((H * W : Nat) : Int) +
        ((oh : Int) * s + (kh : Int) * d - p) * ((W : Nat) : Int) +
        ((ow : Int) * s + (kw : Int) * d - p) * ((1 : Nat) : Int)) (y + x)
    else .ok output)]
  refine (foldlM_inv (fun f => ofFn [N, C, H, W] f) (fun f idx => if colIn H W s p d idx then
    upd f (colSrc s p d idx) (f (colSrc s p d idx) + g (colPos KH KW OH OW idx)) else f) (fun _ => 0) ?_).trans ?_
  · intro idx hidx f
    have hv := mem_indices.1 hidx
    have hpv := colPos_valid hv
    obtain ⟨i, j, k, l, m, n, rfl, h1, h2, h3, h4, h5, h6⟩ := valid6_iff.1 hv
    simp only [List.getD_cons_zero, List.getD_cons_succ]
    rw [rowInt, colInt]
    have e2 : ([((colRow KH KW j k l : Nat) : Int), ((colCol OH OW i m n : Nat) : Int)] : List Int) =
        ints (colPos KH KW OH OW [i, j, k, l, m, n]) := rfl
    rw [e2]
    by_cases hin : colIn H W s p d [i, j, k, l, m, n]
    · rw [if_pos hin]
      have hin' := hin
      unfold colIn tap at hin'
      simp only [List.getD_cons_zero, List.getD_cons_succ] at hin'
      rw [if_pos hin']
      have hsv := colSrc_valid hv hin
      obtain ⟨a1, a2, a3, a4⟩ := hin'
      have ey : ((((m : Int) * s + (k : Int) * d - p).toNat : Nat) : Int) = (m : Int) * s + (k : Int) * d - p :=
        Int.toNat_of_nonneg a1
      have ex : ((((n : Int) * s + (l : Int) * d - p).toNat : Nat) : Int) = (n : Int) * s + (l : Int) * d - p :=
        Int.toNat_of_nonneg a3
      have er := ravel4_int N C H W i j ((m : Int) * s + (k : Int) * d - p).toNat ((n : Int) * s + (l : Int) * d - p).toNat
      rw [ey, ex] at er
      rw [er, at_ofFn hm _ hpv]
      simp only [Except.bind_ok']
      have e3 : colSrc s p d [i, j, k, l, m, n] =
          [i, j, ((m : Int) * s + (k : Int) * d - p).toNat, ((n : Int) * s + (l : Int) * d - p).toNat] := rfl
      rw [e3] at hsv ⊢
      rw [get_ofFn _ hsv]
      simp only [Except.bind_ok']
      rw [setFlat_ofFn _ hsv]
    · rw [if_neg hin]
      have hin' := hin
      unfold colIn tap at hin'
      simp only [List.getD_cons_zero, List.getD_cons_succ] at hin'
      rw [if_neg hin']
  · congr 2
    rw [List.foldl_filter]
    simp

end
end SmartDNN
