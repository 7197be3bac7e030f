import Verif.Proofs.Sums
import Verif.Spec.Linear

/-! Lemmas about `transpose` and the matrix products. -/

namespace SmartDNN
open Spec

/-! ### transpose -/

section
variable {T : Type}

theorem swapAt_length {α : Type _} (x : List α) (a b : Nat) : (Tensor.swapAt x a b).length = x.length := by
  unfold Tensor.swapAt
  split <;> simp

theorem swapAt_eq {α : Type} {x : List α} {a b : Nat} (ha : a < x.length) (hb : b < x.length) :
    Tensor.swapAt x a b = swapped a b x := by
  unfold Tensor.swapAt swapped
  rw [List.getElem?_eq_getElem ha, List.getElem?_eq_getElem hb]
  apply List.ext_getElem (by simp)
  intro i h1 h2
  simp only [List.getElem_set, List.getElem_mapIdx, List.getD_eq_getElem _ _ ha, List.getD_eq_getElem _ _ hb]
  by_cases h3 : b = i
  · subst h3
    by_cases h4 : b = a
    · subst h4; simp
    · simp [h4]
  · by_cases h4 : a = i
    · subst h4; simp [h3]
    · have h5 : ¬ i = a := fun h => h4 h.symm
      have h6 : ¬ i = b := fun h => h3 h.symm
      simp [h3, h4, h5, h6]

theorem swapped_length {α : Type} (a b : Nat) (x : List α) : (swapped a b x).length = x.length := by
  simp [swapped]

theorem swapped_getElem? {α : Type} {a b : Nat} {x : List α} (ha : a < x.length) (hb : b < x.length) (i : Nat) :
    (swapped a b x)[i]? = x[if i = a then b else if i = b then a else i]? := by
  unfold swapped
  rw [List.getElem?_mapIdx]
  by_cases hi : i < x.length
  · rw [List.getElem?_eq_getElem hi]
    simp only [Option.map_some]
    split_ifs with h1 h2
    · rw [List.getD_eq_getElem _ _ hb, List.getElem?_eq_getElem hb]
    · rw [List.getD_eq_getElem _ _ ha, List.getElem?_eq_getElem ha]
    · rw [List.getElem?_eq_getElem hi]
  · have h1 : i ≠ a := by omega
    have h2 : i ≠ b := by omega
    rw [if_neg h1, if_neg h2, List.getElem?_eq_none (by omega)]
    rfl

theorem swapped_swapped {α : Type} {a b : Nat} {x : List α} (ha : a < x.length) (hb : b < x.length) :
    swapped a b (swapped a b x) = x := by
  apply List.ext_getElem?
  intro i
  rw [swapped_getElem? (by rw [swapped_length]; exact ha) (by rw [swapped_length]; exact hb),
    swapped_getElem? ha hb]
  congr 1
  split_ifs <;> omega

theorem swapped_comm {α : Type} {a b : Nat} {x : List α} (ha : a < x.length) (hb : b < x.length) :
    swapped a b x = swapped b a x := by
  apply List.ext_getElem?
  intro i
  rw [swapped_getElem? ha hb, swapped_getElem? hb ha]
  congr 1
  split_ifs <;> omega

theorem swapped_same {α : Type} {a : Nat} {x : List α} (ha : a < x.length) : swapped a a x = x := by
  apply List.ext_getElem?
  intro i
  rw [swapped_getElem? ha ha]
  congr 1
  split_ifs <;> omega

theorem swapped_perm {α : Type} {a b : Nat} {x : List α} (ha : a < x.length) (hb : b < x.length) :
    (swapped a b x).Perm x := by
  rw [← swapAt_eq ha hb]
  unfold Tensor.swapAt
  rw [List.getElem?_eq_getElem ha, List.getElem?_eq_getElem hb]
  exact List.set_set_perm ha hb

theorem dims_swapped {ds : List Nat} (hd : Dims ds) {a b : Nat} (ha : a < ds.length) (hb : b < ds.length) :
    Dims (swapped a b ds) := by
  have hp := swapped_perm ha hb
  refine ⟨?_, fun d h => hd.pos d (hp.mem_iff.1 h), ?_⟩
  · intro h
    have := swapped_length a b ds
    rw [h] at this
    simp at this
    omega
  · rw [hp.prod_eq]; exact hd.lt

theorem validIdx_swapped {ds idx : List Nat} {a b : Nat} (ha : a < ds.length) (hb : b < ds.length)
    (hv : ValidIdx ds idx) : ValidIdx (swapped a b ds) (swapped a b idx) := by
  have hl := hv.length
  have hg := (List.forall₂_iff_get.1 hv).2
  refine List.forall₂_iff_get.2 ⟨by simp [swapped_length, hl], fun i h1 h2 => ?_⟩
  simp only [List.get_eq_getElem] at hg ⊢
  have e1 := swapped_getElem? (x := idx) (by omega : a < idx.length) (by omega : b < idx.length) i
  have e2 := swapped_getElem? ha hb i
  rw [swapped_length] at h1
  have hlt : (if i = a then b else if i = b then a else i) < idx.length := by split_ifs <;> omega
  rw [List.getElem?_eq_getElem (by rw [swapped_length]; omega), List.getElem?_eq_getElem hlt] at e1
  rw [List.getElem?_eq_getElem (by rw [swapped_length]; omega), List.getElem?_eq_getElem (by omega)] at e2
  rw [Option.some.inj e1, Option.some.inj e2]
  exact hg _ hlt (by omega)

theorem unflatten_spec {ds idx : List Nat} (hp : ∀ d ∈ ds, 0 < d) (hl : ds.prod < sizeMod)
    (hv : ValidIdx ds idx) (q : Nat) :
    Tensor.unflatten (ints ds) (q * ds.prod + ravel ds idx) = .ok (ints idx, q) := by
  induction ds generalizing idx q with
  | nil => rw [validIdx_nil_iff] at hv; subst hv; simp [Tensor.unflatten, ravel]
  | cons d ds ih =>
    obtain ⟨i, is, rfl, hi, his⟩ := validIdx_cons_iff.1 hv
    have hp' : ∀ x ∈ ds, 0 < x := fun x hx => hp x (by simp [hx])
    have hd : 0 < d := hp d (by simp)
    have hpp := prod_pos_of hp'
    rw [List.prod_cons] at hl
    have h1 : ds.prod ≤ d * ds.prod := Nat.le_mul_of_pos_left _ hd
    have h2 : d ≤ d * ds.prod := Nat.le_mul_of_pos_right _ hpp
    have hd64 : d < 2 ^ 64 := lt_of_le_of_lt h2 hl
    have e : q * (d * ds.prod) + (i * ds.prod + ravel ds is) = (q * d + i) * ds.prod + ravel ds is := by ring
    simp only [List.prod_cons, ravel, ints_cons, Tensor.unflatten]
    rw [e, ih hp' (lt_of_le_of_lt h1 hl) his]
    simp only [Except.bind_ok']
    rw [if_neg (by omega), toSizeT_nat hd64]
    have m1 : (q * d + i) % d = i := by rw [Nat.mul_comm, Nat.mul_add_mod, Nat.mod_eq_of_lt hi]
    have m2 : (q * d + i) / d = q := by
      rw [Nat.mul_comm, Nat.mul_add_div hd, Nat.div_eq_of_lt hi, Nat.add_zero]
    rw [m1, m2]
    rfl

theorem transpose_ofFn [Zero T] {ds : List Nat} (hd : Dims ds) {a b : Nat} (ha : a < ds.length)
    (hb : b < ds.length) (f : List Nat → T) :
    (ofFn ds f).transpose a b = .ok (ofFn (swapped a b ds) (fun idx => f (swapped a b idx))) := by
  unfold Tensor.transpose
  simp only [ofFn_shape, shapeOf_rank, shapeOf_dims, shapeOf_size]
  rw [if_neg (by omega), swapAt_eq (by simpa using ha) (by simpa using hb)]
  have hsw : swapped a b (ints ds) = ints (swapped a b ds) := by
    rw [← swapAt_eq (by simpa using ha) (by simpa using hb), ← swapAt_eq ha hb]
    unfold Tensor.swapAt
    rw [ints_getElem?, ints_getElem?, List.getElem?_eq_getElem ha, List.getElem?_eq_getElem hb]
    simp only [Option.map_some]
    rw [← ints_set, ← ints_set]
  have hd' := dims_swapped hd ha hb
  rw [hsw, make_dims hd']
  simp only [Except.bind_ok', zeros_shapeOf]
  rw [forN_prod]
  have h2 := foldlM_inv (l := indices ds) (f := fun (result : Tensor T) idx => do
      let old ← Tensor.unflatten (ints ds) (ravel ds idx)
      let x ← (ofFn ds f).at_ old.1
      result.setAt ((Tensor.swapAt (List.range ds.length) a b).map (fun d => old.1.getD d 0)) x)
    (fun g => ofFn (swapped a b ds) g)
    (fun g idx => upd g (swapped a b idx) (f (swapped a b (swapped a b idx)))) (fun _ => (0 : T)) (by
      intro idx hi g
      have hv := mem_indices.1 hi
      have hl := hv.length
      have hu := unflatten_spec hd.pos hd.lt64 hv 0
      rw [Nat.zero_mul, Nat.zero_add] at hu
      rw [hu]
      simp only [Except.bind_ok']
      rw [at_ofFn hd f hv]
      simp only [Except.bind_ok']
      have e : (Tensor.swapAt (List.range ds.length) a b).map (fun d => (ints idx).getD d 0) =
          ints (swapped a b idx) := by
        rw [swapAt_eq (by simpa using ha) (by simpa using hb)]
        apply List.ext_getElem?
        intro i
        rw [List.getElem?_map, ints_getElem?, swapped_getElem? (by simpa using ha) (by simpa using hb),
          swapped_getElem? (by omega) (by omega)]
        generalize (if i = a then b else if i = b then a else i) = k
        by_cases hk : k < ds.length
        · rw [List.getElem?_range hk, List.getElem?_eq_getElem (by omega)]
          simp only [Option.map_some]
          rw [List.getD_eq_getElem _ _ (by simp; omega)]
          simp [ints]
        · rw [List.getElem?_eq_none (by simp; omega), List.getElem?_eq_none (by omega)]
          rfl
      rw [e, setAt_ofFn hd' g (validIdx_swapped ha hb hv), swapped_swapped (by omega) (by omega)])
  rw [h2]
  congr 1
  apply ofFn_congr
  intro j hj
  rw [foldl_upd_eq (indices ds) (swapped a b) (fun j => f (swapped a b j)) (fun _ => 0) j, if_pos]
  rw [List.mem_map]
  have hlj := hj.length
  rw [swapped_length] at hlj
  refine ⟨swapped a b j, mem_indices.2 ?_, swapped_swapped (by omega) (by omega)⟩
  have := validIdx_swapped (by rw [swapped_length]; exact ha) (by rw [swapped_length]; exact hb) hj
  rwa [swapped_swapped ha hb] at this

theorem transpose_err [Zero T] {ds : List Nat} {a b : Nat} (h : ds.length ≤ a ∨ ds.length ≤ b)
    (f : List Nat → T) : (ofFn ds f).transpose a b = .error .invalidArgument := by
  unfold Tensor.transpose
  simp only [ofFn_shape, shapeOf_rank]
  rw [if_pos (by omega)]
  rfl

/-! ### Matrix products -/

theorem sumLoop_ok [Zero T] [Add T] (n : Nat) (body : Int → Res T) (v : Nat → T)
    (h : ∀ k < n, body (k : Int) = .ok (v k)) :
    Tensor.sumLoop (n : Int) body = .ok (lsum ((List.range n).map v)) := by
  unfold Tensor.sumLoop
  rw [forI_nat, forN_ok (fun k acc => acc + v k)]
  · unfold lsum; rw [List.foldl_map]
  · intro i hi s
    rw [h i hi]; rfl

@[simp] theorem shape_get_ofFn {ds : List Nat} {i d : Nat} (h : ds[i]? = some d) :
    (shapeOf ds).get i = .ok (d : Int) := by
  unfold Shape.get
  apply rd_some
  rw [shapeOf_dims, ints_getElem?, h]
  rfl

theorem get0 (d : Nat) (ds : List Nat) : (shapeOf (d :: ds)).get 0 = .ok (d : Int) :=
  shape_get_ofFn (i := 0) rfl
theorem get1 (d e : Nat) (ds : List Nat) : (shapeOf (d :: e :: ds)).get 1 = .ok (e : Int) :=
  shape_get_ofFn (i := 1) rfl
theorem get2 (d e c : Nat) (ds : List Nat) : (shapeOf (d :: e :: c :: ds)).get 2 = .ok (c : Int) :=
  shape_get_ofFn (i := 2) rfl
theorem get3 (d e c b : Nat) (ds : List Nat) : (shapeOf (d :: e :: c :: b :: ds)).get 3 = .ok (b : Int) :=
  shape_get_ofFn (i := 3) rfl

theorem ravel1 (a i : Nat) : ravel [a] [i] = i := by simp [ravel]
theorem ravel2 (a b i j : Nat) : ravel [a, b] [i, j] = i * b + j := by simp [ravel]
theorem ravel3 (a b c i j k : Nat) : ravel [a, b, c] [i, j, k] = i * (b * c) + (j * c + k) := by simp [ravel]

theorem valid1 {a i : Nat} : ValidIdx [a] [i] ↔ i < a := by simp [ValidIdx]
theorem valid2 {a b i j : Nat} : ValidIdx [a, b] [i, j] ↔ i < a ∧ j < b := by simp [ValidIdx]
theorem valid3 {a b c i j k : Nat} : ValidIdx [a, b, c] [i, j, k] ↔ i < a ∧ j < b ∧ k < c := by
  simp [ValidIdx]
theorem valid4 {a b c d i j k l : Nat} :
    ValidIdx [a, b, c, d] [i, j, k, l] ↔ i < a ∧ j < b ∧ k < c ∧ l < d := by simp [ValidIdx]

theorem valid1_iff {a : Nat} {idx : List Nat} : ValidIdx [a] idx ↔ ∃ i, idx = [i] ∧ i < a := by
  rw [validIdx_cons_iff]
  simp only [validIdx_nil_iff]
  constructor
  · rintro ⟨i, _, rfl, h, rfl⟩; exact ⟨i, rfl, h⟩
  · rintro ⟨i, rfl, h⟩; exact ⟨i, [], rfl, h, rfl⟩
theorem valid2_iff {a b : Nat} {idx : List Nat} :
    ValidIdx [a, b] idx ↔ ∃ i j, idx = [i, j] ∧ i < a ∧ j < b := by
  rw [validIdx_cons_iff]
  simp only [valid1_iff]
  constructor
  · rintro ⟨i, _, rfl, h, j, rfl, h2⟩; exact ⟨i, j, rfl, h, h2⟩
  · rintro ⟨i, j, rfl, h, h2⟩; exact ⟨i, [j], rfl, h, j, rfl, h2⟩
theorem valid3_iff {a b c : Nat} {idx : List Nat} :
    ValidIdx [a, b, c] idx ↔ ∃ i j k, idx = [i, j, k] ∧ i < a ∧ j < b ∧ k < c := by
  rw [validIdx_cons_iff]
  simp only [valid2_iff]
  constructor
  · rintro ⟨i, _, rfl, h, j, k, rfl, h2⟩; exact ⟨i, j, k, rfl, h, h2⟩
  · rintro ⟨i, j, k, rfl, h, h2⟩; exact ⟨i, [j, k], rfl, h, j, k, rfl, h2⟩
theorem valid4_iff {a b c d : Nat} {idx : List Nat} :
    ValidIdx [a, b, c, d] idx ↔ ∃ i j k l, idx = [i, j, k, l] ∧ i < a ∧ j < b ∧ k < c ∧ l < d := by
  rw [validIdx_cons_iff]
  simp only [valid3_iff]
  constructor
  · rintro ⟨i, _, rfl, h, j, k, l, rfl, h2⟩; exact ⟨i, j, k, l, rfl, h, h2⟩
  · rintro ⟨i, j, k, l, rfl, h, h2⟩; exact ⟨i, [j, k, l], rfl, h, j, k, l, rfl, h2⟩

theorem get_flat2 {a b i j : Nat} (f : List Nat → T) (hi : i < a) (hj : j < b) :
    (ofFn [a, b] f).get ((i : Int) * b + j) = .ok (f [i, j]) := by
  have := get_ofFn (ds := [a, b]) f (valid2.2 ⟨hi, hj⟩)
  rw [ravel2] at this
  push_cast at this
  exact this

theorem get_flat1 {a i : Nat} (f : List Nat → T) (hi : i < a) :
    (ofFn [a] f).get (i : Int) = .ok (f [i]) := by
  have := get_ofFn (ds := [a]) f (valid1.2 hi)
  rwa [ravel1] at this

theorem set_flat2 {a b i j : Nat} (f : List Nat → T) (hi : i < a) (hj : j < b) (v : T) :
    (ofFn [a, b] f).set ((i : Int) * b + j) v = .ok (ofFn [a, b] (upd f [i, j] v)) := by
  have := setFlat_ofFn (ds := [a, b]) f (valid2.2 ⟨hi, hj⟩) v
  rw [ravel2] at this
  push_cast at this
  exact this

theorem set_flat1 {a i : Nat} (f : List Nat → T) (hi : i < a) (v : T) :
    (ofFn [a] f).set (i : Int) v = .ok (ofFn [a] (upd f [i] v)) := by
  have := setFlat_ofFn (ds := [a]) f (valid1.2 hi) v
  rwa [ravel1] at this

variable [Zero T] [Add T] [Mul T]

theorem dotProduct_ok {n : Nat} (f g : List Nat → T) :
    (ofFn [n] f).dotProduct (ofFn [n] g) =
      .ok (ofFn [1] (fun _ => dot n (fun p => f [p]) (fun p => g [p]))) := by
  unfold Tensor.dotProduct
  simp only [ofFn_shape, get0, Except.bind_ok', make_one]
  rw [if_neg (by simp), sumLoop_ok n _ (fun p => f [p] * g [p])]
  · rfl
  · intro k hk
    rw [get_flat1 f hk, get_flat1 g hk]; rfl

theorem dotProduct_err {n m : Nat} (h : n ≠ m) (f g : List Nat → T) :
    (ofFn [n] f).dotProduct (ofFn [m] g) = .error .invalidArgument := by
  unfold Tensor.dotProduct
  simp only [ofFn_shape, get0, Except.bind_ok']
  rw [if_pos (by exact_mod_cast h)]
  rfl

theorem matrixMatrixMul_ok {m k n : Nat} (h : Dims [m, n]) (f g : List Nat → T) :
    (ofFn [m, k] f).matrixMatrixMul (ofFn [k, n] g) = .ok (ofFn [m, n] (fun idx =>
      dot k (fun p => f [idx.getD 0 0, p]) (fun p => g [p, idx.getD 1 0]))) := by
  unfold Tensor.matrixMatrixMul
  simp only [ofFn_shape, get0, get1, Except.bind_ok']
  rw [if_neg (by simp)]
  have hm : Shape.make [(m : Int), (n : Int)] = .ok (shapeOf [m, n]) := make_dims h
  rw [hm]
  simp only [Except.bind_ok', full_shapeOf, forI_nat]
  refine (forN_indices2 _ _ _ _ ).trans ?_
  apply foldlM_fill
  intro idx hv r
  obtain ⟨i, j, rfl, hi, hj⟩ := valid2_iff.1 hv
  simp only [List.getD_cons_zero, List.getD_cons_succ]
  rw [sumLoop_ok k _ (fun p => f [i, p] * g [p, j])]
  · simp only [Except.bind_ok']
    rw [set_flat2 r hi hj]
    rfl
  · intro p hp
    rw [get_flat2 f hi hp, get_flat2 g hp hj]; rfl

theorem matrixMatrixMul_err {m k k' n : Nat} (h : k ≠ k') (f g : List Nat → T) :
    (ofFn [m, k] f).matrixMatrixMul (ofFn [k', n] g) = .error .invalidArgument := by
  unfold Tensor.matrixMatrixMul
  simp only [ofFn_shape, get0, get1, Except.bind_ok']
  rw [if_pos (by exact_mod_cast h)]
  rfl

theorem matrixVectorMul_ok {m n : Nat} (h : Dims [m]) (f g : List Nat → T) :
    (ofFn [m, n] f).matrixVectorMul (ofFn [n] g) = .ok (ofFn [m] (fun idx =>
      dot n (fun p => f [idx.getD 0 0, p]) (fun p => g [p]))) := by
  unfold Tensor.matrixVectorMul
  simp only [ofFn_shape, get0, get1, Except.bind_ok']
  rw [if_neg (by simp)]
  have hm : Shape.make [(m : Int)] = .ok (shapeOf [m]) := make_dims h
  rw [hm]
  simp only [Except.bind_ok', full_shapeOf, forI_nat]
  rw [forN_indices1]
  apply foldlM_fill
  intro idx hv r
  obtain ⟨i, rfl, hi⟩ := valid1_iff.1 hv
  simp only [List.getD_cons_zero]
  rw [sumLoop_ok n _ (fun p => f [i, p] * g [p])]
  · simp only [Except.bind_ok']
    rw [set_flat1 r hi]
    rfl
  · intro p hp
    rw [get_flat2 f hi hp, get_flat1 g hp]; rfl

theorem matrixVectorMul_err {m n n' : Nat} (h : n ≠ n') (f g : List Nat → T) :
    (ofFn [m, n] f).matrixVectorMul (ofFn [n'] g) = .error .invalidArgument := by
  unfold Tensor.matrixVectorMul
  simp only [ofFn_shape, get0, get1, Except.bind_ok']
  rw [if_pos (by exact_mod_cast h)]
  rfl

theorem matmul2D3D_ok {m k b n : Nat} (ha : Dims [m, k]) (hb : Dims [b, k, n]) (h : Dims [b, m, n])
    (f g : List Nat → T) :
    (ofFn [m, k] f).matmul2D3D (ofFn [b, k, n] g) = .ok (ofFn [b, m, n] (fun idx =>
      dot k (fun p => f [idx.getD 1 0, p]) (fun p => g [idx.getD 0 0, p, idx.getD 2 0]))) := by
  unfold Tensor.matmul2D3D
  simp only [ofFn_shape, get0, get1, get2, Except.bind_ok']
  rw [if_neg (by simp), if_neg (by simp)]
  have hm : Shape.make [(b : Int), (m : Int), (n : Int)] = .ok (shapeOf [b, m, n]) := make_dims h
  rw [hm]
  simp only [Except.bind_ok', full_shapeOf, forI_nat]
  refine (forN_indices3 _ _ _ _ _ ).trans ?_
  apply foldlM_fill
  intro idx hv r
  obtain ⟨t, i, j, rfl, ht, hi, hj⟩ := valid3_iff.1 hv
  simp only [List.getD_cons_zero, List.getD_cons_succ]
  rw [sumLoop_ok k _ (fun p => f [i, p] * g [t, p, j])]
  · simp only [Except.bind_ok']
    exact setAt_ofFn h r hv _
  · intro p hp
    have h1 := at_ofFn ha f (valid2.2 ⟨hi, hp⟩)
    have h2 := at_ofFn hb g (valid3.2 ⟨ht, hp, hj⟩)
    simp only [ints_cons, ints_nil] at h1 h2
    rw [h1, h2]; rfl

theorem matmul2D3D_err {m k k' b n : Nat} (hk : k ≠ k') (f g : List Nat → T) :
    (ofFn [m, k] f).matmul2D3D (ofFn [b, k', n] g) = .error .invalidArgument := by
  unfold Tensor.matmul2D3D
  simp only [ofFn_shape, get0, get1, get2, Except.bind_ok']
  rw [if_neg (by simp), if_pos (by exact_mod_cast hk)]
  rfl

theorem matmul3D2D_ok {m k b n : Nat} (ha : Dims [b, m, k]) (hb : Dims [k, n]) (h : Dims [b, m, n])
    (f g : List Nat → T) :
    (ofFn [b, m, k] f).matmul3D2D (ofFn [k, n] g) = .ok (ofFn [b, m, n] (fun idx =>
      dot k (fun p => f [idx.getD 0 0, idx.getD 1 0, p]) (fun p => g [p, idx.getD 2 0]))) := by
  unfold Tensor.matmul3D2D
  simp only [ofFn_shape, get0, get1, get2, Except.bind_ok']
  rw [if_neg (by simp), if_neg (by simp)]
  have hm : Shape.make [(b : Int), (m : Int), (n : Int)] = .ok (shapeOf [b, m, n]) := make_dims h
  rw [hm]
  simp only [Except.bind_ok', full_shapeOf, forI_nat]
  refine (forN_indices3 _ _ _ _ _ ).trans ?_
  apply foldlM_fill
  intro idx hv r
  obtain ⟨t, i, j, rfl, ht, hi, hj⟩ := valid3_iff.1 hv
  simp only [List.getD_cons_zero, List.getD_cons_succ]
  rw [sumLoop_ok k _ (fun p => f [t, i, p] * g [p, j])]
  · simp only [Except.bind_ok']
    exact setAt_ofFn h r hv _
  · intro p hp
    have h1 := at_ofFn ha f (valid3.2 ⟨ht, hi, hp⟩)
    have h2 := at_ofFn hb g (valid2.2 ⟨hp, hj⟩)
    simp only [ints_cons, ints_nil] at h1 h2
    rw [h1, h2]; rfl

theorem matmul3D2D_err {m k k' b n : Nat} (hk : k ≠ k') (f g : List Nat → T) :
    (ofFn [b, m, k] f).matmul3D2D (ofFn [k', n] g) = .error .invalidArgument := by
  unfold Tensor.matmul3D2D
  simp only [ofFn_shape, get0, get1, get2, Except.bind_ok']
  rw [if_neg (by simp), if_pos (by exact_mod_cast hk)]
  rfl

end

section
variable {T : Type}

theorem foldlM_indices_append {σ : Type} (a b : List Nat) (body : σ → List Nat → Res σ) (s : σ) :
    (indices (a ++ b)).foldlM body s =
      (indices a).foldlM (fun s x => (indices b).foldlM (fun s y => body s (x ++ y)) s) s := by
  induction a generalizing body s with
  | nil => simp [foldlM_indices_nil]
  | cons d a ih =>
    rw [List.cons_append, foldlM_indices_cons, foldlM_indices_cons]
    congr 1
    funext i s
    rw [ih]
    rfl

theorem validIdx_append {a b x y : List Nat} (hx : ValidIdx a x) (hy : ValidIdx b y) :
    ValidIdx (a ++ b) (x ++ y) := List.rel_append hx hy

theorem validIdx_append_iff {a b idx : List Nat} :
    ValidIdx (a ++ b) idx ↔ ∃ x y, idx = x ++ y ∧ ValidIdx a x ∧ ValidIdx b y := by
  constructor
  · intro h
    induction a generalizing idx with
    | nil => exact ⟨[], idx, rfl, validIdx_nil, h⟩
    | cons d a ih =>
      obtain ⟨i, is, rfl, hi, his⟩ := validIdx_cons_iff.1 h
      obtain ⟨x, y, rfl, hx, hy⟩ := ih his
      exact ⟨i :: x, y, rfl, ValidIdx.cons.2 ⟨hi, hx⟩, hy⟩
  · rintro ⟨x, y, rfl, hx, hy⟩
    exact validIdx_append hx hy

variable [Zero T] [Add T] [Mul T]

theorem batched_unfold {bs : List Nat} (hbs : bs ≠ []) {bs' : List Nat} (hl : bs'.length = bs.length)
    {m k k' n : Nat} (f g : List Nat → T) :
    (ofFn (bs ++ [m, k]) f).batchedMatmul (ofFn (bs' ++ [k', n]) g) =
      (if (k : Int) ≠ (k' : Int) then Except.error Err.invalidArgument else do
        let batch := List.zipWith max (ints bs) (ints bs')
        let sh ← Shape.make (batch ++ [(m : Int), (n : Int)])
        let st ← doWhileFuel (fun (st : Tensor T × List Int) => do
          let res ← forN m st.1 (fun i result =>
            forN n result (fun j result => do
              let s ← Tensor.sumLoop (k : Int) (fun p => do
                let x ← (ofFn (bs ++ [m, k]) f).at_ (st.2 ++ [(i : Int), p])
                let y ← (ofFn (bs' ++ [k', n]) g).at_ (st.2 ++ [p, (j : Int)])
                return x * y)
              result.setAt (st.2 ++ [(i : Int), (j : Int)]) s))
          let r := odoStep batch st.2
          return (r.1, res, r.2))
          (sh.size + 1) (Tensor.full sh 0, List.replicate bs.length 0)
        return st.1) := by
  have hpos : 0 < bs.length := List.length_pos_of_ne_nil hbs
  unfold Tensor.batchedMatmul
  simp only [ofFn_shape, shapeOf_rank, List.length_append, List.length_cons, List.length_nil, hl]
  rw [if_neg (by omega), if_neg (by omega), if_neg (by simp), if_neg (by omega)]
  have r1 : bs.length + (0 + 1 + 1) - 1 = bs.length + 1 := by omega
  have r2 : bs.length + (0 + 1 + 1) - 2 = bs.length := by omega
  have g1 : (shapeOf (bs ++ [m, k])).get (bs.length + 1) = .ok (k : Int) :=
    shape_get_ofFn (by rw [List.getElem?_append_right (by omega)]; simp)
  have g2 : (shapeOf (bs' ++ [k', n])).get bs.length = .ok (k' : Int) :=
    shape_get_ofFn (by rw [List.getElem?_append_right (by omega)]; simp [hl])
  have g3 : (shapeOf (bs ++ [m, k])).get bs.length = .ok (m : Int) :=
    shape_get_ofFn (by rw [List.getElem?_append_right (by omega)]; simp)
  have g4 : (shapeOf (bs' ++ [k', n])).get (bs.length + 1) = .ok (n : Int) :=
    shape_get_ofFn (by rw [List.getElem?_append_right (by omega)]; simp [hl])
  have t1 : (ints (bs ++ [m, k])).take bs.length = ints bs := by
    rw [ints_append, List.take_append_of_le_length (by simp), List.take_of_length_le (by simp)]
  have t2 : (ints (bs' ++ [k', n])).take bs.length = ints bs' := by
    rw [ints_append, List.take_append_of_le_length (by simp [hl]), List.take_of_length_le (by simp [hl])]
  simp only [r1, r2, g1, g2, g3, g4, shapeOf_dims, t1, t2, Except.bind_ok', forI_nat]
  split_ifs
  · rfl
  · rfl

theorem batchedMatmul_ok {bs : List Nat} (hbs : bs ≠ []) {m k n : Nat} (ha : Dims (bs ++ [m, k]))
    (hb : Dims (bs ++ [k, n])) (h : Dims (bs ++ [m, n])) (f g : List Nat → T) :
    (ofFn (bs ++ [m, k]) f).batchedMatmul (ofFn (bs ++ [k, n]) g) =
      .ok (ofFn (bs ++ [m, n]) (fun idx =>
        dot k (fun p => f (idx.take bs.length ++ [idx.getD bs.length 0, p]))
          (fun p => g (idx.take bs.length ++ [p, idx.getD (bs.length + 1) 0])))) := by
  rw [batched_unfold hbs rfl, if_neg (by simp)]
  have hbp : ∀ d ∈ bs, 0 < d := fun d hd => h.pos d (by simp [hd])
  have hz : List.zipWith max (ints bs) (ints bs) = ints bs := by
    rw [List.zipWith_self]; simp
  have hm : Shape.make (ints bs ++ [(m : Int), (n : Int)]) = .ok (shapeOf (bs ++ [m, n])) := by
    have := make_dims h
    simpa using this
  simp only [hz]
  rw [hm]
  simp only [Except.bind_ok', full_shapeOf, shapeOf_size]
  have hfuel : bs.prod ≤ (bs ++ [m, n]).prod + 1 := by
    rw [List.prod_append]
    have : 0 < [m, n].prod := prod_pos_of (fun d hd => h.pos d (by simp at hd ⊢; tauto))
    have := Nat.le_mul_of_pos_right bs.prod this
    omega
  have := doWhile_indices (S := Tensor T × List Int) (σ := Tensor T) hbp
    (fun st => do
          let res ← forN m st.1 (fun i result =>
            forN n result (fun j (result : Tensor T) => do
              let s ← Tensor.sumLoop (k : Int) (fun p => do
                let x ← (ofFn (bs ++ [m, k]) f).at_ (st.2 ++ [(i : Int), p])
                let y ← (ofFn (bs ++ [k, n]) g).at_ (st.2 ++ [p, (j : Int)])
                return x * y)
              result.setAt (st.2 ++ [(i : Int), (j : Int)]) s))
          let r := odoStep (ints bs) st.2
          return (r.1, res, r.2))
    (fun s idx => (s, ints idx))
    (fun idx s => forN m s (fun i result =>
            forN n result (fun j (result : Tensor T) => do
              let s ← Tensor.sumLoop (k : Int) (fun p => do
                let x ← (ofFn (bs ++ [m, k]) f).at_ (ints idx ++ [(i : Int), p])
                let y ← (ofFn (bs ++ [k, n]) g).at_ (ints idx ++ [p, (j : Int)])
                return x * y)
              result.setAt (ints idx ++ [(i : Int), (j : Int)]) s)))
    (by
      intro s idx hv b r hodo
      simp only [hodo])
    (ofFn (bs ++ [m, n]) (fun _ => (0 : T))) _ hfuel
  simp only [ints_replicate, Nat.cast_zero] at this
  rw [this]
  simp only [forN_indices2, Except.pure_eq', bind_assoc, Except.bind_ok', Except.bind_ok_eta]
  have h2 := foldlM_indices_append (σ := Tensor T) bs [m, n] (fun s idx => do
      let v ← Tensor.sumLoop (k : Int) (fun p => do
        let x ← (ofFn (bs ++ [m, k]) f).at_ (ints (idx.take bs.length) ++ [((idx.getD bs.length 0 : Nat) : Int), p])
        let y ← (ofFn (bs ++ [k, n]) g).at_ (ints (idx.take bs.length) ++ [p, ((idx.getD (bs.length + 1) 0 : Nat) : Int)])
        return x * y)
      s.setAt (ints (idx.take bs.length) ++ [((idx.getD bs.length 0 : Nat) : Int), ((idx.getD (bs.length + 1) 0 : Nat) : Int)]) v)
    (ofFn (bs ++ [m, n]) (fun _ => (0 : T)))
  have h3 : (indices bs).foldlM (fun (s : Tensor T) x => (indices [m, n]).foldlM (fun s y => do
      let v ← Tensor.sumLoop (k : Int) (fun p => do
        let z ← (ofFn (bs ++ [m, k]) f).at_ (ints x ++ [((y.getD 0 0 : Nat) : Int), p])
        let w ← (ofFn (bs ++ [k, n]) g).at_ (ints x ++ [p, ((y.getD 1 0 : Nat) : Int)])
        Except.ok (z * w))
      s.setAt (ints x ++ [((y.getD 0 0 : Nat) : Int), ((y.getD 1 0 : Nat) : Int)]) v) s)
      (ofFn (bs ++ [m, n]) (fun _ => (0 : T))) =
      (indices bs).foldlM (fun s x => (indices [m, n]).foldlM (fun s y => (fun (s : Tensor T) idx => do
      let v ← Tensor.sumLoop (k : Int) (fun p => do
        let x ← (ofFn (bs ++ [m, k]) f).at_ (ints (idx.take bs.length) ++ [((idx.getD bs.length 0 : Nat) : Int), p])
        let y ← (ofFn (bs ++ [k, n]) g).at_ (ints (idx.take bs.length) ++ [p, ((idx.getD (bs.length + 1) 0 : Nat) : Int)])
        return x * y)
      s.setAt (ints (idx.take bs.length) ++ [((idx.getD bs.length 0 : Nat) : Int), ((idx.getD (bs.length + 1) 0 : Nat) : Int)]) v) s (x ++ y)) s)
      (ofFn (bs ++ [m, n]) (fun _ => (0 : T))) := by
    apply foldlM_congr
    intro x hx s
    have hlx := (mem_indices.1 hx).length
    apply foldlM_congr
    intro y hy s
    simp only
    rw [← hlx, List.take_append_of_le_length le_rfl, List.take_of_length_le le_rfl,
      List.getD_append_right _ _ _ _ le_rfl, List.getD_append_right _ _ _ _ (by omega), Nat.sub_self,
      Nat.add_sub_cancel_left]
    rfl
  rw [h3, ← h2]
  apply foldlM_fill
  intro idx hv r
  obtain ⟨x, y, rfl, hx, hy⟩ := validIdx_append_iff.1 hv
  obtain ⟨i, j, rfl, hi, hj⟩ := valid2_iff.1 hy
  have hlx := hx.length
  have e1 : (x ++ [i, j]).take bs.length = x := by
    rw [← hlx, List.take_append_of_le_length le_rfl, List.take_of_length_le le_rfl]
  have e2 : (x ++ [i, j]).getD bs.length 0 = i := by
    rw [← hlx, List.getD_append_right _ _ _ _ le_rfl, Nat.sub_self]; rfl
  have e3 : (x ++ [i, j]).getD (bs.length + 1) 0 = j := by
    rw [← hlx, List.getD_append_right _ _ _ _ (by omega), Nat.add_sub_cancel_left]; rfl
  simp only [e1, e2, e3]
  rw [sumLoop_ok k _ (fun p => f (x ++ [i, p]) * g (x ++ [p, j]))]
  · simp only [Except.bind_ok']
    have := setAt_ofFn h r hv (dot k (fun p => f (x ++ [i, p])) (fun p => g (x ++ [p, j])))
    simp only [ints_append, ints_cons, ints_nil] at this
    exact this
  · intro p hp
    have h1 := at_ofFn ha f (validIdx_append hx (valid2.2 ⟨hi, hp⟩))
    have h2 := at_ofFn hb g (validIdx_append hx (valid2.2 ⟨hp, hj⟩))
    simp only [ints_append, ints_cons, ints_nil] at h1 h2
    rw [h1, h2]; rfl

theorem batchedMatmul_inner_err {bs bs' : List Nat} (hbs : bs ≠ []) (hl : bs'.length = bs.length)
    {m k k' n : Nat} (hk : k ≠ k') (f g : List Nat → T) :
    (ofFn (bs ++ [m, k]) f).batchedMatmul (ofFn (bs' ++ [k', n]) g) = .error .invalidArgument := by
  rw [batched_unfold hbs hl, if_pos (by exact_mod_cast hk)]

end
end SmartDNN
