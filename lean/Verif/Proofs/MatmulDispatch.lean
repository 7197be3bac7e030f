import Verif.Proofs.Matmul
import Verif.Proofs.Reshape

/-! Dispatch of `matmul` over the ranks, and batch dimensions that differ. -/

namespace SmartDNN
open Spec

section
variable {T : Type}

theorem reshaped_ofFn {ds es : List Nat} (he : Dims es) (hp : es.prod = ds.prod) (f : List Nat → T) :
    (ofFn ds f).reshaped (ints es) = .ok ⟨shapeOf es, (indices ds).map f⟩ := by
  unfold Tensor.reshaped
  rw [make_dims he]
  simp only [Except.bind_ok', shapeOf_dims]
  rw [reshaped_eq _ (ofFn_shape ds f) he hp]
  rfl

theorem indices_one_cons (ds : List Nat) : indices (1 :: ds) = (indices ds).map (fun i => 0 :: i) := by
  simp [indices]

theorem indices_one (n : Nat) : indices [n] = (List.range n).map (fun i => [i]) := by
  simp only [indices, List.map_cons, List.map_nil]
  rw [List.map_eq_flatMap]

end

section
variable {T : Type} [Zero T] [Add T] [Mul T]

theorem matmul_11 (n m : Nat) (f g : List Nat → T) :
    (ofFn [n] f).matmul (ofFn [m] g) = (ofFn [n] f).dotProduct (ofFn [m] g) := by
  unfold Tensor.matmul; simp

theorem matmul_22 (m k k' n : Nat) (f g : List Nat → T) :
    (ofFn [m, k] f).matmul (ofFn [k', n] g) = (ofFn [m, k] f).matrixMatrixMul (ofFn [k', n] g) := by
  unfold Tensor.matmul; simp

theorem matmul_21 (m k k' : Nat) (f g : List Nat → T) :
    (ofFn [m, k] f).matmul (ofFn [k'] g) = (ofFn [m, k] f).matrixVectorMul (ofFn [k'] g) := by
  unfold Tensor.matmul; simp

theorem matmul_12_aux {k k' n : Nat} (hk : Dims [k]) (f g : List Nat → T) :
    (ofFn [k] f).matmul (ofFn [k', n] g) = (do
      let result ← (ofFn [1, k] (fun idx => f [idx.getD 1 0])).matrixMatrixMul (ofFn [k', n] g)
      let r1 ← result.shape.get 1
      result.reshaped [r1]) := by
  unfold Tensor.matmul
  have h1 : Dims [1, k] := ⟨by simp, by intro d hd; have := hk.pos d; simp at hd; rcases hd with rfl | rfl <;> simp_all,
    by simpa using hk.lt⟩
  have h2 := reshaped_ofFn (ds := [k]) h1 (by simp) f
  have h3 : (⟨shapeOf [1, k], (indices [k]).map f⟩ : Tensor T) = ofFn [1, k] (fun idx => f [idx.getD 1 0]) := by
    unfold ofFn
    rw [indices_one_cons, List.map_map]
    congr 1
    apply List.map_congr_left
    intro i hi
    obtain ⟨j, rfl, _⟩ := valid1_iff.1 (mem_indices.1 hi)
    rfl
  simp only [ofFn_shape, shapeOf_rank]
  simp only [List.length_cons, List.length_nil, get0, Except.bind_ok']
  simp only [ints_cons, ints_nil, Nat.cast_one] at h2
  simp [h2, h3]

theorem matmul_12_ok {k n : Nat} (hk : Dims [k]) (hn : Dims [n]) (f g : List Nat → T) :
    (ofFn [k] f).matmul (ofFn [k, n] g) = .ok (ofFn [n] (fun idx =>
      dot k (fun p => f [p]) (fun p => g [p, idx.getD 0 0]))) := by
  have h1 : Dims [1, n] := ⟨by simp, by intro d hd; have := hn.pos d; simp at hd; rcases hd with rfl | rfl <;> simp_all,
    by simpa using hn.lt⟩
  rw [matmul_12_aux hk, matrixMatrixMul_ok h1]
  simp only [Except.bind_ok', ofFn_shape, get1]
  have h2 := reshaped_ofFn (ds := [1, n]) hn (by simp) (fun idx =>
    dot k (fun p => f [p]) (fun p => g [p, idx.getD 1 0]))
  simp only [ints_cons, ints_nil] at h2
  have e : (ofFn [1, n] fun idx : List Nat => dot k (fun p => f [[idx.getD 0 0, p].getD 1 0]) fun p => g [p, idx.getD 1 0])
     = (ofFn [1, n] fun idx : List Nat => dot k (fun p => f [p]) fun p => g [p, idx.getD 1 0]) := rfl
  rw [e, h2]
  congr 1
  unfold ofFn
  rw [indices_one_cons, List.map_map]
  rfl

theorem matmul_12_err {k k' n : Nat} (hk : Dims [k]) (h : k ≠ k') (f g : List Nat → T) :
    (ofFn [k] f).matmul (ofFn [k', n] g) = .error .invalidArgument := by
  rw [matmul_12_aux hk, matrixMatrixMul_err h]; rfl

theorem matmul_32 (b m k k' n : Nat) (f g : List Nat → T) :
    (ofFn [b, m, k] f).matmul (ofFn [k', n] g) = (ofFn [b, m, k] f).matmul3D2D (ofFn [k', n] g) := by
  unfold Tensor.matmul Tensor.batchedMatmul; simp

theorem matmul_23 (b m k k' n : Nat) (f g : List Nat → T) :
    (ofFn [m, k] f).matmul (ofFn [b, k', n] g) = (ofFn [m, k] f).matmul2D3D (ofFn [b, k', n] g) := by
  unfold Tensor.matmul Tensor.batchedMatmul; simp

theorem matmul_batched {bs bs' : List Nat} (hbs : bs ≠ []) (hl : bs'.length = bs.length) (m k k' n : Nat)
    (f g : List Nat → T) :
    (ofFn (bs ++ [m, k]) f).matmul (ofFn (bs' ++ [k', n]) g) =
      (ofFn (bs ++ [m, k]) f).batchedMatmul (ofFn (bs' ++ [k', n]) g) := by
  have : 0 < bs.length := List.length_pos_iff.2 hbs
  unfold Tensor.matmul
  simp only [ofFn_shape, shapeOf_rank, List.length_append, List.length_cons, List.length_nil]
  rw [if_neg (by omega), if_neg (by omega), if_neg (by omega), if_neg (by omega), if_pos (by omega)]

/-- Rank pairs other than (1,1), (1,2), (2,1), (2,2), (3,2), (2,3) and equal ranks >= 3. -/
theorem matmul_rank_err {a b : List Nat} (ha : a ≠ []) (hb : b ≠ [])
    (h : ¬ ((a.length ≤ 2 ∧ b.length ≤ 2) ∨ (a.length = 3 ∧ b.length = 2) ∨ (a.length = 2 ∧ b.length = 3) ∨
      (a.length = b.length))) (f g : List Nat → T) :
    (ofFn a f).matmul (ofFn b g) = .error .invalidArgument := by
  have h1 : 0 < a.length := List.length_pos_iff.2 ha
  have h2 : 0 < b.length := List.length_pos_iff.2 hb
  unfold Tensor.matmul Tensor.batchedMatmul
  simp only [ofFn_shape, shapeOf_rank]
  rw [if_neg (by omega), if_neg (by omega), if_neg (by omega), if_neg (by omega), if_pos (by omega),
    if_neg (by omega), if_neg (by omega), if_pos (by omega)]
  rfl

end

/-- A loop all of whose steps keep an invariant or fail with `e`, one of which must fail. -/
theorem foldlM_error {σ α : Type _} {l : List α} {f : σ → α → Res σ} {e : Err} (P : σ → Prop) {s : σ}
    (h0 : P s) (h : ∀ a ∈ l, ∀ s, P s → (∃ s', f s a = .ok s' ∧ P s') ∨ f s a = .error e)
    (hx : ∃ a ∈ l, ∀ s, P s → f s a = .error e) : l.foldlM f s = .error e := by
  induction l generalizing s with
  | nil => obtain ⟨a, ha, _⟩ := hx; cases ha
  | cons a l ih =>
    rw [List.foldlM_cons]
    obtain ⟨b, hb, hb2⟩ := hx
    rcases List.mem_cons.1 hb with rfl | hb
    · rw [hb2 s h0]; rfl
    · rcases h a (by simp) s h0 with ⟨s', hs', hp⟩ | he
      · rw [hs']
        simp only [Except.bind_ok']
        exact ih hp (fun a ha => h a (by simp [ha])) ⟨b, hb, hb2⟩
      · rw [he]; rfl

theorem forN_error {σ : Type _} {n : Nat} {f : Nat → σ → Res σ} {e : Err} {s : σ} (hn : 0 < n)
    (h : ∀ i < n, ∀ s, f i s = .error e) : forN n s f = .error e :=
  foldlM_error (fun _ => True) trivial (fun i hi s _ => Or.inr (h i (by simpa using hi) s))
    ⟨0, by simpa using hn, fun s _ => h 0 hn s⟩

theorem validIdx_append_left {a b x y : List Nat} (h : ValidIdx (a ++ b) (x ++ y)) (hl : x.length = a.length) :
    ValidIdx a x := by
  obtain ⟨x', y', h1, h2, h3⟩ := validIdx_append_iff.1 h
  obtain ⟨rfl, rfl⟩ := List.append_inj h1 (by rw [hl, h2.length])
  exact h2

theorem zipWith_max_pos {a : List Nat} (ha : ∀ d ∈ a, 0 < d) (b : List Nat) :
    ∀ d ∈ List.zipWith max a b, 0 < d := by
  induction a generalizing b with
  | nil => simp
  | cons d a ih => cases b with
    | nil => simp
    | cons e b =>
      have h1 := ih (fun y hy => ha y (by simp [hy])) b
      have h2 := ha d (by simp)
      intro x hx
      rcases List.mem_cons.1 hx with rfl | hx
      · exact lt_of_lt_of_le h2 (le_max_left _ _)
      · exact h1 x hx

theorem exists_not_valid {a b : List Nat} (hl : b.length = a.length) (ha : ∀ d ∈ a, 0 < d)
    (hb : ∀ d ∈ b, 0 < d) (hne : a ≠ b) :
    ∃ x, ValidIdx (List.zipWith max a b) x ∧ ¬ (ValidIdx a x ∧ ValidIdx b x) := by
  induction a generalizing b with
  | nil => simp at hl; subst hl; exact absurd rfl hne
  | cons d a ih =>
    cases b with
    | nil => simp at hl
    | cons e b =>
      simp only [List.zipWith_cons_cons]
      have hz : ValidIdx (List.zipWith max a b) (List.replicate (List.zipWith max a b).length 0) := by
        apply validIdx_zeros
        exact zipWith_max_pos (fun y hy => ha y (by simp [hy])) b
      by_cases hde : d = e
      · subst hde
        obtain ⟨x, h1, h2⟩ := ih (by simpa using hl) (fun y hy => ha y (by simp [hy]))
          (fun y hy => hb y (by simp [hy])) (by rintro rfl; exact hne rfl)
        have hd : 0 < d := ha d (by simp)
        refine ⟨0 :: x, ValidIdx.cons.2 ⟨by simpa using hd, h1⟩, ?_⟩
        rintro ⟨h3, h4⟩
        exact h2 ⟨(ValidIdx.cons.1 h3).2, (ValidIdx.cons.1 h4).2⟩
      · refine ⟨(max d e - 1) :: _, ValidIdx.cons.2 ⟨?_, hz⟩, ?_⟩
        · have := ha d (by simp); omega
        · rintro ⟨h3, h4⟩
          have := (ValidIdx.cons.1 h3).1
          have := (ValidIdx.cons.1 h4).1
          omega

section
variable {T : Type} [Zero T] [Add T] [Mul T]

theorem zipWith_max_ints (a b : List Nat) :
    List.zipWith max (ints a) (ints b) = ints (List.zipWith max a b) := by
  induction a generalizing b with
  | nil => simp
  | cons d a ih => cases b with
    | nil => simp
    | cons e b => simp [ih]

/-- Batch dimensions that differ (whether or not they broadcast) make the batched product throw
`out_of_range`. -/
theorem batchedMatmul_batch_err {bs bs' : List Nat} (hbs : bs ≠ []) (hl : bs'.length = bs.length)
    (hne : bs ≠ bs') {m k n : Nat} (ha : Dims (bs ++ [m, k])) (hb : Dims (bs' ++ [k, n]))
    (h : Dims (List.zipWith max bs bs' ++ [m, n])) (f g : List Nat → T) :
    (ofFn (bs ++ [m, k]) f).batchedMatmul (ofFn (bs' ++ [k, n]) g) = .error .outOfRange := by
  rw [batched_unfold hbs hl, if_neg (by simp), zipWith_max_ints]
  set mx := List.zipWith max bs bs' with hmx
  have hmxl : mx.length = bs.length := by simp [hmx, hl]
  have hbp : ∀ d ∈ mx, 0 < d := fun d hd => h.pos d (by simp [hd])
  have hm0 : 0 < m := h.pos m (by simp)
  have hn0 : 0 < n := h.pos n (by simp)
  have hk0 : 0 < k := ha.pos k (by simp)
  have hm : Shape.make (ints mx ++ [(m : Int), (n : Int)]) = .ok (shapeOf (mx ++ [m, n])) := by
    have := make_dims h
    simpa using this
  simp only
  rw [hm]
  simp only [Except.bind_ok', full_shapeOf, shapeOf_size]
  have hfuel : mx.prod ≤ (mx ++ [m, n]).prod + 1 := by
    rw [List.prod_append]
    have : 0 < [m, n].prod := prod_pos_of (fun d hd => h.pos d (by simp at hd ⊢; tauto))
    have := Nat.le_mul_of_pos_right mx.prod this
    omega
  have := doWhile_indices (S := Tensor T × List Int) (σ := Tensor T) hbp
    (fun st => do
          let res ← forN m st.1 (fun i result =>
            forN n result (fun j (result : Tensor T) => do
              let s ← Tensor.sumLoop (k : Int) (fun p => do
                let x ← (ofFn (bs ++ [m, k]) f).at_ (st.2 ++ [(i : Int), p])
                let y ← (ofFn (bs' ++ [k, n]) g).at_ (st.2 ++ [p, (j : Int)])
                return x * y)
              result.setAt (st.2 ++ [(i : Int), (j : Int)]) s))
          let r := odoStep (ints mx) st.2
          return (r.1, res, r.2))
    (fun s idx => (s, ints idx))
    (fun idx s => forN m s (fun i result =>
            forN n result (fun j (result : Tensor T) => do
              let s ← Tensor.sumLoop (k : Int) (fun p => do
                let x ← (ofFn (bs ++ [m, k]) f).at_ (ints idx ++ [(i : Int), p])
                let y ← (ofFn (bs' ++ [k, n]) g).at_ (ints idx ++ [p, (j : Int)])
                return x * y)
              result.setAt (ints idx ++ [(i : Int), (j : Int)]) s)))
    (by
      intro s idx hv b r hodo
      simp only [hodo])
    (ofFn (mx ++ [m, n]) (fun _ => (0 : T))) _ hfuel
  simp only [ints_replicate, Nat.cast_zero, hmxl] at this
  rw [this]
  have key : ∀ x, ValidIdx mx x → ¬ (ValidIdx bs x ∧ ValidIdx bs' x) → ∀ s : Tensor T,
      forN m s (fun i result =>
            forN n result (fun j (result : Tensor T) => do
              let s ← Tensor.sumLoop (k : Int) (fun p => do
                let y ← (ofFn (bs ++ [m, k]) f).at_ (ints x ++ [(i : Int), p])
                let z ← (ofFn (bs' ++ [k, n]) g).at_ (ints x ++ [p, (j : Int)])
                return y * z)
              result.setAt (ints x ++ [(i : Int), (j : Int)]) s)) = .error .outOfRange := by
    intro x hx hnv s
    have hxl := hx.length
    apply forN_error hm0
    intro i hi s
    apply forN_error hn0
    intro j hj s
    have : Tensor.sumLoop (k : Int) (fun p => do
                let y ← (ofFn (bs ++ [m, k]) f).at_ (ints x ++ [(i : Int), p])
                let z ← (ofFn (bs' ++ [k, n]) g).at_ (ints x ++ [p, (j : Int)])
                return y * z) = .error .outOfRange := by
      unfold Tensor.sumLoop
      rw [forI_nat]
      apply forN_error hk0
      intro p hp s
      beta_reduce
      by_cases h1 : ValidIdx bs x
      · have h2 : ¬ ValidIdx bs' x := fun h => hnv ⟨h1, h⟩
        have e1 := at_ofFn ha f (validIdx_append h1 (valid2.2 ⟨hi, hp⟩))
        simp only [ints_append, ints_cons, ints_nil] at e1
        rw [e1]
        simp only [Except.bind_ok']
        have : (ofFn (bs' ++ [k, n]) g).at_ (ints x ++ [(p : Int), (j : Int)]) = .error .outOfRange := by
          unfold Tensor.at_
          rw [ofFn_shape, computeFlatIndex_range (by simp [hxl, hmxl, hl])]
          · rfl
          · rintro ⟨idx, he, hv⟩
            have he' : idx = x ++ [p, j] := ints_inj (by rw [← he]; simp)
            subst he'
            exact h2 (validIdx_append_left hv (by rw [hxl, hmxl, hl]))
        rw [this]; rfl
      · have : (ofFn (bs ++ [m, k]) f).at_ (ints x ++ [(i : Int), (p : Int)]) = .error .outOfRange := by
          unfold Tensor.at_
          rw [ofFn_shape, computeFlatIndex_range (by simp [hxl, hmxl])]
          · rfl
          · rintro ⟨idx, he, hv⟩
            have he' : idx = x ++ [i, p] := ints_inj (by rw [← he]; simp)
            subst he'
            exact h1 (validIdx_append_left hv (by rw [hxl, hmxl]))
        rw [this]; rfl
    rw [this]; rfl
  have := foldlM_error (l := indices mx) (e := .outOfRange) (fun s : Tensor T => ∃ r, s = ofFn (mx ++ [m, n]) r)
    (f := fun s idx => forN m s (fun i result =>
            forN n result (fun j (result : Tensor T) => do
              let s ← Tensor.sumLoop (k : Int) (fun p => do
                let x ← (ofFn (bs ++ [m, k]) f).at_ (ints idx ++ [(i : Int), p])
                let y ← (ofFn (bs' ++ [k, n]) g).at_ (ints idx ++ [p, (j : Int)])
                return x * y)
              result.setAt (ints idx ++ [(i : Int), (j : Int)]) s)))
    (s := ofFn (mx ++ [m, n]) (fun _ => (0 : T))) ⟨_, rfl⟩ ?_ ?_
  · rw [this]; rfl
  · intro x hx s hs
    have hx' := mem_indices.1 hx
    by_cases hv : ValidIdx bs x ∧ ValidIdx bs' x
    · left
      obtain ⟨h1, h2⟩ := hv
      apply forN_inv (fun _ s => ∃ r, s = ofFn (mx ++ [m, n]) r) hs
      intro i s hi hs
      apply forN_inv (fun _ s => ∃ r, s = ofFn (mx ++ [m, n]) r) hs
      rintro j s hj ⟨r, rfl⟩
      rw [sumLoop_ok k _ (fun p => f (x ++ [i, p]) * g (x ++ [p, j]))]
      · have := setAt_ofFn h r (validIdx_append hx' (valid2.2 ⟨hi, hj⟩))
          (lsum ((List.range k).map (fun p => f (x ++ [i, p]) * g (x ++ [p, j]))))
        simp only [ints_append, ints_cons, ints_nil] at this
        exact ⟨_, this, _, rfl⟩
      · intro p hp
        have e1 := at_ofFn ha f (validIdx_append h1 (valid2.2 ⟨hi, hp⟩))
        have e2 := at_ofFn hb g (validIdx_append h2 (valid2.2 ⟨hp, hj⟩))
        simp only [ints_append, ints_cons, ints_nil] at e1 e2
        rw [e1, e2]; rfl
    · right
      exact key x hx' hv s
  · obtain ⟨x, h1, h2⟩ := exists_not_valid hl (fun d hd => ha.pos d (by simp [hd]))
      (fun d hd => hb.pos d (by simp [hd])) hne
    exact ⟨x, mem_indices.2 h1, fun s _ => key x h1 h2 s⟩

end
end SmartDNN
