import Verif.Proofs.MaxPool

/-!
# Max pooling (C40, C41, C42)

`MaxPool` literals are ⟨pool size, stride, padding, -infinity, stored input⟩; the stored input `inp` is
arbitrary, so the theorems hold after any history of calls.
-/

namespace SmartDNN
open Spec

section
variable {T : Type} [LinearOrder T] [Zero T]

theorem poolOut_le {p s h : Nat} (hp : 0 < p) (hh : 0 < h) : poolOut p s h ≤ h := by
  unfold poolOut
  split
  · have := Nat.div_le_self (h - p) s
    omega
  · omega

theorem poolOut_pos (p s h : Nat) : 0 < poolOut p s h := by
  unfold poolOut
  split
  · exact Nat.succ_pos _
  · exact Nat.one_pos

theorem dims_poolOut {n c h w p s : Nat} (hd : Dims [n, c, h, w]) (hp : 0 < p) :
    Dims [n, c, poolOut p s h, poolOut p s w] := by
  have hn := hd.pos n (by simp)
  have hc := hd.pos c (by simp)
  have hh := hd.pos h (by simp)
  have hw := hd.pos w (by simp)
  refine ⟨by simp, ?_, lt_of_le_of_lt ?_ hd.lt⟩
  · intro d hd'
    simp only [List.mem_cons, List.not_mem_nil, or_false] at hd'
    rcases hd' with rfl | rfl | rfl | rfl
    · exact hn
    · exact hc
    · exact poolOut_pos _ _ _
    · exact poolOut_pos _ _ _
  · simp only [List.prod_cons, List.prod_nil, mul_one]
    exact Nat.mul_le_mul_left _ (Nat.mul_le_mul_left _ (Nat.mul_le_mul (poolOut_le hp hh) (poolOut_le hp hw)))

/-- What `forward` computes for any elements and any initial value `ninf` of the running maximum: the greatest of `ninf` and
the entries of the window. -/
theorem pool_greatest {n c h w p s : Nat} (hd : Dims [n, c, h, w]) (hp : 0 < p) (hs : 0 < s)
    (hph : p ≤ h ∨ p - h < s) (hpw : p ≤ w ∨ p - w < s) (f : List Nat → T) (ninf : T) (inp : Option (Tensor T)) :
    ∃ m, MaxPool.forward (ofFn [n, c, h, w] f) ⟨p, s, 0, ninf, inp⟩ =
        (.ok (ofFn [n, c, poolOut p s h, poolOut p s w] m), ⟨p, s, 0, ninf, some (ofFn [n, c, h, w] f)⟩) ∧
      ∀ i j oh ow, ValidIdx [n, c, poolOut p s h, poolOut p s w] [i, j, oh, ow] →
        IsGreatest (insert ninf {v | ∃ y x, InWindow p s h w oh ow y x ∧ v = f [i, j, y, x]}) (m [i, j, oh, ow]) := by
  have hdo := dims_poolOut (s := s) hd hp
  have hex : ∀ idx, ∃ v, ∀ i j oh ow, idx = [i, j, oh, ow] → ValidIdx [n, c, poolOut p s h, poolOut p s w] idx →
      (∃ a, (⟨p, s, 0, ninf, some (ofFn [n, c, h, w] f)⟩ : MaxPool T).findMax (ofFn [n, c, h, w] f) i j oh ow = .ok (v, a)) ∧
      IsGreatest (insert ninf {v | ∃ y x, InWindow p s h w oh ow y x ∧ v = f [i, j, y, x]}) v := by
    intro idx
    by_cases hv : ValidIdx [n, c, poolOut p s h, poolOut p s w] idx
    · obtain ⟨i, j, oh, ow, rfl, hi, hj, hoh, how⟩ := valid4_iff.1 hv
      obtain ⟨⟨v, a⟩, h1, h2⟩ := findMax_ofFn (p := p) (s := s) (oh := oh) (ow := ow) hd f ninf
        (some (ofFn [n, c, h, w] f)) hi hj
      refine ⟨v, ?_⟩
      intro i' j' oh' ow' he _
      simp only [List.cons.injEq, and_true] at he
      obtain ⟨rfl, rfl, rfl, rfl⟩ := he
      refine ⟨⟨a, h1⟩, ?_⟩
      rcases h2 with ⟨h2, h3⟩ | ⟨y, x, h2, h3, h4⟩
      · have : v = ninf := congrArg Prod.fst h2
        subst this
        refine ⟨Set.mem_insert _ _, ?_⟩
        rintro u (rfl | ⟨y, x, hw', rfl⟩)
        · exact le_refl _
        · exact h3 _ _ hw'
      · have : v = f [i, j, y, x] := congrArg Prod.fst h2
        subst this
        refine ⟨Set.mem_insert_of_mem _ ⟨_, _, h4.1, rfl⟩, ?_⟩
        rintro u (rfl | ⟨y, x, hw', rfl⟩)
        · exact h3.le
        · exact h4.2.1 _ _ hw'
    · exact ⟨0, fun _ _ _ _ _ h => (hv h).elim⟩
  choose m hm using hex
  refine ⟨m, ?_, fun i j oh ow hv => (hm _ i j oh ow rfl hv).2⟩
  unfold MaxPool.forward
  rw [if_neg (by simp)]
  simp only [Mut.modify_bind, Mut.get_bind, Mut.lift_apply]
  refine Prod.ext ?_ rfl
  unfold MaxPool.pool
  simp only [ofFn_shape, get0, get1, get2, get3, Except.bind_ok', outDim_pool ninf _ hs hph, outDim_pool ninf _ hs hpw]
  rw [← ints4, make_dims hdo]
  simp only [Except.bind_ok', forI_nat, zeros_shapeOf]
  refine (forN_indices4 _ _ _ _ _ _).trans ?_
  apply foldlM_fill
  intro idx hv g
  obtain ⟨i, j, oh, ow, rfl, hi, hj, hoh, how⟩ := valid4_iff.1 hv
  obtain ⟨⟨a, h1⟩, _⟩ := hm _ i j oh ow rfl hv
  simp only [List.getD_cons_zero, List.getD_cons_succ]
  rw [h1]
  simp only [Except.bind_ok']
  exact setAt_ofFn hdo g hv _

/-- Every pool window has at least one cell of the plane. -/
theorem window_corner {p s h w oh ow : Nat} (hp : 0 < p) (hs : 0 < s) (hh : 0 < h) (hw : 0 < w) (hoh : oh < poolOut p s h)
    (how : ow < poolOut p s w) : InWindow p s h w oh ow (oh * s) (ow * s) := by
  have b1 := poolOut_window hs hp hh hoh
  have b2 := poolOut_window hs hp hw how
  exact ⟨le_refl _, by omega, b1.1, le_refl _, by omega, b2.1⟩

omit [Zero T] in
theorem windowMax_of_greatest {p s h w oh ow : Nat} {g : Nat → Nat → T} {ninf m : T}
    (hm : IsGreatest (insert ninf {v | ∃ y x, InWindow p s h w oh ow y x ∧ v = g y x}) m)
    (hex : ∃ y x, InWindow p s h w oh ow y x ∧ ninf ≤ g y x) : IsWindowMax p s h w g oh ow m := by
  have hle : ∀ y x, InWindow p s h w oh ow y x → g y x ≤ m := fun y x hw => hm.2 (Set.mem_insert_of_mem _ ⟨y, x, hw, rfl⟩)
  refine ⟨?_, hle⟩
  rcases hm.1 with rfl | ⟨y, x, hw, rfl⟩
  · obtain ⟨y, x, hw, hge⟩ := hex
    exact ⟨y, x, hw, le_antisymm (hle y x hw) hge⟩
  · exact ⟨y, x, hw, rfl⟩

/-- **C40.** On a rank-4 input the output has one entry per pool window, and it is the maximum of the window.
Elements must not be below the layer's minus infinity (no float is, except NaN). -/
theorem C40_window_max {n c h w p s : Nat} (hd : Dims [n, c, h, w]) (hp : 0 < p) (hs : 0 < s)
    (hph : p ≤ h ∨ p - h < s) (hpw : p ≤ w ∨ p - w < s) (f : List Nat → T) (ninf : T)
    (hf : ∀ idx, ValidIdx [n, c, h, w] idx → ninf ≤ f idx) (inp : Option (Tensor T)) :
    ∃ m, MaxPool.forward (ofFn [n, c, h, w] f) ⟨p, s, 0, ninf, inp⟩ =
        (.ok (ofFn [n, c, poolOut p s h, poolOut p s w] m), ⟨p, s, 0, ninf, some (ofFn [n, c, h, w] f)⟩) ∧
      ∀ i j oh ow, ValidIdx [n, c, poolOut p s h, poolOut p s w] [i, j, oh, ow] →
        IsWindowMax p s h w (fun y x => f [i, j, y, x]) oh ow (m [i, j, oh, ow]) := by
  obtain ⟨m, h1, h2⟩ := pool_greatest hd hp hs hph hpw f ninf inp
  refine ⟨m, h1, fun i j oh ow hv => ?_⟩
  obtain ⟨_, _, _, _, he, hi, hj, hoh, how⟩ := valid4_iff.1 hv
  simp only [List.cons.injEq, and_true] at he
  obtain ⟨rfl, rfl, rfl, rfl⟩ := he
  have hin := window_corner hp hs (hd.pos h (by simp)) (hd.pos w (by simp)) hoh how
  exact windowMax_of_greatest (h2 i j oh ow hv)
    ⟨_, _, hin, hf _ (valid4_iff.2 ⟨_, _, _, _, rfl, hi, hj, hin.2.2.1, hin.2.2.2.2.2⟩)⟩

omit [LinearOrder T] [Zero T] in
/-- When the pool fits into the input, there are `floor((in - pool) / stride) + 1` windows per axis and every
window is a complete `p` by `p` square. -/
theorem poolOut_full {p s h w oh ow : Nat} (hp : 0 < p) (hs : 0 < s) (hph : p ≤ h) (hpw : p ≤ w)
    (hoh : oh < poolOut p s h) (how : ow < poolOut p s w) :
    poolOut p s h = (h - p) / s + 1 ∧ poolOut p s w = (w - p) / s + 1 ∧
    ∀ y x, InWindow p s h w oh ow y x ↔ (oh * s ≤ y ∧ y < oh * s + p) ∧ ow * s ≤ x ∧ x < ow * s + p := by
  have b1 := (poolOut_window hs hp (by omega) hoh).2 hph
  have b2 := (poolOut_window hs hp (by omega) how).2 hpw
  refine ⟨if_pos hph, if_pos hpw, ?_⟩
  intro y x
  constructor
  · rintro ⟨h1, h2, _, h4, h5, _⟩
    exact ⟨⟨h1, h2⟩, h4, h5⟩
  · rintro ⟨⟨h1, h2⟩, h4, h5⟩
    exact ⟨h1, h2, by omega, h4, h5, by omega⟩

/-- When the pool fits into the input, the output has `floor((in - pool) / stride) + 1` rows and columns and every entry is the
maximum of a complete `p` by `p` square: it occurs in the square and no entry of the square is larger. -/
theorem C40_full_windows {n c h w p s : Nat} (hd : Dims [n, c, h, w]) (hp : 0 < p) (hs : 0 < s) (hph : p ≤ h) (hpw : p ≤ w)
    (f : List Nat → T) (ninf : T) (hf : ∀ idx, ValidIdx [n, c, h, w] idx → ninf ≤ f idx) (inp : Option (Tensor T)) :
    ∃ m, (MaxPool.forward (ofFn [n, c, h, w] f) ⟨p, s, 0, ninf, inp⟩).1 = .ok (ofFn [n, c, (h - p) / s + 1, (w - p) / s + 1] m) ∧
      ∀ i j oh ow, i < n → j < c → oh < (h - p) / s + 1 → ow < (w - p) / s + 1 →
        (∃ a < p, ∃ b < p, m [i, j, oh, ow] = f [i, j, oh * s + a, ow * s + b]) ∧
        ∀ a < p, ∀ b < p, f [i, j, oh * s + a, ow * s + b] ≤ m [i, j, oh, ow] := by
  obtain ⟨m, h1, h2⟩ := C40_window_max hd hp hs (Or.inl hph) (Or.inl hpw) f ninf hf inp
  have e1 : poolOut p s h = (h - p) / s + 1 := if_pos hph
  have e2 : poolOut p s w = (w - p) / s + 1 := if_pos hpw
  rw [e1, e2] at h1 h2
  refine ⟨m, by rw [h1], ?_⟩
  intro i j oh ow hi hj ho hw'
  obtain ⟨⟨y, x, hin, hm⟩, hmax⟩ := h2 i j oh ow (valid4_iff.2 ⟨_, _, _, _, rfl, hi, hj, ho, hw'⟩)
  have hfull := (poolOut_full hp hs hph hpw (by rw [e1]; exact ho) (by rw [e2]; exact hw')).2.2
  obtain ⟨⟨q1, q2⟩, q3, q4⟩ := (hfull y x).1 hin
  refine ⟨⟨y - oh * s, by omega, x - ow * s, by omega, ?_⟩, ?_⟩
  · rw [Nat.add_sub_cancel' q1, Nat.add_sub_cancel' q3]
    exact hm.symm
  · intro a ha b hb
    exact hmax _ _ ((hfull _ _).2 ⟨⟨by omega, by omega⟩, by omega, by omega⟩)

/-- Inputs of any other rank are rejected and leave the layer unchanged. -/
theorem C40_rejects_rank (t : Tensor T) (h : t.shape.rank ≠ 4) (l : MaxPool T) :
    MaxPool.forward t l = (.error .runtimeError, l) := by
  unfold MaxPool.forward
  rw [if_pos h]
  rfl

/-- A pool that exceeds the input by a stride or more is rejected. -/
theorem C40_rejects_pool {n c h w p s : Nat} (f : List Nat → T) (ninf : T) (inp : Option (Tensor T)) (hs : 0 < s)
    (hph : h + s ≤ p ∨ w + s ≤ p) :
    (MaxPool.forward (ofFn [n, c, h, w] f) ⟨p, s, 0, ninf, inp⟩).1 = .error .invalidArgument := by
  have hout : ∀ k : Nat, ∃ z : Int, (⟨p, s, 0, ninf, some (ofFn [n, c, h, w] f)⟩ : MaxPool T).outDim (k : Int) = .ok z ∧
      (k + s ≤ p → z ≤ 0) := by
    intro k
    refine ⟨_, by unfold MaxPool.outDim; rw [if_neg (by simp only; omega)], ?_⟩
    intro hk
    simp only
    have h1 : ((k : Int) - (p : Int)) = -((p - k : Nat) : Int) := by omega
    rw [h1, Int.neg_tdiv, Int.tdiv_eq_ediv_of_nonneg (by omega)]
    have : 1 ≤ (((p - k : Nat) : Int)) / (s : Int) := by
      apply Int.le_ediv_of_mul_le (by omega)
      omega
    omega
  obtain ⟨z1, e1, b1⟩ := hout h
  obtain ⟨z2, e2, b2⟩ := hout w
  unfold MaxPool.forward
  rw [if_neg (by simp)]
  simp only [Mut.modify_bind, Mut.get_bind, Mut.lift_apply]
  unfold MaxPool.pool
  simp only [ofFn_shape, get0, get1, get2, get3, Except.bind_ok', e1, e2]
  rw [make_error]
  · rfl
  · rintro ⟨_, hpos⟩
    have h1 := hpos z1 (by simp)
    have h2 := hpos z2 (by simp)
    rcases hph with h' | h'
    · have := b1 h'; omega
    · have := b2 h'; omega

/-- Hypotheses of `C40_window_max` are met: 2x2 pooling with stride 2 of a 5x4 plane (an odd row is left
over). -/
example : Dims [1, 2, 5, 4] ∧ poolOut 2 2 5 = 2 ∧ poolOut 2 2 4 = 2 ∧ (2 ≤ 5 ∨ 2 - 5 < 2) :=
  ⟨⟨by simp, by simp, by simp⟩, by decide, by decide, by simp⟩

end

/-- With `T = int` the layer's "minus infinity" is 0 (`numeric_limits<int>::infinity()` is 0), below which
`C40_window_max` does not reach, and the property fails: the pooled value of a window of negative numbers is
0, which is not in the window. -/
theorem C66_integer_refuted (inp : Option (Tensor Int)) :
    (MaxPool.forward (ofFn [1, 1, 1, 1] (fun _ => (-1 : Int))) ⟨1, 1, 0, 0, inp⟩).1 = .ok (ofFn [1, 1, 1, 1] (fun _ => 0)) := by
  rfl

/-- With `T = int`, whose "minus infinity" is 0, a window that has an entry of at least 0 is pooled to its maximum, and any other
window to 0.  Missing for the full C66: windows of negative numbers (`C66_integer_refuted`). -/
theorem C66_nonnegative_partial {n c h w p s : Nat} (hd : Dims [n, c, h, w]) (hp : 0 < p) (hs : 0 < s)
    (hph : p ≤ h ∨ p - h < s) (hpw : p ≤ w ∨ p - w < s) (f : List Nat → Int) (inp : Option (Tensor Int)) :
    ∃ m, (MaxPool.forward (ofFn [n, c, h, w] f) ⟨p, s, 0, 0, inp⟩).1 = .ok (ofFn [n, c, poolOut p s h, poolOut p s w] m) ∧
      ∀ i j oh ow, ValidIdx [n, c, poolOut p s h, poolOut p s w] [i, j, oh, ow] →
        ((∃ y x, InWindow p s h w oh ow y x ∧ 0 ≤ f [i, j, y, x]) →
          IsWindowMax p s h w (fun y x => f [i, j, y, x]) oh ow (m [i, j, oh, ow])) ∧
        ((∀ y x, InWindow p s h w oh ow y x → f [i, j, y, x] < 0) → m [i, j, oh, ow] = 0) := by
  obtain ⟨m, h1, h2⟩ := pool_greatest hd hp hs hph hpw f 0 inp
  refine ⟨m, by rw [h1], fun i j oh ow hv => ⟨fun hex => windowMax_of_greatest (h2 i j oh ow hv) hex, fun hneg => ?_⟩⟩
  rcases (h2 i j oh ow hv).1 with h0 | ⟨y, x, hw, h0⟩
  · exact h0
  · have := (h2 i j oh ow hv).2 (Set.mem_insert _ _)
    have := hneg y x hw
    omega

/-- Hypotheses of `C66_nonnegative_partial` are met: a plane with a window of each kind. -/
example : ∃ f : List Nat → Int, (∃ y x, InWindow 2 2 2 4 0 0 y x ∧ 0 ≤ f [0, 0, y, x]) ∧
    ∀ y x, InWindow 2 2 2 4 0 1 y x → f [0, 0, y, x] < 0 := by
  refine ⟨fun i => if i.getD 3 0 < 2 then 3 else -3, ⟨0, 0, by simp [InWindow], by simp⟩, ?_⟩
  rintro y x ⟨-, -, -, h, -⟩
  have : ¬ x < 2 := by omega
  simp [this]

/-! ### Backward -/

section
variable {T : Type} [LinearOrder T] [AddCommMonoid T]

theorem unpool_route {n c h w oh' ow' : Nat} {p s : Int} (hd : Dims [n, c, h, w]) (hdo : Dims [n, c, oh', ow'])
    (f g : List Nat → T) (ninf : T) (route : List Nat → List Nat)
    (hr : ∀ i j oh ow, ValidIdx [n, c, oh', ow'] [i, j, oh, ow] →
      ∃ v y x, (⟨p, s, 0, ninf, some (ofFn [n, c, h, w] f)⟩ : MaxPool T).findMax (ofFn [n, c, h, w] f) i j oh ow =
          .ok (v, ((y : Nat) : Int), ((x : Nat) : Int)) ∧ route [i, j, oh, ow] = [i, j, y, x] ∧
        ValidIdx [n, c, h, w] [i, j, y, x]) :
    MaxPool.backward (ofFn [n, c, oh', ow'] g) ⟨p, s, 0, ninf, some (ofFn [n, c, h, w] f)⟩ =
      (.ok (ofFn [n, c, h, w] (fun i => ((indices [n, c, oh', ow']).map
        (fun j => if route j = i then g j else 0)).sum)), ⟨p, s, 0, ninf, some (ofFn [n, c, h, w] f)⟩) := by
  unfold MaxPool.backward
  simp only [Mut.get_bind, Mut.lift_apply]
  refine Prod.ext ?_ rfl
  unfold MaxPool.unpool
  simp only [ofFn_shape, get0, get1, get2, get3, Except.bind_ok', forI_nat, full_shapeOf]
  refine (forN_indices4 _ _ _ _ _ _).trans ?_
  refine (foldlM_inv (mk := fun q => ofFn [n, c, h, w] q)
    (step := fun q j => upd q (route j) (q (route j) + g j)) (fun _ => 0) ?_).trans ?_
  · intro a ha q
    have hv := mem_indices.1 ha
    obtain ⟨i, j, oh, ow, rfl, hi, hj, hoh, how⟩ := valid4_iff.1 hv
    obtain ⟨v, y, x, h1, h2, h3⟩ := hr i j oh ow hv
    simp only [List.getD_cons_zero, List.getD_cons_succ]
    rw [h1]
    simp only [Except.bind_ok']
    rw [← ints4, at_ofFn hdo g hv]
    simp only [Except.bind_ok']
    rw [← ints4, h2]
    exact modifyAt_ofFn hd q h3 _
  · congr 1
    apply ofFn_congr
    intro idx _
    rw [foldl_upd_acc (v := fun a j => a + g j) (p := route), foldl_add_sum, zero_add]
    generalize indices [n, c, oh', ow'] = L
    induction L with
    | nil => rfl
    | cons a L ih =>
      by_cases ha : route a = idx
      · simp [ha, ih]
      · simp [ha, ih]

theorem unpool_ofFn {n c h w p s : Nat} (hd : Dims [n, c, h, w]) (hp : 0 < p) (hs : 0 < s)
    (f g : List Nat → T) (ninf : T)
    (hf : ∀ idx, ValidIdx [n, c, h, w] idx → ninf < f idx) :
    ∃ route : List Nat → List Nat,
      MaxPool.backward (ofFn [n, c, poolOut p s h, poolOut p s w] g) ⟨p, s, 0, ninf, some (ofFn [n, c, h, w] f)⟩ =
        (.ok (ofFn [n, c, h, w] (fun i => ((indices [n, c, poolOut p s h, poolOut p s w]).map
          (fun j => if route j = i then g j else 0)).sum)), ⟨p, s, 0, ninf, some (ofFn [n, c, h, w] f)⟩) ∧
      ∀ i j oh ow, ValidIdx [n, c, poolOut p s h, poolOut p s w] [i, j, oh, ow] →
        ∃ y x, route [i, j, oh, ow] = [i, j, y, x] ∧ IsFirstMax p s h w (fun y x => f [i, j, y, x]) oh ow y x := by
  have hh := hd.pos h (by simp)
  have hw := hd.pos w (by simp)
  have hdo := dims_poolOut (s := s) hd hp
  have hex : ∀ idx, ∃ rt : List Nat, ∀ i j oh ow, idx = [i, j, oh, ow] → ValidIdx [n, c, poolOut p s h, poolOut p s w] idx →
      ∃ v y x, (⟨p, s, 0, ninf, some (ofFn [n, c, h, w] f)⟩ : MaxPool T).findMax (ofFn [n, c, h, w] f) i j oh ow =
          .ok (v, ((y : Nat) : Int), ((x : Nat) : Int)) ∧ rt = [i, j, y, x] ∧
        IsFirstMax p s h w (fun y x => f [i, j, y, x]) oh ow y x := by
    intro idx
    by_cases hv : ValidIdx [n, c, poolOut p s h, poolOut p s w] idx
    · obtain ⟨i, j, oh, ow, rfl, hi, hj, hoh, how⟩ := valid4_iff.1 hv
      obtain ⟨r, h1, h2⟩ := findMax_ofFn (p := p) (s := s) (oh := oh) (ow := ow) hd f ninf
        (some (ofFn [n, c, h, w] f)) hi hj
      have b1 := poolOut_window hs hp hh hoh
      have b2 := poolOut_window hs hp hw how
      have hin : InWindow p s h w oh ow (oh * s) (ow * s) :=
        ⟨le_refl _, by omega, b1.1, le_refl _, by omega, b2.1⟩
      rcases h2 with ⟨h2, h3⟩ | ⟨y, x, h2, h3, h4⟩
      · exact (lt_irrefl _ (lt_of_lt_of_le (hf _ (valid4_iff.2 ⟨_, _, _, _, rfl, hi, hj, b1.1, b2.1⟩)) (h3 _ _ hin))).elim
      · refine ⟨[i, j, y, x], ?_⟩
        intro i' j' oh' ow' he _
        simp only [List.cons.injEq, and_true] at he
        obtain ⟨rfl, rfl, rfl, rfl⟩ := he
        subst h2
        exact ⟨_, y, x, h1, rfl, h4⟩
    · exact ⟨[], fun _ _ _ _ _ h => (hv h).elim⟩
  choose route hr using hex
  refine ⟨route, unpool_route hd hdo f g ninf route ?_, ?_⟩
  · intro i j oh ow hv
    obtain ⟨v, y, x, h1, h2, h3⟩ := hr _ i j oh ow rfl hv
    obtain ⟨_, _, _, _, he, hi, hj, _⟩ := valid4_iff.1 hv
    simp only [List.cons.injEq, and_true] at he
    obtain ⟨rfl, rfl, rfl, rfl⟩ := he
    exact ⟨v, y, x, h1, h2, valid4_iff.2 ⟨_, _, _, _, rfl, hi, hj, h3.1.2.2.1, h3.1.2.2.2.2.2⟩⟩
  · intro i j oh ow hv
    obtain ⟨v, y, x, _, h2, h3⟩ := hr _ i j oh ow rfl hv
    exact ⟨y, x, h2, h3⟩

omit [AddCommMonoid T] in
/-- The first maximum of a window is unique, so "the" first maximum is well defined. -/
theorem firstMax_unique {p s h w oh ow : Nat} {g : Nat → Nat → T} {y x y' x' : Nat}
    (h1 : IsFirstMax p s h w g oh ow y x) (h2 : IsFirstMax p s h w g oh ow y' x') : y = y' ∧ x = x' := by
  by_contra hne
  have hlex : (y' < y ∨ (y' = y ∧ x' < x)) ∨ (y < y' ∨ (y = y' ∧ x < x')) := by omega
  rcases hlex with hl | hl
  · exact absurd (h1.2.2 _ _ h2.1 hl) (not_lt.2 (h2.2.1 _ _ h1.1))
  · exact absurd (h2.2.2 _ _ h1.1 hl) (not_lt.2 (h1.2.1 _ _ h2.1))

omit [LinearOrder T] in
/-- A sum over index tuples that vanishes unless the first index is `k`. -/
theorem sum_indices_single {d : Nat} {ds : List Nat} {k : Nat} (hk : k < d) (q : List Nat → T)
    (hq : ∀ a rest, a ≠ k → a < d → ValidIdx ds rest → q (a :: rest) = 0) :
    ((indices (d :: ds)).map q).sum = ((indices ds).map (fun rest => q (k :: rest))).sum := by
  have h1 : ((indices (d :: ds)).map q).sum =
      ((List.range d).map (fun a => ((indices ds).map (fun rest => q (a :: rest))).sum)).sum := by
    simp only [indices]
    induction List.range d with
    | nil => simp
    | cons b l ih =>
      simp only [List.flatMap_cons, List.map_append, List.sum_append, List.map_cons, List.sum_cons, ih,
        List.map_map, Function.comp_def]
  rw [h1, ← List.sum_toFinset _ List.nodup_range, List.toFinset_range,
    Finset.sum_eq_single k _ (fun hn => (hn (Finset.mem_range.2 hk)).elim)]
  intro a ha hak
  apply List.sum_eq_zero
  intro z hz
  obtain ⟨rest, hm, rfl⟩ := List.mem_map.1 hz
  exact hq a rest hak (Finset.mem_range.1 ha) (mem_indices.1 hm)

open Classical in
/-- **C41.** `backward(g)` has the shape of the last input, and each of its entries is the sum of `g` over
exactly those windows (in the same sample and channel) whose first row-major maximum is there. -/
theorem C41_routing {n c h w p s : Nat} (hd : Dims [n, c, h, w]) (hp : 0 < p) (hs : 0 < s)
    (f g : List Nat → T) (ninf : T) (hf : ∀ idx, ValidIdx [n, c, h, w] idx → ninf < f idx) :
    ∃ r, MaxPool.backward (ofFn [n, c, poolOut p s h, poolOut p s w] g) ⟨p, s, 0, ninf, some (ofFn [n, c, h, w] f)⟩ =
        (.ok (ofFn [n, c, h, w] r), ⟨p, s, 0, ninf, some (ofFn [n, c, h, w] f)⟩) ∧
      ∀ i j y x, ValidIdx [n, c, h, w] [i, j, y, x] → r [i, j, y, x] =
        ((indices [poolOut p s h, poolOut p s w]).map (fun o =>
          if IsFirstMax p s h w (fun y x => f [i, j, y, x]) (o.getD 0 0) (o.getD 1 0) y x
          then g [i, j, o.getD 0 0, o.getD 1 0] else 0)).sum := by
  obtain ⟨route, h1, h2⟩ := unpool_ofFn hd hp hs f g ninf hf
  refine ⟨_, h1, ?_⟩
  intro i j y x hv
  obtain ⟨_, _, _, _, he, hi, hj, _, _⟩ := valid4_iff.1 hv
  simp only [List.cons.injEq, and_true] at he
  obtain ⟨rfl, rfl, rfl, rfl⟩ := he
  have hne : ∀ a b rest, (a ≠ i ∨ b ≠ j) → ValidIdx [n, c, poolOut p s h, poolOut p s w] (a :: b :: rest) →
      route (a :: b :: rest) ≠ [i, j, y, x] := by
    intro a b rest hab hv' hr
    obtain ⟨a', b', oh, ow, he, _⟩ := valid4_iff.1 hv'
    rw [he] at hr hv'
    obtain ⟨y', x', hr', _⟩ := h2 a' b' oh ow hv'
    rw [hr'] at hr
    simp only [List.cons.injEq, and_true] at hr he
    omega
  rw [sum_indices_single hi]
  · rw [sum_indices_single hj]
    · congr 1
      apply List.map_congr_left
      intro o ho
      obtain ⟨oh, ow, rfl, hoh, how⟩ := valid2_iff.1 (mem_indices.1 ho)
      simp only [List.getD_cons_zero, List.getD_cons_succ]
      obtain ⟨y', x', hr, hm⟩ := h2 i j oh ow (valid4_iff.2 ⟨_, _, _, _, rfl, hi, hj, hoh, how⟩)
      by_cases hfm : IsFirstMax p s h w (fun y x => f [i, j, y, x]) oh ow y x
      · obtain ⟨rfl, rfl⟩ := firstMax_unique hfm hm
        rw [if_pos hr, if_pos hfm]
      · rw [if_neg hfm, if_neg]
        intro hr'
        rw [hr] at hr'
        simp only [List.cons.injEq, and_true, true_and] at hr'
        obtain ⟨rfl, rfl⟩ := hr'
        exact hfm hm
    · intro b rest hb hb' hrest
      exact if_neg (hne i b rest (Or.inr hb) (ValidIdx.cons.2 ⟨hi, ValidIdx.cons.2 ⟨hb', hrest⟩⟩))
  · intro a rest ha ha' hrest
    obtain ⟨b, o1, o2, rfl, _⟩ := valid3_iff.1 hrest
    exact if_neg (hne a b _ (Or.inl ha) (ValidIdx.cons.2 ⟨ha', hrest⟩))

/-- **C41.** The total gradient is conserved. -/
theorem C41_conserves {n c h w p s : Nat} (hd : Dims [n, c, h, w]) (hp : 0 < p) (hs : 0 < s)
    (f g : List Nat → T) (ninf : T) (hf : ∀ idx, ValidIdx [n, c, h, w] idx → ninf < f idx) :
    ∃ r, (MaxPool.backward (ofFn [n, c, poolOut p s h, poolOut p s w] g)
          ⟨p, s, 0, ninf, some (ofFn [n, c, h, w] f)⟩).1 = .ok (ofFn [n, c, h, w] r) ∧
      (ofFn [n, c, h, w] r).data.sum = (ofFn [n, c, poolOut p s h, poolOut p s w] g).data.sum := by
  obtain ⟨route, h1, h2⟩ := unpool_ofFn hd hp hs f g ninf hf
  refine ⟨_, by rw [h1], ?_⟩
  simp only [ofFn_data]
  rw [sum_comm']
  congr 1
  apply List.map_congr_left
  intro j hj
  obtain ⟨i, k, oh, ow, rfl, hi, hk, hoh, how⟩ := valid4_iff.1 (mem_indices.1 hj)
  obtain ⟨y, x, hr, hm⟩ := h2 i k oh ow (mem_indices.1 hj)
  have := sum_ite_eq_mem (nodup_indices [n, c, h, w]) (fun _ => true) (route [i, k, oh, ow]) (g [i, k, oh, ow])
  simp only [List.filter_true, and_true] at this
  rw [this, if_pos]
  rw [hr]
  exact mem_indices.2 (valid4_iff.2 ⟨_, _, _, _, rfl, hi, hk, hm.1.2.2.1, hm.1.2.2.2.2.2⟩)

/-- The state `backward` is stated for is the one `forward` leaves behind, whatever came before. -/
theorem C41_reachable {n c h w p s : Nat} (hd : Dims [n, c, h, w]) (hp : 0 < p) (hs : 0 < s)
    (hph : p ≤ h ∨ p - h < s) (hpw : p ≤ w ∨ p - w < s) (f : List Nat → T) (ninf : T)
    (hf : ∀ idx, ValidIdx [n, c, h, w] idx → ninf < f idx) (inp : Option (Tensor T)) :
    ∃ m, MaxPool.forward (ofFn [n, c, h, w] f) ⟨p, s, 0, ninf, inp⟩ =
        (.ok (ofFn [n, c, poolOut p s h, poolOut p s w] m), ⟨p, s, 0, ninf, some (ofFn [n, c, h, w] f)⟩) := by
  obtain ⟨m, h1, _⟩ := C40_window_max hd hp hs hph hpw f ninf (fun i hi => (hf i hi).le) inp
  exact ⟨m, h1⟩

/-- Without the lower bound on the input the routing fails: if the input is minus infinity everywhere, the
gradients of all windows of a plane go to the plane's corner `(0, 0)`, also those of windows that do not
contain it. -/
theorem C41_minus_infinity_refuted {n c h w p s : Nat} (hd : Dims [n, c, h, w]) (hp : 0 < p) (g : List Nat → T)
    (ninf : T) :
    MaxPool.backward (ofFn [n, c, poolOut p s h, poolOut p s w] g) ⟨p, s, 0, ninf, some (ofFn [n, c, h, w] (fun _ => ninf))⟩ =
      (.ok (ofFn [n, c, h, w] (fun i => ((indices [n, c, poolOut p s h, poolOut p s w]).map
        (fun j => if [j.getD 0 0, j.getD 1 0, 0, 0] = i then g j else 0)).sum)),
       ⟨p, s, 0, ninf, some (ofFn [n, c, h, w] (fun _ => ninf))⟩) := by
  refine unpool_route hd (dims_poolOut hd hp) _ g ninf (fun j => [j.getD 0 0, j.getD 1 0, 0, 0]) ?_
  intro i j oh ow hv
  obtain ⟨_, _, _, _, he, hi, hj, _⟩ := valid4_iff.1 hv
  simp only [List.cons.injEq, and_true] at he
  obtain ⟨rfl, rfl, rfl, rfl⟩ := he
  obtain ⟨r, h1, h2⟩ := findMax_ofFn (p := p) (s := s) (oh := oh) (ow := ow) hd (fun _ => ninf) ninf
    (some (ofFn [n, c, h, w] (fun _ => ninf))) hi hj
  rcases h2 with ⟨rfl, _⟩ | ⟨y, x, _, h3, _⟩
  · exact ⟨ninf, 0, 0, h1, rfl, valid4_iff.2 ⟨_, _, _, _, rfl, hi, hj, hd.pos h (by simp), hd.pos w (by simp)⟩⟩
  · exact (lt_irrefl _ h3).elim

/-- A window that does not contain the corner. -/
example : ¬ InWindow 1 1 1 2 0 1 0 0 ∧ InWindow 1 1 1 2 0 1 0 1 := by simp [InWindow]

/-! ### Padding -/

theorem forN_error_first {σ : Type} {n : Nat} {s : σ} {f : Nat → σ → Res σ} {e : Err} (hn : 0 < n) (h : f 0 s = .error e) :
    forN n s f = .error e := by
  obtain ⟨m, rfl⟩ := Nat.exists_eq_succ_of_ne_zero hn.ne'
  unfold forN
  rw [List.range_succ_eq_map, List.foldlM_cons, h]
  rfl

/-- **C42 is false.** With any positive padding the layer never returns: whenever the output shape is
acceptable, the first window starts at a negative position and reading it throws `std::out_of_range`. -/
theorem C42_padding_refuted {n c h w p s q : Nat} (hd : Dims [n, c, h, w]) (hp : 0 < p) (hs : 0 < s) (hq : 0 < q)
    (hph : p ≤ h ∨ p - h < s) (hpw : p ≤ w ∨ p - w < s) (f : List Nat → T) (ninf : T) (inp : Option (Tensor T)) :
    MaxPool.forward (ofFn [n, c, h, w] f) ⟨p, s, q, ninf, inp⟩ =
      (.error .outOfRange, ⟨p, s, q, ninf, some (ofFn [n, c, h, w] f)⟩) := by
  have hn := hd.pos n (by simp)
  have hc := hd.pos c (by simp)
  have hh := hd.pos h (by simp)
  have hw := hd.pos w (by simp)
  have hdo := dims_poolOut (s := s) hd hp
  unfold MaxPool.forward
  rw [if_neg (by simp)]
  simp only [Mut.modify_bind, Mut.get_bind, Mut.lift_apply]
  refine Prod.ext ?_ rfl
  have o1 : (⟨p, s, q, ninf, some (ofFn [n, c, h, w] f)⟩ : MaxPool T).outDim (h : Int) = .ok ((poolOut p s h : Nat) : Int) :=
    outDim_pool ninf (some (ofFn [n, c, h, w] f)) hs hph
  have o2 : (⟨p, s, q, ninf, some (ofFn [n, c, h, w] f)⟩ : MaxPool T).outDim (w : Int) = .ok ((poolOut p s w : Nat) : Int) :=
    outDim_pool ninf (some (ofFn [n, c, h, w] f)) hs hpw
  unfold MaxPool.pool
  simp only [ofFn_shape, get0, get1, get2, get3, Except.bind_ok', o1, o2]
  rw [← ints4, make_dims hdo]
  simp only [Except.bind_ok', forI_nat, zeros_shapeOf]
  apply forN_error_first hn
  apply forN_error_first hc
  apply forN_error_first (poolOut_pos _ _ _)
  apply forN_error_first (poolOut_pos _ _ _)
  unfold MaxPool.findMax
  simp only [ofFn_shape, get2, get3, Except.bind_ok', forI_nat]
  rw [forN_error_first hp (e := .outOfRange)]
  · rfl
  · rw [if_neg (by push_cast; omega)]
    apply forN_error_first hp
    rw [if_neg (by push_cast; omega)]
    unfold Tensor.at_
    rw [ofFn_shape, computeFlatIndex_range rfl]
    · rfl
    · rintro ⟨idx, he, hv⟩
      obtain ⟨i, j, y, x, rfl, _⟩ := valid4_iff.1 hv
      rw [ints4] at he
      simp only [List.cons.injEq, and_true] at he
      omega

/-- Hypotheses of `C42_padding_refuted` are met: 2x2 pooling, stride 2, padding 1. -/
example : Dims [1, 1, 4, 4] ∧ (2 ≤ 4 ∨ 2 - 4 < 2) := ⟨⟨by simp, by simp, by simp⟩, by simp⟩

end
end SmartDNN
