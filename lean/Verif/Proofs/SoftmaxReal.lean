import Verif.Proofs.Softmax
import Verif.Proofs.RealFns

/-! Softmax over the reals. -/

namespace SmartDNN
open Spec

theorem foldMax_spec (n : Nat) (r : Nat → ℝ) :
    (∃ j ≤ n, foldMax n r = r j) ∧ ∀ j ≤ n, r j ≤ foldMax n r := by
  unfold foldMax
  induction n with
  | zero => simp
  | succ n ih =>
    rw [List.range_succ, List.foldl_append]
    simp only [List.foldl_cons, List.foldl_nil]
    obtain ⟨⟨j, hj, h1⟩, h2⟩ := ih
    split
    · rename_i h
      refine ⟨⟨n + 1, le_refl _, rfl⟩, ?_⟩
      intro k hk
      rcases Nat.lt_or_ge n k with h' | h'
      · rw [show k = n + 1 by omega]
      · exact (h2 k h').trans h.le
    · rename_i h
      refine ⟨⟨j, by omega, h1⟩, ?_⟩
      intro k hk
      rcases Nat.lt_or_ge n k with h' | h'
      · rw [show k = n + 1 by omega]; exact not_lt.1 h
      · exact h2 k h'

theorem rowMax_spec {ds : List Nat} (hp : ∀ d ∈ ds, 0 < d) (f : List Nat → ℝ) (b : Nat) :
    (∃ y, ValidIdx ds y ∧ rowMax ds f b = f (b :: y)) ∧ ∀ y, ValidIdx ds y → f (b :: y) ≤ rowMax ds f b := by
  have hpp := prod_pos_of hp
  obtain ⟨⟨j, hj, h1⟩, h2⟩ := foldMax_spec (ds.prod - 1) (fun j => f (b :: (indices ds).getD j []))
  constructor
  · obtain ⟨x, hx, _, hi⟩ := exists_idx_of_lt (ds := ds) (k := j) (by omega)
    refine ⟨x, hx, ?_⟩
    unfold rowMax
    rw [h1]
    simp [List.getD_eq_getElem?_getD, hi]
  · intro y hy
    have hr := ravel_lt hy
    have := h2 (ravel ds y) (by omega)
    have hi := indices_ravel hy
    simp only [List.getD_eq_getElem?_getD, hi, Option.getD_some] at this
    exact this

theorem total_pos {ds : List Nat} (hp : ∀ d ∈ ds, 0 < d) {f : List Nat → ℝ}
    (h : ∀ y, ValidIdx ds y → 0 < f y) : 0 < total ds f := by
  have hpp := prod_pos_of hp
  unfold total
  apply List.sum_pos
  · intro x hx
    obtain ⟨y, hy, rfl⟩ := List.mem_map.1 hx
    exact h y (mem_indices.1 hy)
  · intro h0
    have := congrArg List.length h0
    rw [List.length_map, length_indices, List.length_nil] at this
    omega

theorem le_total {ds : List Nat} {f : List Nat → ℝ}
    (h : ∀ y, ValidIdx ds y → 0 ≤ f y) {x : List Nat} (hx : ValidIdx ds x) : f x ≤ total ds f := by
  unfold total
  apply List.single_le_sum
  · intro z hz
    obtain ⟨y, hy, rfl⟩ := List.mem_map.1 hz
    exact h y (mem_indices.1 hy)
  · exact List.mem_map.2 ⟨x, mem_indices.2 hx, rfl⟩

theorem rowSum_eq (ds : List Nat) (f : List Nat → ℝ) (b : Nat) :
    rowSum ds f b = total ds (fun y => Real.exp (f (b :: y) - rowMax ds f b)) := by
  unfold rowSum total
  rw [lsum_eq_sum]
  rfl

theorem one_le_rowSum {ds : List Nat} (hp : ∀ d ∈ ds, 0 < d) (f : List Nat → ℝ) (b : Nat) :
    1 ≤ rowSum ds f b := by
  obtain ⟨⟨y, hy, h1⟩, _⟩ := rowMax_spec hp f b
  rw [rowSum_eq]
  have := le_total (ds := ds) (f := fun y => Real.exp (f (b :: y) - rowMax ds f b))
    (fun y _ => (Real.exp_pos _).le) hy
  simp only [h1, sub_self, Real.exp_zero] at this
  simpa [h1] using this

/-- Subtracting a per-row constant does not change softmax. -/
theorem softmax_shift (ds : List Nat) (f : List Nat → ℝ) (k : Nat → ℝ) (idx : List Nat) :
    Real.exp (f idx - k (idx.headD 0)) / total ds (fun y => Real.exp (f (idx.headD 0 :: y) - k (idx.headD 0))) =
      softmax ds f idx := by
  unfold softmax
  simp only [Real.exp_sub]
  simp only [div_eq_mul_inv]
  rw [total_mul_right]
  have := Real.exp_pos (k (idx.headD 0))
  rw [mul_inv, inv_inv]
  field_simp

theorem softmaxForward_real {d : Nat} {ds : List Nat} (hd : Dims (d :: ds)) (hne : ds ≠ []) (f : List Nat → ℝ) :
    Act.softmaxForward (ofFn (d :: ds) f) = .ok (ofFn (d :: ds) (softmax ds f)) := by
  rw [softmaxForward_ofFn hd hne]
  congr 1
  apply ofFn_congr
  intro idx _
  rw [rowSum_eq]
  exact softmax_shift ds f (rowMax ds f) idx

theorem rowGrad_eq {ds : List Nat} (S g : List Nat → ℝ) (b : Nat) {x : List Nat} (hx : ValidIdx ds x) :
    rowGrad ds S g b x = S (b :: x) * (g (b :: x) - total ds (fun y => S (b :: y) * g (b :: y))) := by
  unfold rowGrad
  have h1 : (fun a y => if x = y then a + S (b :: x) * (1 - S (b :: y)) * g (b :: y)
      else a - S (b :: x) * S (b :: y) * g (b :: y)) =
      fun (a : ℝ) y => a + ((if y = x then S (b :: x) * g (b :: y) else 0) - S (b :: x) * (S (b :: y) * g (b :: y))) := by
    funext a y
    by_cases h : x = y
    · subst h; simp; ring
    · have : ¬ y = x := fun h' => h h'.symm
      simp only [h, this, if_false]; ring
  rw [h1, foldl_add_sum, zero_add]
  change total ds _ = _
  rw [total_sub, total_single hx (fun y => S (b :: x) * g (b :: y)), total_mul_left]
  ring

theorem softmaxBackward_real {d : Nat} {ds : List Nat} (hd : Dims (d :: ds)) (hne : ds ≠ []) (f g : List Nat → ℝ) :
    Act.softmaxBackward (ofFn (d :: ds) f) (ofFn (d :: ds) g) = .ok (ofFn (d :: ds) (fun idx =>
      softmax ds f idx * (g idx - total ds (fun y =>
        softmax ds f (idx.headD 0 :: y) * g (idx.headD 0 :: y))))) := by
  rw [softmaxBackward_ofFn hd hne]
  congr 1
  apply ofFn_congr
  intro idx hv
  obtain ⟨b, x, rfl, hb, hx⟩ := validIdx_cons_iff.1 hv
  simp only [List.headD_cons, List.tail_cons]
  have : (fun idx : List Nat => MathFn.exp (f idx - rowMax ds f (idx.headD 0)) / rowSum ds f (idx.headD 0)) =
      softmax ds f := by
    funext idx
    rw [rowSum_eq]
    exact softmax_shift ds f (rowMax ds f) idx
  rw [this, rowGrad_eq _ _ _ hx]

theorem hasDerivAt_softmax {d : Nat} {ds : List Nat} (hp : ∀ d ∈ ds, 0 < d) {f v : List Nat → ℝ}
    {c : ℝ → List Nat → ℝ} (hc : CurveAt (d :: ds) c f v) {b : Nat} {x : List Nat} (hb : b < d) (hx : ValidIdx ds x) :
    HasDerivAt (fun t => softmax ds (c t) (b :: x))
      (softmax ds f (b :: x) * (v (b :: x) - total ds (fun y => softmax ds f (b :: y) * v (b :: y)))) 0 := by
  have hval : ∀ y, ValidIdx ds y → ValidIdx (d :: ds) (b :: y) := fun y hy => ValidIdx.cons.2 ⟨hb, hy⟩
  have hE : ∀ y, ValidIdx ds y → HasDerivAt (fun t => Real.exp (c t (b :: y))) (Real.exp (f (b :: y)) * v (b :: y)) 0 := by
    intro y hy
    have := (hc.2 _ (hval y hy)).exp
    rw [hc.1 _ (hval y hy)] at this
    exact this
  have hZ := hasDerivAt_total (ds := ds) (fun y t => Real.exp (c t (b :: y)))
    (fun y => Real.exp (f (b :: y)) * v (b :: y)) 0 hE
  have hZ0 : total ds (fun y => Real.exp (c 0 (b :: y))) = total ds (fun y => Real.exp (f (b :: y))) :=
    total_congr (fun y hy => by rw [hc.1 _ (hval y hy)])
  have hpos : 0 < total ds (fun y => Real.exp (f (b :: y))) := total_pos hp (fun y _ => Real.exp_pos _)
  have h := (hE x hx).div hZ (by rw [hZ0]; exact hpos.ne')
  rw [hZ0, hc.1 _ (hval x hx)] at h
  have h' : HasDerivAt (fun t => softmax ds (c t) (b :: x)) _ 0 := h
  convert h' using 1
  unfold softmax
  simp only [List.headD_cons]
  set Z := total ds (fun y => Real.exp (f (b :: y)))
  have e : total ds (fun y => Real.exp (f (b :: y)) / Z * v (b :: y)) =
      total ds (fun y => Real.exp (f (b :: y)) * v (b :: y)) / Z := by
    rw [div_eq_mul_inv, ← total_mul_right]
    apply total_congr
    intro y _
    field_simp
  rw [e]
  field_simp

theorem extensional_softmax (d : Nat) (ds : List Nat) : Extensional (d :: ds) (d :: ds) (softmax ds) := by
  intro x y h j hj
  obtain ⟨b, z, rfl, hb, hz⟩ := validIdx_cons_iff.1 hj
  unfold softmax
  simp only [List.headD_cons]
  rw [h _ hj, total_congr (fun w hw => by rw [h (b :: w) (ValidIdx.cons.2 ⟨hb, hw⟩)])]

theorem hasVJP_softmax {d : Nat} {ds : List Nat} (hp : ∀ d ∈ ds, 0 < d) (f : List Nat → ℝ) :
    HasVJP (d :: ds) (d :: ds) (softmax ds) f (fun g idx =>
      softmax ds f idx * (g idx - total ds (fun y =>
        softmax ds f (idx.headD 0 :: y) * g (idx.headD 0 :: y)))) := by
  intro g c v hc
  have h := hasDerivAt_total (ds := d :: ds) (fun j t => g j * softmax ds (c t) j)
    (fun j => g j * (softmax ds f j * (v j - total ds (fun y =>
      softmax ds f (j.headD 0 :: y) * v (j.headD 0 :: y))))) 0 (by
      intro j hj
      obtain ⟨b, x, rfl, hb, hx⟩ := validIdx_cons_iff.1 hj
      exact (hasDerivAt_softmax hp hc hb hx).const_mul _)
  convert h using 1
  rw [total_cons, total_cons]
  congr 1
  apply List.map_congr_left
  intro b _
  simp only [List.headD_cons]
  set G := total ds (fun y => softmax ds f (b :: y) * g (b :: y)) with hG
  set V := total ds (fun y => softmax ds f (b :: y) * v (b :: y)) with hV
  have e1 : total ds (fun x => softmax ds f (b :: x) * (g (b :: x) - G) * v (b :: x)) =
      total ds (fun x => softmax ds f (b :: x) * g (b :: x) * v (b :: x)) - G * V := by
    rw [hV, ← total_mul_left, ← total_sub]
    exact total_congr (fun x _ => by ring)
  have e2 : total ds (fun x => g (b :: x) * (softmax ds f (b :: x) * (v (b :: x) - V))) =
      total ds (fun x => softmax ds f (b :: x) * g (b :: x) * v (b :: x)) - G * V := by
    rw [hG, ← total_mul_right, ← total_sub]
    exact total_congr (fun x _ => by ring)
  rw [e1, e2]

end SmartDNN
