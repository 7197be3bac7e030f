import Verif.Proofs.Broadcast

/-! Lemmas about `reshape`. -/

namespace SmartDNN
open Spec

theorem reshapeSize_aux {es : List Nat} (hp : ∀ d ∈ es, 0 < d) (hi : ∀ d ∈ es, d < 2 ^ 31) (acc : Nat)
    (hacc : acc < sizeMod) (ha0 : 0 < acc) :
    (ints es).foldlM (fun newSize d =>
      if newSize > (sizeMod - 1) / toSizeT d then Except.error Err.overflowError
      else Except.ok ((newSize * toSizeT d) % sizeMod)) acc =
    if acc * es.prod < sizeMod then Except.ok (acc * es.prod) else Except.error Err.overflowError := by
  induction es generalizing acc with
  | nil => simp [hacc]
  | cons d es ih =>
    have hd := hp d (by simp)
    have hd2 := hi d (by simp)
    have hes : 0 < es.prod := prod_pos_of (fun x hx => hp x (by simp [hx]))
    simp only [ints_cons, List.foldlM_cons]
    rw [List.prod_cons]
    rw [toSizeT_nat (by omega)]
    have hiff : acc > (sizeMod - 1) / d ↔ ¬ acc * d < sizeMod := by
      rw [gt_iff_lt, Nat.div_lt_iff_lt_mul hd]
      unfold sizeMod; omega
    by_cases h : acc * d < sizeMod
    · rw [if_neg (by rw [hiff]; simpa using h)]
      simp only [Except.bind_ok']
      rw [Nat.mod_eq_of_lt h, ih (fun x hx => hp x (by simp [hx])) (fun x hx => hi x (by simp [hx])) _ h
        (Nat.mul_pos ha0 hd), Nat.mul_assoc]
    · rw [if_pos (by rw [hiff]; exact h)]
      simp only [Except.bind_error']
      rw [if_neg]
      intro h2
      apply h
      refine lt_of_le_of_lt ?_ h2
      rw [← Nat.mul_assoc]
      exact Nat.le_mul_of_pos_right _ hes

theorem reshapeSize_ints {es : List Nat} (hp : ∀ d ∈ es, 0 < d) (hi : ∀ d ∈ es, d < 2 ^ 31) :
    reshapeSize (ints es) =
      if es.prod < sizeMod then Except.ok es.prod else Except.error Err.overflowError := by
  have := reshapeSize_aux hp hi 1 (by decide) (by decide)
  unfold reshapeSize
  simpa using this

theorem dvd_prod_of_mem {d : Nat} {es : List Nat} (h : d ∈ es) : d ∣ es.prod := by
  induction es with
  | nil => simp at h
  | cons e es ih =>
    rw [List.prod_cons]
    rcases List.mem_cons.1 h with rfl | h
    · exact Nat.dvd_mul_right _ _
    · exact Nat.dvd_mul_left_of_dvd (ih h) _

/-- What `reshape` does to a shape object, spelled out. -/
theorem reshapeM_eq (dims : List Int) (s : Shape) :
    Shape.reshapeM dims s =
      match validateDimensions dims with
      | .error e => (.error e, s)
      | .ok _ => match reshapeSize dims with
        | .error e => (.error e, s)
        | .ok n => if s.size = n then (.ok (), { s with dims := dims, stride := calculateStride dims })
                   else (.error .runtimeError, s) := by
  unfold Shape.reshapeM
  show Mut.bind _ _ s = _
  simp only [Mut.bind, Mut.lift]
  cases validateDimensions dims with
  | error e => rfl
  | ok u =>
    show Mut.bind _ _ s = _
    simp only [Mut.bind]
    cases reshapeSize dims with
    | error e => rfl
    | ok n =>
      show Mut.bind _ _ s = _
      simp only [Mut.bind, Mut.get]
      by_cases h : s.size = n
      · subst h
        simp only [ne_eq, not_true_eq_false, if_false, if_true]
        rfl
      · simp only [ne_eq, h, not_false_eq_true, if_true, if_false]
        rfl

theorem reshape_shapeOf {ds es : List Nat} (hne : es ≠ []) (hp : ∀ d ∈ es, 0 < d)
    (hl : ds.prod < 2 ^ 31) (h : es.prod = ds.prod) :
    (shapeOf ds).reshape (ints es) = .ok (shapeOf es) := by
  have hl' : es.prod < sizeMod := by rw [h]; exact lt_of_lt_of_le hl (by decide)
  have hi : ∀ d ∈ es, d < 2 ^ 31 := by
    intro d hd
    rw [← h] at hl
    refine lt_of_le_of_lt ?_ hl
    exact Nat.le_of_dvd (prod_pos_of hp) (dvd_prod_of_mem hd)
  unfold Shape.reshape Mut.exec
  rw [reshapeM_eq, validate_ints hne hp, reshapeSize_ints hp hi, if_pos hl']
  simp only [shapeOf_size, h, if_true]
  rw [calculateStride_ints hp hl']
  unfold shapeOf
  rw [h]

section
variable {T : Type}

theorem tensor_reshape_eq (t : Tensor T) (dims : List Int) :
    t.reshape dims = (t.shape.reshape dims).map (fun s => { t with shape := s }) := by
  unfold Tensor.reshape Tensor.reshapeM Shape.reshape Mut.exec
  simp only
  rcases h : Shape.reshapeM dims t.shape with ⟨r, s⟩
  cases r <;> rfl

theorem reshape_data {ds es : List Nat} (t : Tensor T) (ht : t.shape = shapeOf ds) (hne : es ≠ [])
    (hp : ∀ d ∈ es, 0 < d) (hl : ds.prod < 2 ^ 31) (h : es.prod = ds.prod) :
    t.reshape (ints es) = .ok ⟨shapeOf es, t.data⟩ := by
  rw [tensor_reshape_eq, ht, reshape_shapeOf hne hp hl h]
  rfl

theorem reshaped_eq {ds es : List Nat} (t : Tensor T) (ht : t.shape = shapeOf ds) (he : Dims es)
    (h : es.prod = ds.prod) : t.reshape (ints es) = .ok ⟨shapeOf es, t.data⟩ :=
  reshape_data t ht he.ne he.pos (h ▸ he.lt) h

end
end SmartDNN
